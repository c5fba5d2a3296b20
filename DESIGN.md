# Formal model of eventbrite/pilo in Lean 4

`pilo` maps source data (native Python values, JSON text, config files, unions and mounts of these) into
*forms*: dictionaries whose entries are computed by declared *fields*.  This directory holds a model of
that code in Lean 4 and machine-checked proofs of the properties listed in `properties.jsonl`;
`MANIFEST.json` says which theorems state which property and what is missing where one is partial.

## Approach

The Python code is modelled function by function as total, computable Lean functions; each definition
cites the lines it models.  Exceptions are values.  The mutable world (context stack, path objects, error
lists, form objects) is one explicit record `St P`, and a computation is `M P α = St P → Except Exc α × St P`,
so the state an exception leaves behind is visible and can be reasoned about.

* **Recursion.**  Python's recursion (fields → sub forms → fields; attribute reads inside hooks → fields) is
  unbounded, so the evaluator takes a recursion budget `n`; running out raises the recursion error, as
  Python does.  Theorems hold for every `n`.
* **Sources.**  The evaluator is generic in the path implementation (`PathOps P`); theorems that need
  something of it assume `LawfulPath`, which is proved for all built-in sources (`Source/Lawful`).
* **Hooks.**  User hooks are programs of a small language (`Prog`) that can return, raise, catch, branch on
  values (continuations are Lean functions), read form attributes, set and delete entries, record errors,
  read the source path, open `with ctx(...)` blocks, create and map forms and map fields.  Theorems over
  hooks quantify over all such programs.
* **The standard library** (`int(str)`, `float`, `strptime`, `uuid.UUID`, `getattr` on data, regular
  expressions, ...) is a parameter `L : Lib`; theorems quantify over it.  `strftime`, which only
  writing moments uses, is a parameter of its own (`K : Clock` in `Moments`).
* **Proof strategy.**  (1) Preservation: a relation between the states before and after holds of every
  operation and composes (`Ext`, `Keeps`).  (2) Refinement: a lexical semantics without stack and path heap
  (`Lex`) is refined by the evaluator (`LexRef`, `LexEval`).  (3) On the lexical semantics, relational
  arguments between two runs (`Twin`, `Sub`, `Positional`, `Props/Modes`) and logics of "what is reported"
  (`Says`, `Once`, `Hush`, `Locus`).  (4) History invariants for path caches, unions, mounts and class
  declarations.

## Modules (`lean/Verif/`)

| module | contents |
|---|---|
| `Value`, `ValEq` | Python values, constants, exceptions, `Lib`; decidable equality for examples |
| `Source/Path` | `PathPart`, `Path`: keys, caching of `value` (`pilo/source/__init__.py`) |
| `Source/Native` | `DefaultSource`, `JsonSource` resolution |
| `Source/Parse` | the primitive parsers |
| `Source/Simple`, `Config`, `Union`, `Mount` | path objects of each source and their sum `Path` |
| `Source/Ops`, `Lawful` | the interface used by the evaluator; all built-in paths are lawful |
| `Source/Cache`, `Deep` | invariants of path caches over all histories |
| `Core` | state, frames, `pilo/context.py` |
| `Field`, `Eval` | field configuration, hooks; `Field.map`, `__get__`, `Form.map` |
| `FormOps` | `has`, `flatten`, `munge`, `filter`, `copy` |
| `Meta`, `Hook` | `FormMeta`, `attach`, `Types`, `Type.cast`; the `Hook` object |
| `All` | predicates on whole field trees |
| `Ext`, `Keeps` | what every run preserves |
| `Lex`, `LexRef`, `LexEval`, `View` | the lexical semantics and the refinement |
| `Plain`, `Closed`, `Leaf`, `Run` | runs of forms, and of fields whose hooks are functions of the value |
| `Says`, `Once`, `Hush`, `Clean`, `Locus` | failures are reported, once, and at the right path |
| `Source/Again` | reading a path a second time; a path that exists and is not null has a value |
| `Twin`, `Sub`, `Positional` | two runs at paths that read alike |
| `Lax` | two runs, at a path and at one that reads whatever the first reads |
| `Blind` | two runs from states whose forms hold different things |
| `Lone`, `Source/Pin` | two runs from states that differ below the path they are at, or in forms they do not use |
| `Level` | how many nested calls a field without sub forms needs |
| `Builders` | `constant`, `pattern`, `capture`, `format`, `options`, `ignore`, `translate` |
| `Construct` | the constructors of fields; methods that set bounds |
| `Clone` | field objects with references: `clone`, `constant` on attached fields |
| `Fits`, `FitsEval` | what it means for a value to belong in a field; every run leaves only such values in forms |
| `Dump`, `Land` | what the data of a form is; runs of hook-free fields on such data |
| `Fuel` | two runs with different recursion budgets |
| `Source/Tall`, `Rank`, `Room`, `RoomUnion`, `RoomPath`, `Height` | how much is left to read below a path, for every built-in source |
| `Api` | calls into the API and reachable states |
| `Demo`, `Props/*Demo` | concrete instances used in examples |
| `Props/*` | the property theorems, each with a concrete non-trivial case beside it |

Where each property is proved:

| module | properties |
|---|---|
| `Props/Context` | C01–C05 |
| `Props/Silent`, `Forms` | C06, C07, C08, C10, C28, C29 |
| `Props/Modes` | C09, C96 |
| `Props/Fields`, `Unparsable` | C11–C14, C24, C47, C48 |
| `Props/Parse` | C15–C18 |
| `Dots` | `str.split('.')` is said by its result: parts without dots that joined with dots are the text |
| `Props/Resolve` | C19–C21 |
| `Props/Positional` | C22 |
| `Props/Loops` | C23, C25, C26, C31 |
| `Props/Nested` | C27 |
| `Source/Whole` | a path that is back at its root is the one its source made, for every built-in source |
| `Capture` | what `unmapped='capture'` does at any path |
| `Props/Unmapped`, `Props/Captured` | C30 |
| `Props/Types`, `Poly`, `Meta` | C32–C34, C100 |
| `Props/Munge`, `Flatten` | C35–C38 |
| `Props/Union`, `Mount`, `Config` | C39–C44 |
| `Props/Getattr` | C45, C46 |
| `Props/Locus` | C49 |
| `Props/Compose` | C50 |
| `Props/Anywhere` | C51 |
| `Props/Hook` | C52 |
| `Props/Stages`, `Props/StagesExact`, `Props/StagesRead` | C53, C110 |
| `Props/Dates` | C54 |
| `Props/Single` | C55 |
| `Props/Frame` | C56, C57 |
| `Props/Independent` | C58 |
| `Props/Local` | C59 |
| `Props/Builders`, `Format`, `BuildersDemo` | C60–C63 |
| `Props/Options` | C64 |
| `Props/Translate` | C65, C66 |
| `Props/Clone` | C67 |
| `Props/Valid` | C68 |
| `Props/RoundTrip` | C69 |
| `Props/Setattr` | C70 |
| `Props/Construct`, `Arguments`, `ConstructDemo` | C71–C75 |
| `Props/Made`, `Container`, `MadeDemo` | C76, C77, constraints of C26 |
| `Props/Terminates`, `TerminatesDemo` | C78 |
| `Props/Read`, `ReadDemo` | C79 |
| `Perch`, `Sure`, `Wired`, `WiredMap` | mapping fields whose hooks read other fields: the states that occur, runs that agree, the fields |
| `Props/Computed`, `ComputedDemo` | C80 |
| `Moments`, `Props/Strftime` | `Date.format`, `Time.format`, `Datetime.format`; C81 |
| `Props/Violations` | C82: what each class says about a value it rejects |
| `Props/Report` | C83: the text of `FormError` and `FieldError` |
| `Code`, `Props/Code` | `Code.pattern`, `inline_match`, `import_match`, `load`, `compile` (`_parse` is in `Eval`); C84, C85 |
| `Source/Edit`, `Props/Edit` | paths as mutable lists: `__setitem__`, `__delitem__`, `insert` of `Path`, `UnionPath`, `MountPath`; C86 |
| `Props/Decimals` | C87 |
| `Move`, `MoveEval`, `MoveForm` | two runs that differ in the identities of forms and in what the path's owner holds: every hook-free field does the same in both |
| `MoveItems`, `Source/AtHand` | the same for a sequence of items |
| `Props/Apart`, `Props/Order`, `Props/Items` | C88, C89, C90 |
| `Props/Steps`, `Props/DefaultHook` | C91, C92 |
| `Props/Raw`, `Props/Equal` | C93, C94 |
| `Props/Lenient` | C95 |
| `Source/Make`, `Props/Make` | the constructors of the sources; C98, C99, and the ignores of C21 as they are given |
| `Props/FromContext` | `Field.from_context` on Python 3; C106 |
| `Follow`, `FollowField` | fields that read two sources step by step, in the order the sources need |
| `Props/HooksDemo` | a class with `munge`, `filter` and `validate` hooks under the theorems about `ValueHooks` |
| `Merged`, `Props/Merged` | what several JSON documents are together; C107 |
| `Props/Shape` | C108 |
| `Props/Outside` | attribute reads outside a mapping, with `form.src`; C109 |
| `Props/Text` | what a `JsonSource` makes of its text, strict or not; `str(path)`; C104, C105 |
| `Source/Nest`, `NestLaws` | unions and mounts of unions and mounts, to any depth; they are lawful paths |
| `Props/Nest`, `NestSame`, `NestMount` | C101, C102; the paths of `Source/Union` and `Source/Mount` are nested paths |
| `Props/NestUnion` | C103 |
| `Loose`, `Props/Loosen` | two tables of classes, the second of which asks for less, run side by side; C97 |

## Trusted base

* Lean 4.33.0's kernel.  Nothing is proved by compiled evaluation: concrete examples use `decide`/`decide +kernel`,
  which the kernel checks.
* The axioms of Lean's logic; no axiom is added, and there is no `sorry`.
* Mathlib, for a few facts about lists; it is checked by the same kernel.
* That the definitions in `Value`, `Source/*` (without `Lawful`, `Cache`, `Deep`), `Core`, `Field`, `Eval`,
  `FormOps`, `Meta`, `Hook`, `Builders` (its first part), `Construct`, `Clone` say what the Python code does.  This was established by reading; the cited line
  numbers are there so that it can be checked again.  `Lex` is *not* trusted: it is proved equivalent where used.
* That the statements of the theorems say what the English properties say.  The specifications they use
  (for example `Merged`, `Munged`, `IntOf`, `Lies`, `byName`, `Prefixed`, `keysText`, `Fits`, `Dumps`, `Alike`) are defined next to them
  and do not mention the evaluator.

<!-- axioms -->
Of the 433 theorems named in `MANIFEST.json`, 378 depend on
`propext`, `Classical.choice` and `Quot.sound`; the others on fewer:

* `none` only: `C99_partial`, `C99_whitespace`
* `propext` only: `C104_refused`, `C105_total`, `C16_long_counterexample`, `Hooks.C52_first`, `Hooks.C52_match`, `Hooks.C52_returns`, `C72_methods`, `C81_iso_date`, `C81_time`, `C83_line_break_counterexample`, `C86_assigned_gone`, `C99_text_counterexample`, `C99_file_counterexample`, `C99_case_counterexample`
* `propext, Quot.sound` only: `C02_lexical_scoping`, `C03_no_match`, `C03_counterexample`, `C15_no_bool`, `IntOf.numeric`, `C16_every_int`, `C38_flatten`, `C38_distinct`, `C38_total`, `Hooks.C52_mismatch`, `Hooks.C52_invokes`, `C66_twice`, `Clone.C67_constant_unattached`, `Demo.C71_list_counterexample`, `C73_default_given`, `C73_value_given`, `C74_list`, `C74_list_keyword`, `C74_list_missing`, `C74_list_src`, `C74_subform`, `C74_subform_missing`, `C74_subform_fields`, `C74_tuple_partial`, `Demo.C74_tuple_counterexample`, `Demo.C76_tags_counterexample`, `C77_subform`, `C77_poly`, `ofList_iff`, `C83_text`, `C83_field`, `C86_assigned`, `C86_assigned_below`, `C86_mount_insert_counterexample`, `C86_mount_switch_counterexample`, `C86_mount_index_counterexample`, `C94_symm`, `C94_trans`
<!-- /axioms -->

### What is modelled

* `pilo/context.py`: `Context` (push, lookup, `restore`, `rewind`), `Close`, `ContextMixin`; one
  state per thread for `threading.local`.
* `pilo/source/__init__.py`: `PathPart`, `Path` (append/pop/caching/`__str__`), `ParserMixin`.
* `pilo/source/default.py`, `json.py`, `configparser.py`, `union.py`, `mount.py`: resolution, `exists`,
  `is_null`, `primitive`, `sequence`, `mapping`, and the constructors.
* `pilo/fields.py`: errors, `Hook`, `Field` (`_compute` to `map`, `__get__`, `__set__`, `__delete__`), every built-in field class
  (`String`, `Integer`, `Float`, `Decimal`, `Boolean`, `Date`, `Time`, `Datetime`, `Tuple`, `List`, `Dict`, `Code`,
  `UUID`, `Type`, `SubForm`, `PolymorphicSubForm`, `Group`), `constant`, `pattern`, `capture`, `format`,
  `options`, `ignore`, `translate`, `clone`, the constructors and the methods that set bounds, `FormMeta`, `Types`, `Form`.

### What is not modelled, or simplified

* Source data contains no live `Form` objects; sets and dictionaries iterate in list order; data has no cycles.
* In the evaluator, `form.src` (`Form.getattrSrc` follows it where it is a field: C109; C45, C46 speak of classes without a field called `src`), plain (non-field) class attributes, user-defined `__init__` and custom `Missing`/`Invalid` classes;
  `Field.from_context` on Python 2 (on Python 3 it raises, since `contextlib.nested` does not exist: C106); subclasses of `Field` written by users (hooks are modelled, overridden methods are not).
* Regular expressions (but for `Code.pattern`), `strptime`, `iso8601` (assumed installed), `exec`, importing and `getattr`, `repr`/`format`: functions of
  `Lib`.  Choices are lists; alphabets are lists of one-character strings.
* `MountSource.path().append(key)` with a key that is neither string nor integer raises at once.  `Join.path()`
  copies its children (which have equal keys).  In `Path` (`Source/Union`, `Mount`) unions join default, JSON and config
  sources, and mounts hold those and unions; deeper nesting is `Nest` (`Source/Nest`), where a key that is neither string nor
  integer is refused when it is appended.
* `json.loads` and reading a file are parameters of the constructors; `json.loads(encoding=...)`, which Python 3.9 refuses, is
  taken to work.  The items of a union are a list or a tuple.  `ConfigParser()` is only followed as far as the
  constructor gets.
* `in IGNORE` and `==` on live forms are identity; live forms are truthy.
* Resolve hooks push at most one key or one native source; a parse hook's path is `ctx.src_path`;
  `ctx.rewind` is not offered to hooks (it is reached through attribute reads).
* Constructors: negative lengths, bounds and options that are fields or classes, choices that are not lists end
  in `unmodelled`, which is no behaviour of the code; so do `Dict(...)` without two fields and pairs of `Group` whose first item is neither text nor pattern.  A pattern's captures are the matched text.
  The form classes of a `PolymorphicSubForm(...)` are given beside the call.
* `flatten` is consumed at once; `value.__get__` exists on functions only.
* A cached constant `NOT_SET` that came from data counts as cached.
* Class declarations: any number of bases, merged as Python does (C3), all of them form classes; string choices, no clones; class bodies use fresh field objects, each
  under one name.  `inspect.isabstract` of a form class is `False` (as it is in Python for these classes).
* Paths are edited at single indices, not slices.
* Keyword `error` has the values `'collect'` and `'raise'`.

Hypotheses that recur in theorem statements:

* `Live s`, `Inv W s`: the context stack has no dangling references, and the keys pushed since a source frame are the
  keys of its path.  Both hold initially and are preserved by every API call (`Api.lean`).
* `HookFree`: no hooks and no callable default.  `ValueHooks asks`: the `munge`, `filter` and `validate` hooks are
  functions of the value, which report errors (`ctx.errors.invalid(...)`), then return or raise (`Hook.Pure`); there are
  no other hooks and no callable default.  Without `asks`, they are attached to a target, so that `ctx.form` is not read
  to call them.  `HookFree` implies it.
* `LexNode`: hooks that do not read form attributes.  `Mono`: `ValueHooks`, and no polymorphic fields.  `StringTyped`:
  `ValueHooks`, the type fields of polymorphic fields being `String` fields (`Type` is one; the model allows any field
  there) whose hooks report nothing (`Wordless`).  `Single`: the same with any field of a single value.  `Tame`: hook-free, with sober configuration.
* `Bounded C N K`: `ValueHooks`, and at most `K` fields are mapped one inside the other before a name of `N` is followed
  (`depthB` decides it).  `Heights L N`: attributes of values and results of calls are no higher than the value, and
  the names `N` are none of those attributes; `name` never is one of them, because the sentinels have that attribute.
  Sources joined in a union have no aliases there.
* `Clean v`: data without pilo's sentinels (`NONE`, `ERROR`, `NOT_SET`).

## Where the code does not do what the property says

Each of these is proved in the model by a concrete witness, and the strongest true part is kept under `_partial`.

| property | what the code does | theorem |
|---|---|---|
| C03 | `rewind` whose nearest match is the top frame drops the whole stack | `C03_counterexample` |
| C13 | nan passes both bounds of a number field | `C13_nan_counterexample` |
| C16 | under Python 2 a `long` is not accepted as boolean | `C16_long_counterexample` |
| C17, C48 | `float(huge int)`: `OverflowError` escapes from `map` | `C17_overflow_counterexample`, `C48_overflow_counterexample` |
| C19 | a cached absent value has attributes (`NONE.name`); aliases apply only to one-key paths | `C19_none_counterexample`, `C19_alias_counterexample` |
| C21 | `ignores=['a.b']` does not ignore the path whose one key is `a.b` | `Demo.C21_dotted_counterexample` |
| C21 | ignores are bypassed by deeper reads and never match integer keys | `C21_ignore_counterexample`, `C21_integer_counterexample`, `C21_poison_counterexample` |
| C22 | positions are keyed by field name though reading uses `src`; a missing item may be read as a list method; a class without fields raises | `C22_counterexample_src`, `_method`, `_empty` |
| C26 | `max_keys=0` is not enforced; `required_keys` as a list raises `AttributeError` | `C26_max_keys_zero`, `C26_required_list` |
| C30 | native keys ending in `()` are called, not captured | `C30_counterexample` |
| C30 | JSON keys with a dot are taken apart, and reported as missing | `C30_json_counterexample` |
| C30 | under Python 3 a config section cannot be listed (`iteritems`) | `C30_config_counterexample` |
| C33 | the identity table is cached at the first cast, later subclasses are not seen | `Meta.World.Ex.C33_counterexample` |
| C40 | below a joined key on which `mapping()`/`sequence()` was not called nothing is found | `UPath.Ex.C40_unread_counterexample` |
| C42 | mappings compare `merge_depth` with the number of joined sources, not with the depth | `UPath.Ex.C42_shallow_counterexample`, `UPath.Ex.C42_deep_counterexample` |
| C43 | an unknown mount point exists as an empty mapping and raises `KeyError` elsewhere; `is_null` of a mounted union differs | `MPath.Ex.C43_unknown_counterexample`, `MPath.Ex.C43_union_null_counterexample` |
| C44 | an integer key of a section raises `AttributeError` | `Config.Ex.C44_integer_counterexample` |
| C46 | `has(name)` raises for required and for defaulted fields | `C46_required_counterexample`, `C46_value_counterexample` |
| C47 | a string in no format of a `Date` gives `None` without error | `C47_date_counterexample` |
| C48 | `Decimal('abc')`: `InvalidOperation` escapes | `C48_decimal_counterexample` |
| C50 | a union combines at its root only; a list below a mount escapes with `AttributeError`; `preserve_whitespace` looks for the section `[None]` | `C50_union_counterexample`, `C50_mount_counterexample`, `C50_whitespace_counterexample` |
| C51 | unmapped values that are polymorphic sub forms see the enclosing form | `C51_counterexample` |
| C54 | a `datetime` given to a `Date` field with a `date` bound: `TypeError` escapes from `map` | `C54_datetime_counterexample` |
| C61 | `Float.pattern` converts with `int`: `"1.5"` is rejected | `Demo.C61_counterexample_float` |
| C62 | `capture` passes a null to `pattern.match`: `TypeError` escapes | `C62_counterexample_null` |
| C63 | `format` of a field that cannot be mapped formats the constant `NOT_SET` | `Demo.C63_counterexample_unmapped` |
| C65 | the option `ignore=[...]` ignores the list, not its items | `Demo.C65_counterexample_option` |
| C66 | a list or mapping read by a plain field with a translation: `TypeError` escapes from `map` | `C66_counterexample_unhashable` |
| C67 | a copy made by `clone` shares ignored values, translations, tags and hooks with the original for ever; `field.clone().constant(v)` makes the original constant | `Clone.C67_counterexample_shared`, `Clone.C67_counterexample_constant` |
| C68 | with `unmapped='capture'` the raw value a field rejected is stored under the field's name; a `String` at a mapping of a union source gets the internal `Mapping` object | `ValidDemo.C68_capture_counterexample`, `ValidDemo.C68_union_counterexample` |
| C69 | a default that violates its field's constraints is stored but refused when mapped back; a field read from another key than its name is not found there | `Demo.C69_counterexample` |
| C71 | `length=0`, `alphabet=''` and `choices=[]` allow any text; `List(f, length=3)` raises `TypeError` | `Demo.C71_empty_counterexample`, `Demo.C71_list_counterexample` |
| C73 | a bare field of a `Group` is read at its `src` below the key: `Group(Integer('k'))` reads `k.k` | `Demo.C73_bare_counterexample` |
| C74 | `Tuple(f)` and `Tuple('src', f)` raise `TypeError`, `Tuple()` raises `IndexError` | `Demo.C74_tuple_counterexample` |
| C75 | the value of `Type.abstract()` is the default hook object; nothing is raised | `Demo.C75_abstract_counterexample` |
| C76 | `tags=` is documented as several; a list of tags is a `TypeError` (the property is stated for one tag) | `Demo.C76_tags_counterexample` |
| C77 | `max_keys=0` is no limit; `required_keys` given as a list raises `AttributeError` when mapped | `Demo.C77_counterexample` |
| C78 | a form that contains itself without a source of its own is mapped until Python's recursion limit (the property excludes this) | `Demo.C78_false` |
| C79 | an invalid field that a hook reads is reported twice | `ReadDemo.C79_twice_counterexample` |
| C79 | a sub form that a hook reads is not the one the form gets | `ReadDemo.C79_subform_counterexample` |
| C79 | a field that cannot be mapped reads as a constant inside a hook; elsewhere the read raises `AttributeError` | `ReadDemo.C79_constant_counterexample` |
| C79 | mapping a form again without `reset`, hooks are given old values of fields not mapped yet | `ReadDemo.C79_stale_counterexample` |
| C80 | without `reset`, when the form has a value already, computed fields depend on the order of declaration (the property excludes this) | `ComputedDemo.C80_stale_counterexample` |
| C81 | with the format `'iso8601'` every moment is written as that word, which the field rejects (`Datetime`) or reads as `None` (`Date`) | `C81_iso_datetime`, `C81_iso_date` |
| C81 | `Time.format(datetime.time(...))` writes nothing but makes the time the format of the field | `C81_time` |
| C83 | a reason with a line break in it (a value is quoted as it is) passes for further errors | `C83_line_break_counterexample` |
| C84 | `__import__('os.path')` returns `os`, so `os.path:join` is looked up in `os`: it is rejected, and `os.path:name` gives `os.name` | `C84_dotted`, `C84_dotted_counterexample` |
| C84 | the pattern is not anchored at the end: `os:getcwd() is not this` gives `os.getcwd` | `C84_trailing`, `C84_trailing_counterexample` |
| C84 | the module is optional in the pattern, but a name without one is always rejected | `C84_no_module` |
| C85 | `exec(code) in module.__dict__` is an expression under Python 3: the module is empty, whatever the code binds | `C85_python3`, `C85_counterexample` |
| C86 | an edit forgets no cached value: once `a.x` has been read, `path[0] = 'b'` makes the text `b.x` and leaves the value that of `a.x` | `C86_stale`, `C86_counterexample` |
| C86 | `insert(0, …)` on a mount path replaces the mount point; assigning the mount point hides the keys below it, and assigning it back shows them again; an index before the start changes or deletes another key | `C86_mount_insert_counterexample`, `C86_mount_switch_counterexample`, `C86_mount_index_counterexample` |
| C87 | a `nan` decimal compared with a bound raises `decimal.InvalidOperation`, which leaves `map`; text `Decimal()` does not read does the same (C48) | `C87_nan_counterexample`, `C48_decimal_counterexample` |
| C92 | within `ctx(ignore_default=True)` a default hook is still called when the source has no value | `Demo.C92_counterexample` |
| C93 | with `preserve_whitespace`, the part of a multi-line text that is on the line of the option is dropped | `Config.Ex.C93_own_line_counterexample` |
| C93 | an option whose name is a prefix of an earlier one reads as the earlier one | `Config.Ex.C93_prefix_counterexample` |
| C93 | the multi-line options of a sub-mapping read as `''` (only the key is looked for) | `Config.Ex.C93_sub_counterexample` |
| C93 | without a section multi-line texts read as `''` (the header `[None]` is looked for) | `Config.Ex.C93_section_counterexample` |
| C98 | under Python 3 a `MountSource` has no paths (`iteritems`) | `C98_mount_counterexample` |
| C99 | `ConfigSource(text)` and `ConfigSource.from_file` always raise `AttributeError` (`StringIO.StringIO`) | `C99_text_counterexample`, `C99_file_counterexample` |
| C99 | `preserve_case=True` always raises: without a text it is refused, with a text the text's `optionxform` is set | `C99_case_counterexample` |
| C102 | at its mount point a mounted mount does not exist (its value is `NONE`), though it can be mapped | `Demo.C102_counterexample` |
| C103 | combined sequences of a union inside a union are read at wrong positions: `path[-1].key -= offset` re-bases the inner union, not its children | `Demo.C103_counterexample` |
| C106 | on Python 3 a field from the context always raises `AttributeError` (`contextlib.nested`) | `C106_counterexample`, `C106_raises`, `C106_form` |
| C109 | in a class with a field called `src`, reading an attribute without entry outside a mapping recurses for ever (or, if `src` has an entry, raises `AttributeError`): `Field.__get__` asks for `form.src` | `C109_recursion`, `C109_entry`, `C109_counterexample` |
| C107 | in a union `null` is no null, a name with dots reaches nothing, and a `Decimal` cannot be read from a number | `Demo.C107_null`, `Demo.C107_dots`, `Demo.C107_decimal` |

Further observations made while modelling (not all of them proved):

* `nullable` left unset is truthy and accepts `None`.  Defaults are never validated.
* `tags=[...]` raises `TypeError`.  A translation of `None` makes the type's constraints run.
* A validate hook that returns `False` without recording gives `ERROR` with no error recorded.
* `attach_parent` on a value without attributes raises `AttributeError`.  The parent of an item of a `List` is the
  `List` field, not the form.
* Under `error='raise'` a nested `FormError` (a `ValueError`) is caught by the enclosing field and reported again.
* `__get__` inside a mapping of the same form (rewind branch) stores nothing and does not filter `IGNORE`, so a
  failing field read by a hook is reported twice.
* A root form on data that is not a mapping raises `SourceError` out of `map`.
* A polymorphic field whose identity field is absent after an error-free probe is read through `__get__` from an
  empty source.
* A second registration of a hook calls the registered function with the new one as argument.
* `MountSource` and `ConfigSource.as_raw` use `iteritems` and fail under Python 3.  `UnionSource` replaces mappings in the caller's list.
* `FieldError.path` is a reference to the mutable path, not a copy (errors in the model carry both the reference and
  the text at the time of recording).
* `after` and `before` of date fields are inclusive, although the messages say "must be after" and "must be before".
  `Tuple(allow_field=...)` is stored but never consulted, and the check that its fields have defaults never fires.
* The message for a non-field in a `Tuple` uses the format `{0:r}`, which itself raises `TypeError`.
* `Group.__init__` sets `src` to `None`, but `Field.__init__` overwrites it; `Group.attach` tests for form instances, but
  is given classes.
* A `Dict`'s key field is called with the key as value: its parse step is skipped, and its errors are reported at the
  path of the `Dict`.

## Testing the theorems

`seeded/LOG.jsonl` records deliberate bugs planted in a scratch copy of the model: the definition edited, the edit, the
property it breaks, which theorems then failed, and which theorems had to be tightened because they did not.
