{
 "claims": [
  {
   "property": "C01",
   "status": "proved",
   "theorems": [
    "Pilo.C01_context_restored",
    "Pilo.C01_builtin"
   ],
   "note": "for every lawful path implementation and, as a corollary, for every built-in source; from every reachable context"
  },
  {
   "property": "C02",
   "status": "proved",
   "theorems": [
    "Pilo.C02_lexical_scoping"
   ],
   "note": ""
  },
  {
   "property": "C03",
   "status": "partial",
   "theorems": [
    "Pilo.C03_rewind_partial",
    "Pilo.C03_no_match",
    "Pilo.C03_counterexample"
   ],
   "note": "holds when the nearest matching frame is not the top one or no frame matches; false when it is the top one (the whole stack is dropped), proved as C03_counterexample"
  },
  {
   "property": "C04",
   "status": "proved",
   "theorems": [
    "Pilo.C04_thread_independent"
   ],
   "note": "threading.local is modelled as one state per thread"
  },
  {
   "property": "C05",
   "status": "proved",
   "theorems": [
    "Pilo.C05_errors_append_only",
    "Pilo.C05_between_fields"
   ],
   "note": ""
  },
  {
   "property": "C06",
   "status": "proved",
   "theorems": [
    "Pilo.C06_no_silent_failure",
    "Pilo.C06_builtin",
    "Pilo.C06_form"
   ],
   "note": "Field level for any path implementation satisfying Sane, for all built-in sources, and at form level (an empty error list means every selected field is in the form)."
  },
  {
   "property": "C07",
   "status": "proved",
   "theorems": [
    "Pilo.C07_one_error"
   ],
   "note": ""
  },
  {
   "property": "C08",
   "status": "proved",
   "theorems": [
    "Pilo.C08_all_attempted",
    "Pilo.C08_raises"
   ],
   "note": "Holds for all classes, hooks included."
  },
  {
   "property": "C09",
   "status": "proved",
   "theorems": [
    "Pilo.C09_modes_agree"
   ],
   "note": "For every class table whose munge, filter and validate hooks are functions of the value and which has no others (the hooks may report errors; type fields of polymorphic fields are String fields, as Type is, whose hooks report none), any source and any surrounding context."
  },
  {
   "property": "C10",
   "status": "proved",
   "theorems": [
    "Pilo.C10_constructor",
    "Pilo.Form.map_initSrc"
   ],
   "note": ""
  },
  {
   "property": "C100",
   "status": "proved",
   "theorems": [
    "Pilo.Meta.World.C100_fields",
    "Pilo.Meta.World.C100_mro",
    "Pilo.Meta.World.C100_origin",
    "Pilo.Meta.World.C100_override",
    "Pilo.Meta.World.C100_declares",
    "Pilo.Meta.World.Ex.C100_moves"
   ],
   "note": "For every history of field creations and class declarations with form bases; class bodies use new field objects, each under one name. C100_moves shows that the restriction to overridden and shared names is needed: what another base shows may move."
  },
  {
   "property": "C101",
   "status": "proved",
   "theorems": [
    "Pilo.C101_context_restored",
    "Pilo.C101_errors_append_only",
    "Pilo.UPath.C101_union_same",
    "Pilo.Path.C101_flat",
    "Pilo.Path.C101_flat_make"
   ],
   "note": "For every depth n, with sources that open a tree of unions and mounts. Nest.lawful makes every theorem that is generic in LawfulPath apply to nested sources as well."
  },
  {
   "property": "C102",
   "status": "partial",
   "theorems": [
    "Pilo.C102_plain",
    "Pilo.C102_route_partial",
    "Pilo.Demo.C102_counterexample"
   ],
   "note": "Complete for plain sources mounted at any depth. For a mounted union or mount, value, mapping, sequence and primitive are those of the source, but exists and is_null are decided by value alone, which fails for a mounted mount (counterexample)."
  },
  {
   "property": "C103",
   "status": "partial",
   "theorems": [
    "Pilo.C103_partial",
    "Pilo.C103_flat",
    "Pilo.Demo.C103_counterexample"
   ],
   "note": "At keys of the root. Below it the claim is false: combined sequences of an inner union are read at wrong positions (counterexample)."
  },
  {
   "property": "C104",
   "status": "proved",
   "theorems": [
    "Pilo.C104_refused",
    "Pilo.C104_reads"
   ],
   "note": "json.loads is a parameter; the document is assumed to be a JSON value with distinct keys."
  },
  {
   "property": "C105",
   "status": "proved",
   "theorems": [
    "Pilo.C105_native",
    "Pilo.C105_json",
    "Pilo.C105_config",
    "Pilo.C105_total"
   ],
   "note": "Default, JSON and config sources; the texts of integers are Lib.fmt."
  },
  {
   "property": "C106",
   "status": "partial",
   "theorems": [
    "Pilo.C106_counterexample",
    "Pilo.C106_raises",
    "Pilo.C106_form",
    "Pilo.C106_given_partial"
   ],
   "note": "Fails on Python 3: contextlib.nested does not exist, so the field always raises AttributeError and leaves the state as it was (C106_raises), and so does every form with such a field (C106_form). True part: a value given to map is treated as by the field (C106_given_partial). Python 2, where the hook makes a source of the context object itself, is not modelled."
  },
  {
   "property": "C107",
   "status": "partial",
   "theorems": [
    "Pilo.C107_merged_partial",
    "Pilo.Follow.form",
    "Pilo.Mg.root",
    "Pilo.Demo.C107_null",
    "Pilo.Demo.C107_dots",
    "Pilo.Demo.C107_decimal"
   ],
   "note": "Proved for fields that read in order and whose munge, filter and validate hooks are functions of the value (String, Integer, Float, Boolean, dates, List, Tuple, Dict, SubForm), names without dots, documents without nulls, all merge modes, no merge_depth, both directions. The code does not do it for null, dotted names and Decimal: counterexamples."
  },
  {
   "property": "C108",
   "status": "proved",
   "theorems": [
    "Pilo.C108_json_sequence",
    "Pilo.C108_native_sequence",
    "Pilo.C108_json_mapping",
    "Pilo.C108_native_mapping",
    "Pilo.C108_native_aliases",
    "Pilo.C108_config_sequence",
    "Pilo.C108_config_mapping"
   ],
   "note": "Any path state; texts of config sources are C44."
  },
  {
   "property": "C109",
   "status": "partial",
   "theorems": [
    "Pilo.C109_read_partial",
    "Pilo.C109_recursion",
    "Pilo.C109_entry",
    "Pilo.C109_counterexample"
   ],
   "note": "False for classes with a field called src: the read recurses for ever, or raises AttributeError if src has an entry. C109_read_partial covers all other classes, stored entries and reads inside a mapping."
  },
  {
   "property": "C11",
   "status": "proved",
   "theorems": [
    "Pilo.C11_default",
    "Pilo.C11_missing",
    "Pilo.C11_ignore_missing"
   ],
   "note": "Any field class; hook-free, attach_parent off. Callable defaults are called, not returned, and are outside C11_default."
  },
  {
   "property": "C12",
   "status": "proved",
   "theorems": [
    "Pilo.C12_string",
    "Pilo.C12_native"
   ],
   "note": "Hook-free String field without translations whose value is not ignored. C12_native discharges the source hypotheses for native data."
  },
  {
   "property": "C13",
   "status": "partial",
   "theorems": [
    "Pilo.C13_number_partial",
    "Pilo.C13_integer",
    "Pilo.C13_nan_counterexample"
   ],
   "note": "Full for Integer (C13_integer). For Float the number must not be nan: nan passes both bounds (counterexample)."
  },
  {
   "property": "C14",
   "status": "proved",
   "theorems": [
    "Pilo.C14_nullable",
    "Pilo.C14_not_nullable"
   ],
   "note": "Any field class, including List, Dict and SubForm; no translations, None not among the ignored values."
  },
  {
   "property": "C15",
   "status": "proved",
   "theorems": [
    "Pilo.C15_int_exact",
    "Pilo.C15_no_bool",
    "Pilo.IntOf.numeric"
   ],
   "note": "Exact characterisation of primitive(int) on native sources (and lenient JSON through C18)."
  },
  {
   "property": "C16",
   "status": "partial",
   "theorems": [
    "Pilo.C16_bool_exact",
    "Pilo.C16_every_int",
    "Pilo.C16_long_counterexample"
   ],
   "note": "Exact under Python 3; under Python 2 a long is rejected (witness), where the statement fails."
  },
  {
   "property": "C17",
   "status": "partial",
   "theorems": [
    "Pilo.C17_string_exact",
    "Pilo.C17_float_exact_partial",
    "Pilo.C17_overflow_counterexample"
   ],
   "note": "The float clause fails for integers too large for a double: OverflowError escapes (witness)."
  },
  {
   "property": "C18",
   "status": "proved",
   "theorems": [
    "Pilo.C18_strict",
    "Pilo.C18_strict_int_as_float",
    "Pilo.C18_lenient_extends"
   ],
   "note": "Strict JSON parsing accepts only values of the JSON type; lenient parsing extends it."
  },
  {
   "property": "C19",
   "status": "partial",
   "theorems": [
    "Pilo.C19_json",
    "Pilo.C19_config",
    "Pilo.C19_native_partial",
    "Pilo.C19_none_counterexample",
    "Pilo.C19_alias_counterexample",
    "Pilo.C21_poison_counterexample"
   ],
   "note": "Full for JSON and config sources. On native sources proved without aliases and ignores and for keys naming no attribute of the NONE constant; false otherwise (witnesses)."
  },
  {
   "property": "C20",
   "status": "proved",
   "theorems": [
    "Pilo.C20_json_lookup"
   ],
   "note": "For every history of reads and moves; keys are strings and integers."
  },
  {
   "property": "C21",
   "status": "partial",
   "theorems": [
    "Pilo.C21_resolves",
    "Pilo.C21_complete",
    "Pilo.C21_ignored_partial",
    "Pilo.C21_ignore_counterexample",
    "Pilo.C21_integer_counterexample",
    "Pilo.C21_made_ignored_partial",
    "Pilo.Demo.C21_dotted_counterexample"
   ],
   "note": "Precedence proved as an exact characterisation. The ignores clause holds when the ignored path is reached by appending its last key, and fails when it was cached by a deeper read or contains an integer key (witnesses). Stated also for ignores as given to the constructor; a single dotted key is not ignored (witness)."
  },
  {
   "property": "C22",
   "status": "partial",
   "theorems": [
    "Pilo.C22_positional_partial",
    "Pilo.C22_reads_partial",
    "Pilo.C22_counterexample_src",
    "Pilo.C22_counterexample_method",
    "Pilo.C22_counterexample_empty"
   ],
   "note": "Mapping from a list or tuple equals mapping from the dictionary that has item i under the name of field i (same forms, same errors up to path references), for every class with named, distinctly named, unrenamed, ungrouped fields whose hooks are functions of the value and every sequence, also too short or too long. The full claim is false: positions are looked up by field name although reading uses src; a missing item can be read as a list method; a class without fields raises."
  },
  {
   "property": "C23",
   "status": "proved",
   "theorems": [
    "Pilo.C23_list",
    "Pilo.C23_lengths"
   ],
   "note": "List._parse equals the in-order run of the item field at 0..n-1 followed by dropping the sentinel results; any hooks, sources and contexts."
  },
  {
   "property": "C24",
   "status": "proved",
   "theorems": [
    "Pilo.C24_list_bounds"
   ],
   "note": "Stated after the parse whose items C23 determines; C90_list states it for the items mapped alone, without the lexical evaluator."
  },
  {
   "property": "C25",
   "status": "proved",
   "theorems": [
    "Pilo.C25_tuple",
    "Pilo.C25_arity"
   ],
   "note": "Any hooks, sources and contexts. An example shows that a failing item shifts the later ones."
  },
  {
   "property": "C26",
   "status": "partial",
   "theorems": [
    "Pilo.C26_dict",
    "Pilo.C26_dict_bounds",
    "Pilo.C26_constraints_partial",
    "Pilo.C26_max_keys_zero",
    "Pilo.C26_required_list"
   ],
   "note": "Entry-wise mapping is proved in full; C26_dict_bounds is the outcome of mapping, with the exact errors. The constraints hold except that max_keys=0 is not enforced and required_keys given as a non-empty list raises AttributeError (both proved)."
  },
  {
   "property": "C27",
   "status": "proved",
   "theorems": [
    "Pilo.C27_subform",
    "Pilo.C27_subform_any"
   ],
   "note": "C27_subform: all classes whose hooks do not read form attributes, exact list. C27_subform_any: all classes and hooks; a hook that reads a form attribute may add errors (mid) to the enclosing list itself."
  },
  {
   "property": "C28",
   "status": "proved",
   "theorems": [
    "Pilo.C28_tags",
    "Pilo.C28_no_tags"
   ],
   "note": ""
  },
  {
   "property": "C29",
   "status": "proved",
   "theorems": [
    "Pilo.C29_content",
    "Pilo.C29_reset",
    "Pilo.C29_no_reset"
   ],
   "note": ""
  },
  {
   "property": "C30",
   "status": "partial",
   "theorems": [
    "Pilo.C30_map_partial",
    "Pilo.C30_capture_partial",
    "Pilo.C30_source_partial",
    "Pilo.C30_config_partial",
    "Pilo.C30_union_partial",
    "Pilo.C30_mount_partial",
    "Pilo.C30_ignore",
    "Pilo.C30_bad",
    "Pilo.C30_counterexample",
    "Pilo.C30_json_counterexample",
    "Pilo.C30_config_counterexample"
   ],
   "note": "Capture is proved for forms of any class with any hooks: from any path of any built-in source (C30_source_partial: what src.path().mapping() lists and path[key] reads), and spelled out for dicts, JSON and plain native documents at any depth (C30_map_partial, C30_capture_partial), for a config section (C30_config_partial), for a union of such sources (C30_union_partial: first source wins) and for mounts (C30_mount_partial). It is false of native keys ending in '()', of dotted JSON keys and of config sections under Python 3 (counterexamples). ignore: forms whose hooks are functions of the value, any source. Other strings: any form, any source."
  },
  {
   "property": "C31",
   "status": "proved",
   "theorems": [
    "Pilo.C31_group"
   ],
   "note": "Mappings with string keys (a pattern applied to another key raises TypeError)."
  },
  {
   "property": "C32",
   "status": "proved",
   "theorems": [
    "Pilo.Meta.World.C32_cast",
    "Pilo.Meta.World.C32_rejects",
    "Pilo.C32_poly",
    "Pilo.C32_poly_rejects"
   ],
   "note": "For every history of class declarations, with any number of form bases, and casts, on a model of FormMeta, Types.map and Type.cast; the polymorphic field theorems run the evaluator with the table such a history leaves. Choices are strings."
  },
  {
   "property": "C33",
   "status": "partial",
   "theorems": [
    "Pilo.Meta.World.C33_first_partial",
    "Pilo.Meta.World.Ex.C33_counterexample"
   ],
   "note": "False of the code: Type.probe keeps its first non-empty table for ever, so a subclass declared after a cast is not seen (counterexample proved). Proved: every cast made before a non-empty table exists accepts every identity declared so far."
  },
  {
   "property": "C34",
   "status": "proved",
   "theorems": [
    "Pilo.Meta.World.C34_fields",
    "Pilo.Meta.World.C34_override"
   ],
   "note": "For every history of field creations and class declarations with single inheritance; class bodies use new field objects, each under one name."
  },
  {
   "property": "C35",
   "status": "proved",
   "theorems": [
    "Pilo.C35_partition"
   ],
   "note": "For every heap of forms without dangling references and class table without duplicate field names."
  },
  {
   "property": "C36",
   "status": "proved",
   "theorems": [
    "Pilo.C36_munge",
    "Pilo.Munged.entry",
    "Pilo.C36_identity",
    "Pilo.C36_total"
   ],
   "note": "For every pure function of field and value; Munged describes the result at every depth, Munged.entry per field (NONE removes it); C36_total: it returns on every finite tree. Functions with side effects are outside the statement."
  },
  {
   "property": "C37",
   "status": "proved",
   "theorems": [
    "Pilo.C37_copy"
   ],
   "note": ""
  },
  {
   "property": "C38",
   "status": "proved",
   "theorems": [
    "Pilo.C38_flatten",
    "Pilo.C38_distinct",
    "Pilo.C38_total"
   ],
   "note": "The generator is consumed at once."
  },
  {
   "property": "C39",
   "status": "proved",
   "theorems": [
    "Pilo.UPath.C39_mapping",
    "Pilo.UPath.C39_root",
    "Pilo.UPath.C39_bad"
   ],
   "note": "For union paths after any history of moves and reads, over any list of default/JSON/config sources: the keys are those of the merge (Merged) of what the joined sources report. At the root the merge is always 'combine' (C39_root). Note 'first' with a first present null gives an empty mapping."
  },
  {
   "property": "C40",
   "status": "proved",
   "theorems": [
    "Pilo.UPath.C40_lookup",
    "Pilo.UPath.C40_root"
   ],
   "note": "A key of a union mapping (at the root, or where mapping() was called) leads to exactly the sources listing it, in order; a primitive read is the first one's. C40_unread_counterexample records that below a Join on which mapping() was not called nothing is found: a Join is not subscriptable."
  },
  {
   "property": "C41",
   "status": "proved",
   "theorems": [
    "Pilo.UPath.C41_sequence",
    "Pilo.UPath.C41_item"
   ],
   "note": "Length and items of the concatenation of the picked parts, after any history; assumes no joined source fails to be read as a sequence (otherwise the read fails, in every mode)."
  },
  {
   "property": "C42",
   "status": "partial",
   "theorems": [
    "Pilo.UPath.C42_sequence_partial",
    "Pilo.UPath.C42_mapping_partial",
    "Pilo.UPath.Ex.C42_shallow_counterexample",
    "Pilo.UPath.Ex.C42_deep_counterexample"
   ],
   "note": "True for sequences. False for mappings: Mapping.__init__ compares merge_depth with len(paths), the number of joined sources, not the depth. Counterexamples in both directions; the partial theorem covers the cases in which both lie on the same side of merge_depth."
  },
  {
   "property": "C43",
   "status": "partial",
   "theorems": [
    "Pilo.MPath.C43_route_partial",
    "Pilo.MPath.C43_null",
    "Pilo.MPath.C43_keys",
    "Pilo.MPath.C43_root",
    "Pilo.MPath.C43_unknown_partial",
    "Pilo.MPath.Ex.C43_unknown_counterexample",
    "Pilo.MPath.Ex.C43_union_null_counterexample"
   ],
   "note": "Routing is proved for every set of mounts (default, JSON, config and union paths) and every history. False: an unknown mount point exists as an empty mapping and raises KeyError on primitive/sequence reads; is_null of a mounted union is not that of the union alone. (MountSource only works under Python 2.)"
  },
  {
   "property": "C44",
   "status": "partial",
   "theorems": [
    "Pilo.Config.C44_key_partial",
    "Pilo.Config.C44_sub",
    "Pilo.Config.C44_item",
    "Pilo.Config.C44_sequence",
    "Pilo.Config.Ex.C44_integer_counterexample"
   ],
   "note": "Proved for all string keys, sub-mapping keys and integer indices of strings, after any history, assuming only that brackets are not word characters. False for an integer key of a section: AttributeError rather than absent."
  },
  {
   "property": "C45",
   "status": "proved",
   "theorems": [
    "Pilo.C45_stored",
    "Pilo.C45_read"
   ],
   "note": "Any hooks, any state. C45_stored: an entry is returned and the state does not change, inside and outside of mappings. C45_read: a form none of whose frames is on the context stack; the field is mapped from an empty source and stored, later reads return it unchanged."
  },
  {
   "property": "C46",
   "status": "partial",
   "theorems": [
    "Pilo.C46_name_partial",
    "Pilo.C46_field_partial",
    "Pilo.C46_required_counterexample",
    "Pilo.C46_value_counterexample"
   ],
   "note": "The claim is false of the code: has(name) of a required unmapped field raises FormError, and of a field with a non-null default raises AttributeError (the __get__ of the value is looked up). The partial theorems say exactly when has returns True or False and what it raises."
  },
  {
   "property": "C47",
   "status": "partial",
   "theorems": [
    "Pilo.C47_time",
    "Pilo.C47_datetime",
    "Pilo.C47_date_partial",
    "Pilo.C47_date_counterexample"
   ],
   "note": "Time and Datetime report. Date does not: a string matching none of its formats yields None without error (proved in general)."
  },
  {
   "property": "C48",
   "status": "partial",
   "theorems": [
    "Pilo.C48_number",
    "Pilo.C48_uuid",
    "Pilo.C48_decimal_counterexample",
    "Pilo.C48_overflow_counterexample"
   ],
   "note": "Integer, Float and UUID report. Decimal lets InvalidOperation escape from map; Float lets OverflowError escape for huge integers."
  },
  {
   "property": "C49",
   "status": "proved",
   "theorems": [
    "Pilo.C49_form",
    "Pilo.C49_dict",
    "Pilo.C49_field",
    "Pilo.C49_field_mono",
    "Pilo.C49_form_partial",
    "Pilo.C49_field_partial"
   ],
   "note": "Errors in the list form.map returns (or, for one field, in the current list), for every class whose hooks are functions of the value, nesting and lawful source. A polymorphic field's type field is taken to be a field of a single value (as Type is) whose hooks report nothing; C49_form_partial covers other type fields, with the one further case named there. The errors of a Dict's key field count as being at the Dict."
  },
  {
   "property": "C50",
   "status": "partial",
   "theorems": [
    "Pilo.C50_compositional_partial",
    "Pilo.C50_data_partial",
    "Pilo.C50_union_counterexample",
    "Pilo.C50_mount_counterexample",
    "Pilo.C50_whitespace_counterexample"
   ],
   "note": "For native data, JSON and sections of a configuration, polymorphic fields included: a SubForm field leaves the same forms as mapping its class on the sub-document, adds the same errors with the keys prefixed, and treats exceptions as described. The code violates it for unions (the root combines, the inside does not), mounts (a list that is none) and preserve_whitespace; each is proved by a witness. Left out besides: unmapped options that introduce fields into classes with polymorphic ones (C51_counterexample)."
  },
  {
   "property": "C51",
   "status": "partial",
   "theorems": [
    "Pilo.C51_anywhere_partial",
    "Pilo.C51_counterexample"
   ],
   "note": "Holds for every class whose hooks are functions of the value, source and pair of contexts, whatever the forms' unmapped option, except when the unmapped values may contain a PolymorphicSubForm: then it is false (counterexample)."
  },
  {
   "property": "C52",
   "status": "proved",
   "theorems": [
    "Pilo.Hooks.C52_first",
    "Pilo.Hooks.C52_mismatch",
    "Pilo.Hooks.C52_match",
    "Pilo.Hooks.C52_invokes",
    "Pilo.Hooks.C52_returns"
   ],
   "note": "For every history of calls and attaches of a field's hooks. A later registration attempt calls the stored function with the new one as argument."
  },
  {
   "property": "C53",
   "status": "proved",
   "theorems": [
    "Pilo.C53_hooks_see_values",
    "Pilo.C53_filter_before_validate",
    "Pilo.C53_result_checked"
   ],
   "note": "For every field kind, recursion budget, context and library. The last two take filter/validate (and munge) hooks that only decide; the first takes any hooks."
  },
  {
   "property": "C54",
   "status": "partial",
   "theorems": [
    "Pilo.C54_window_partial",
    "Pilo.C54_datetime_counterexample"
   ],
   "note": "Exact when the bounds have the type of the value read. A datetime is a date and is taken by a Date field as it is; comparing it with a date bound raises TypeError out of map."
  },
  {
   "property": "C55",
   "status": "proved",
   "theorems": [
    "Pilo.C55_parse",
    "Pilo.C55_single",
    "Pilo.C55_refused"
   ],
   "note": "Parsing for arbitrary item fields and hooks; the whole field for hook-free trees."
  },
  {
   "property": "C56",
   "status": "proved",
   "theorems": [
    "Pilo.C56_others",
    "Pilo.C56_field"
   ],
   "note": "For trees whose munge, filter and validate hooks are functions of the value, which may report errors, and which have no others; parents are the subject of C57."
  },
  {
   "property": "C57",
   "status": "proved",
   "theorems": [
    "Pilo.C57_attached",
    "Pilo.C57_form"
   ],
   "note": "C57_form speaks of the state right after the attempt at the field; a later field may return the same object (a shared default) and attach it anew."
  },
  {
   "property": "C58",
   "status": "proved",
   "theorems": [
    "Pilo.C58_blind",
    "Pilo.C58_capture"
   ],
   "note": "For trees whose munge, filter and validate hooks are functions of the value, which may report errors, and which have no others. With unmapped capturing, the entries of the form that are not reset are part of the mapping and must be the same; examples show that this and the reset are needed."
  },
  {
   "property": "C59",
   "status": "proved",
   "theorems": [
    "Pilo.C59_local",
    "Pilo.C59_order",
    "Pilo.C59_counterexample_group"
   ],
   "note": "For trees whose munge, filter and validate hooks are functions of the value, which may report errors, and which have no others, native mappings and fields with a string src. Groups, which look at every key by design, are outside the property; the counterexample shows that they have to be."
  },
  {
   "property": "C60",
   "status": "proved",
   "theorems": [
    "Pilo.C60_constant",
    "Pilo.C60_plain"
   ],
   "note": "Leaf field classes without other hooks, translations and ignored values."
  },
  {
   "property": "C61",
   "status": "partial",
   "theorems": [
    "Pilo.C61_pattern_partial",
    "Pilo.Demo.C61_counterexample_float"
   ],
   "note": "Full for Integer. False for Float: the registered function converts with int, so texts of non-integral numbers are rejected (counterexample)."
  },
  {
   "property": "C62",
   "status": "partial",
   "theorems": [
    "Pilo.C62_capture_partial",
    "Pilo.C62_default",
    "Pilo.C62_missing",
    "Pilo.C62_counterexample_null"
   ],
   "note": "False for null: the TypeError of pattern.match(None) escapes, even for nullable fields (proved for all such fields)."
  },
  {
   "property": "C63",
   "status": "partial",
   "theorems": [
    "Pilo.C63_format_partial",
    "Pilo.C63_unknown",
    "Pilo.Demo.C63_counterexample_unmapped"
   ],
   "note": "False where a named field of the form being mapped cannot be mapped: the constant NOT_SET is formatted (counterexample). Proved for names all of which lead to stored values, and for names that are not attributes."
  },
  {
   "property": "C64",
   "status": "proved",
   "theorems": [
    "Pilo.C64_default_none",
    "Pilo.C64_optional",
    "Pilo.C64_default_wins",
    "Pilo.C64_required",
    "Pilo.C64_not_nullable"
   ],
   "note": ""
  },
  {
   "property": "C65",
   "status": "proved",
   "theorems": [
    "Pilo.C65_ignored",
    "Pilo.C65_kept",
    "Pilo.Demo.C65_counterexample_option"
   ],
   "note": "The option ignore=[...] ignores the list itself; shown as a counterexample."
  },
  {
   "property": "C66",
   "status": "proved",
   "theorems": [
    "Pilo.C66_translated",
    "Pilo.C66_to_none",
    "Pilo.C66_dropped",
    "Pilo.C66_untranslated",
    "Pilo.C66_twice",
    "Pilo.C66_counterexample_unhashable",
    "Pilo.C66_other_type"
   ],
   "note": "Scalars; unhashable values raise TypeError, shown as a counterexample."
  },
  {
   "property": "C67",
   "status": "partial",
   "theorems": [
    "Pilo.Clone.C67_effects",
    "Pilo.Clone.C67_families",
    "Pilo.Clone.C67_copy",
    "Pilo.Clone.C67_apart_partial",
    "Pilo.Clone.C67_constant_attached",
    "Pilo.Clone.C67_constant_unattached",
    "Pilo.Clone.C67_counterexample_shared",
    "Pilo.Clone.C67_counterexample_constant"
   ],
   "note": "Independence is false: copy.copy shares ignores, translations, tags and hooks (proved for every later history), so clone().constant(v) changes the original. True part: fresh copies are faithful, assignments to other fields, further copies and constants of attached fields change nothing; the exact effect of every operation on every field; fields of different families (not copied from one another) never affect each other."
  },
  {
   "property": "C68",
   "status": "partial",
   "theorems": [
    "Pilo.C68_forms_partial",
    "Pilo.C68_field_partial",
    "Pilo.C68_given_partial",
    "Pilo.C68_getattr_partial",
    "Pilo.C68_integer_partial",
    "Pilo.C68_string_partial",
    "Pilo.C68_subforms_partial",
    "Pilo.ValidDemo.C68_capture_counterexample",
    "Pilo.ValidDemo.C68_union_counterexample"
   ],
   "note": "Proved as an invariant of every sequence of operations, for native, JSON, config and mount sources. Partial because the claim is false for unmapped='capture' and for union sources (counterexamples); user hooks that store values themselves or whose result replaces the value (default, compute, parse, munge) are excluded or only guaranteed the constraints."
  },
  {
   "property": "C69",
   "status": "partial",
   "theorems": [
    "Pilo.C69_round_trip_partial",
    "Pilo.Dumps.alike",
    "Pilo.Demo.C69_counterexample"
   ],
   "note": "for fields without hooks, translations and attach_parent, read from the key of their name, keys without path syntax, outside an enclosing ignore_default/tags context; false in general: unvalidated defaults, fields with another source key"
  },
  {
   "property": "C70",
   "status": "proved",
   "theorems": [
    "Pilo.C70_store"
   ],
   "note": "Edits of declared fields; attributes that are no fields are not modelled."
  },
  {
   "property": "C71",
   "status": "partial",
   "theorems": [
    "Pilo.C71_string_partial",
    "Pilo.C71_both",
    "Pilo.C71_list_partial",
    "Pilo.Demo.C71_empty_counterexample",
    "Pilo.Demo.C71_list_counterexample"
   ],
   "note": "Zero and empty arguments are excluded: they allow everything (counterexample). List(length=n) with a number raises."
  },
  {
   "property": "C72",
   "status": "proved",
   "theorems": [
    "Pilo.C72_methods",
    "Pilo.C72_number",
    "Pilo.C72_date"
   ],
   "note": "End to end with mapping for Integer, Float, Date, Time and Datetime; for Decimal and List the bounds themselves."
  },
  {
   "property": "C73",
   "status": "partial",
   "theorems": [
    "Pilo.C73_entries",
    "Pilo.C73_refused",
    "Pilo.C73_parse",
    "Pilo.C73_default",
    "Pilo.Demo.C73_bare_counterexample",
    "Pilo.C73_default_given",
    "Pilo.C73_value_given"
   ],
   "note": "Holds as to which field handles which key; a bare field is then read at its src below the key (counterexample)."
  },
  {
   "property": "C74",
   "status": "partial",
   "theorems": [
    "Pilo.C74_list",
    "Pilo.C74_list_keyword",
    "Pilo.C74_list_missing",
    "Pilo.C74_list_src",
    "Pilo.C74_subform",
    "Pilo.C74_subform_missing",
    "Pilo.C74_subform_fields",
    "Pilo.C74_tuple_partial",
    "Pilo.Demo.C74_tuple_counterexample"
   ],
   "note": "A Tuple of one field given as such is refused (counterexample)."
  },
  {
   "property": "C75",
   "status": "partial",
   "theorems": [
    "Pilo.C75_value_partial",
    "Pilo.C75_instance",
    "Pilo.C75_constant",
    "Pilo.Demo.C75_abstract_counterexample"
   ],
   "note": "Type.abstract().value does not raise (counterexample)."
  },
  {
   "property": "C76",
   "status": "proved",
   "theorems": [
    "Pilo.C76_source",
    "Pilo.C76_place",
    "Pilo.C76_options",
    "Pilo.C76_keywords",
    "Pilo.C76_absent",
    "Pilo.C76_null",
    "Pilo.Demo.C76_tags_counterexample"
   ],
   "note": "For all constructors but Group (C73). C76_absent and C76_null are for arguments without functions as default, and C76_null without ignore and translate."
  },
  {
   "property": "C77",
   "status": "partial",
   "theorems": [
    "Pilo.C77_dict_partial",
    "Pilo.C77_list_partial",
    "Pilo.C77_subform",
    "Pilo.C77_poly",
    "Pilo.C77_items",
    "Pilo.Demo.C77_counterexample"
   ],
   "note": "Not for max_keys=0 and required_keys that are no set, where the code does otherwise (proved); nor length=0. Hook-free classes and item fields."
  },
  {
   "property": "C78",
   "status": "proved",
   "theorems": [
    "Pilo.C78_field",
    "Pilo.C78_form",
    "Pilo.C78_init",
    "Pilo.C78_data",
    "Pilo.C78_json",
    "Pilo.C78_config",
    "Pilo.C78_source",
    "Pilo.Demo.C78_false"
   ],
   "note": "C78_field, C78_form and C78_init hold for every path type with a size that names decrease; Path.sized shows that all built-in sources have one, and C78_data, C78_json, C78_config and C78_source are the instances. The outcome of two budgets is the same for every choice of the exception raised when the budget is used up, so that the budget is never used up. C78_false shows that the condition on names is needed."
  },
  {
   "property": "C79",
   "status": "proved",
   "theorems": [
    "Pilo.C79_read",
    "Pilo.C45_stored",
    "Pilo.ReadDemo.C79_twice_counterexample",
    "Pilo.ReadDemo.C79_subform_counterexample",
    "Pilo.ReadDemo.C79_constant_counterexample",
    "Pilo.ReadDemo.C79_stale_counterexample"
   ],
   "note": "C79_read is for any field and any hooks; it assumes that mapping the field does not itself end in ctx.RewindDidNotStop, which Field.__get__ takes for its own. The last sentence of the statement is witnessed by concrete cases."
  },
  {
   "property": "C80",
   "status": "proved",
   "theorems": [
    "Pilo.C80_computed",
    "Pilo.C80_order",
    "Pilo.ComputedDemo.C80_stale_counterexample"
   ],
   "note": "C80_computed: each mapped field has the value its definition gives with the reads in its hooks replaced by values (Field.settle); C80_order: permuting the declaration changes no value. Hypotheses: Form.Wires (unique names, selected fields wired by at most n steps, fresh or reset), Form.Stops (no such field ends in RewindDidNotStop), SrcArg.Still (source is one document). Whether the second mapping returns, and which errors are collected, is not compared."
  },
  {
   "property": "C81",
   "status": "partial",
   "theorems": [
    "Pilo.C81_roundtrip_partial",
    "Pilo.C81_iso_datetime",
    "Pilo.C81_iso_date",
    "Pilo.C81_time"
   ],
   "note": "Proved for every format but 'iso8601', where the code writes the word itself (proved to fail for all fields), and for every type but datetime.time, which Time.format takes for a format (proved). A Time or Datetime field has one format."
  },
  {
   "property": "C82",
   "status": "proved",
   "theorems": [
    "Pilo.C82_read",
    "Pilo.C82_parsed",
    "Pilo.C82_value",
    "Pilo.Violates.unique",
    "Pilo.ofString_iff",
    "Pilo.ofNumber_iff",
    "Pilo.ofMoment_iff",
    "Pilo.ofList_iff",
    "Pilo.ofDict_iff"
   ],
   "note": "Hook-free fields without translations and attach_parent. Values as text (format) and the order of sets of characters or keys are functions of Lib. The iff theorems tie the texts to the constraints of C12, C13, C24, C26 and C81."
  },
  {
   "property": "C83",
   "status": "proved",
   "theorems": [
    "Pilo.C83_text",
    "Pilo.C83_nothing_lost",
    "Pilo.C83_field",
    "Pilo.C83_constructor",
    "Pilo.C83_line_break_counterexample"
   ],
   "note": "The condition on line breaks is needed (counterexample)."
  },
  {
   "property": "C84",
   "status": "partial",
   "theorems": [
    "Pilo.C84_partial",
    "Pilo.C84_lacks_partial",
    "Pilo.C84_import",
    "Pilo.C84_dotted",
    "Pilo.C84_trailing",
    "Pilo.C84_no_module",
    "Pilo.C84_no_name",
    "Pilo.C84_reported",
    "Pilo.C84_value",
    "Pilo.C84_dotted_counterexample",
    "Pilo.C84_trailing_counterexample"
   ],
   "note": "Holds for modules without dots in their name. For modules in packages the code looks the attribute up in the package (C84_dotted, with a counterexample to the claim); text after the name is ignored (counterexample). The import system, getattr and the letters of re are functions of Lib."
  },
  {
   "property": "C85",
   "status": "partial",
   "theorems": [
    "Pilo.C85_partial",
    "Pilo.C85_raises",
    "Pilo.C85_python3",
    "Pilo.C85_counterexample"
   ],
   "note": "Holds under Python 2; under Python 3 the module is always empty (C85_python3, counterexample). exec is a function of Lib."
  },
  {
   "property": "C86",
   "status": "partial",
   "theorems": [
    "Pilo.C86_keys",
    "Pilo.C86_json_partial",
    "Pilo.C86_config_partial",
    "Pilo.C86_native_partial",
    "Pilo.C86_stale",
    "Pilo.C86_counterexample",
    "Pilo.C86_assigned",
    "Pilo.C86_assigned_below",
    "Pilo.C86_assigned_gone",
    "Pilo.C86_union",
    "Pilo.C86_mount_partial",
    "Pilo.C86_mount_insert_counterexample",
    "Pilo.C86_mount_switch_counterexample",
    "Pilo.C86_mount_index_counterexample"
   ],
   "note": "Keys and text follow the list for native, JSON, config (any history) and union paths (each edit). Values follow the keys when each edit comes before the keys behind it have been read; otherwise the claim is false for every class of path (C86_stale: the old value stays). Mount paths follow the list behind the mount point at indices in range; false elsewhere. Assigned values: in full. Values read from union and mount paths after an edit are not covered."
  },
  {
   "property": "C87",
   "status": "partial",
   "theorems": [
    "Pilo.C87_partial",
    "Pilo.C87_nan_unbounded",
    "Pilo.C87_nan_counterexample"
   ],
   "note": "Exact for every number but nan; nan is taken when there are no bounds, and with a bound InvalidOperation leaves map."
  },
  {
   "property": "C88",
   "status": "proved",
   "theorems": [
    "Pilo.C88_apart",
    "Pilo.C88_data"
   ],
   "note": "Classes are hook-free, without key filters, and their defaults and constants hold no form objects; the form has no value for its fields yet; errors are collected; unmapped='ignore'. Sub forms are compared by class and contents, up to a renaming of new forms; exceptions and errors up to the identity of the form they name. C88_data instantiates it for a dictionary of plain data."
  },
  {
   "property": "C89",
   "status": "proved",
   "theorems": [
    "Pilo.C89_order",
    "Pilo.C89_fewer",
    "Pilo.C89_data"
   ],
   "note": "Conditions as for C88: hook-free classes without key filters whose constants hold no form objects, no values for the fields yet, errors collected, unmapped='ignore'. Values are the same up to a renaming of new sub forms (class and contents); errors up to the identity of the form they name."
  },
  {
   "property": "C90",
   "status": "proved",
   "theorems": [
    "Pilo.C90_list",
    "Pilo.C90_tuple",
    "Pilo.C90_dict",
    "Pilo.C90_list_data"
   ],
   "note": "Conditions as for C88: hook-free fields without key filters whose constants hold no form objects; no translations, ignores or attach_parent on the container; errors collected; every item returns when mapped alone. Sub forms are compared by class and contents, up to a renaming of new forms; errors up to the identity of the form they name. C90_list_data instantiates it for native, JSON and configuration data."
  },
  {
   "property": "C91",
   "status": "proved",
   "theorems": [
    "Pilo.C91_key",
    "Pilo.C91_raises",
    "Pilo.C91_data",
    "Pilo.C91_compute_bare",
    "Pilo.C91_compute"
   ],
   "note": "C91_key, C91_raises and C91_compute_bare are equations of whole runs, for any hooks. C91_data and C91_compute compare result, errors and forms; the field's other hooks and those of the classes must not read form attributes, and attach_parent is off. Groups take no src and are outside C91_key (they ignore it)."
  },
  {
   "property": "C92",
   "status": "partial",
   "theorems": [
    "Pilo.C92_hook",
    "Pilo.C92_ignored_partial",
    "Pilo.Demo.C92_counterexample"
   ],
   "note": "The first sentence holds where defaults are on (C92_hook). ignore_default switches value defaults off (C92_ignored_partial) but a default hook is still called when the source has no value (counterexample)."
  },
  {
   "property": "C93",
   "status": "partial",
   "theorems": [
    "Pilo.Config.C93_text_partial",
    "Pilo.Config.C93_line",
    "Pilo.Config.C93_other",
    "Pilo.Config.Ex.C93_own_line_counterexample",
    "Pilo.Config.Ex.C93_prefix_counterexample",
    "Pilo.Config.Ex.C93_sub_counterexample",
    "Pilo.Config.Ex.C93_section_counterexample"
   ],
   "note": "False of the code for text on the option's own line, for options that are a prefix of an earlier one, for sub-mappings and without a section (counterexamples); proved for the rest."
  },
  {
   "property": "C94",
   "status": "proved",
   "theorems": [
    "Pilo.C94_ignored",
    "Pilo.C94_kept",
    "Pilo.C94_member",
    "Pilo.C94_symm",
    "Pilo.C94_trans"
   ],
   "note": "Equality is specified by the inductive relation Equal, independently of the model's ==."
  },
  {
   "property": "C95",
   "status": "proved",
   "theorems": [
    "Pilo.C95_lenient"
   ],
   "note": "Forms of any depth whose munge, filter and validate hooks are functions of the value and which have no others; the locations of the two sources may differ. The converse is false (example)."
  },
  {
   "property": "C96",
   "status": "proved",
   "theorems": [
    "Pilo.C96_first"
   ],
   "note": "For every class table whose munge, filter and validate hooks are functions of the value and which has no others (the hooks may report errors; type fields of polymorphic fields are String fields, as Type is, whose hooks report none), any source and any surrounding context. Sub forms collect their errors also in raise mode; their parent raises at its next error or at the end."
  },
  {
   "property": "C97",
   "status": "proved",
   "theorems": [
    "Pilo.C97_loosen"
   ],
   "note": "Hook-free classes of any depth. Bounds are compared by what they accept (LessLow, MoreHigh); Loose.lessLow_int and Loose.moreHigh_int show it for integers. The class that selects a polymorphic type stays as it is. Adding a default under ignore_missing changes the forms (example)."
  },
  {
   "property": "C98",
   "status": "partial",
   "theorems": [
    "Pilo.C98_mount",
    "Pilo.C98_mount_refuses",
    "Pilo.C98_mount_reads_partial",
    "Pilo.C98_mount_counterexample",
    "Pilo.C98_union",
    "Pilo.C98_union_refuses",
    "Pilo.C98_union_path",
    "Pilo.C98_union_tuple"
   ],
   "note": "What the constructors accept, wrap and refuse is proved exactly. Reads through a mount are proved for Python 2; under Python 3 the path of a MountSource cannot be made (counterexample)."
  },
  {
   "property": "C99",
   "status": "partial",
   "theorems": [
    "Pilo.C99_partial",
    "Pilo.C99_whitespace",
    "Pilo.C99_text_counterexample",
    "Pilo.C99_file_counterexample",
    "Pilo.C99_case_counterexample"
   ],
   "note": "Holds for parsers. For texts and files, and with preserve_case, the constructor raises whatever the arguments are (proved for all texts and options)."
  },
  {
   "property": "C110",
   "status": "proved",
   "theorems": [
    "Pilo.C110_munged",
    "Pilo.C110_munged_away",
    "Pilo.C110_munged_constant",
    "Pilo.C110_translated_first",
    "Pilo.C110_kept",
    "Pilo.C110_dropped",
    "Pilo.C110_accepted",
    "Pilo.C110_refused",
    "Pilo.C110_default",
    "Pilo.C110_idle",
    "Pilo.C110_validated",
    "Pilo.C110_filtered"
   ],
   "note": "C110_munged, C110_munged_away, C110_translated_first, C110_kept, C110_dropped, C110_accepted and C110_idle are each an equality of two mappings, in any state. C110_refused and C110_default are for fields without attach_parent; C110_refused is for values that are not ignored, C110_default for defaults that are neither functions nor NOT_SET, where the context does not say ignore_default. C110_idle is also for values read from the source, and so are C110_validated and C110_filtered, for fields without default and attach_parent, with any other hooks."
  }
 ]
}
