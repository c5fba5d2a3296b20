{"id": "C01", "title": "Mapping leaves the context exactly as it found it", "statement": "After form.map(...), field.map(...) or reading a form attribute returns or raises, the context stack is the stack it was before the call and every source path that existed before has the same key sequence (same str()).", "quantifier": "every form class, field tree, hook body, source, context stack, recursion budget and outcome (normal return or any exception)", "why_tests_cant": "an imbalance needs a particular combination of nesting, raising point and lazy attribute access; tests only sample a few", "anchors": ["pilo/context.py:Context.push", "pilo/context.py:Context.restore", "pilo/context.py:Context.rewind", "pilo/fields.py:Field.map", "pilo/fields.py:Field.__get__", "pilo/fields.py:Form._root_map", "pilo/fields.py:Form._nested_map"]}
{"id": "C02", "title": "Context variables are lexically scoped", "statement": "Inside `with ctx(v=x)` ctx.v is x until a nested `with ctx(v=y)` shadows it; leaving a block, normally or by an exception, makes the previous binding visible again; variables not named in the block are unaffected.", "quantifier": "every nesting of with-blocks, every variable, every stack", "why_tests_cant": "nesting depth and exit points are unbounded", "anchors": ["pilo/context.py:Context.__getattr__", "pilo/context.py:Context.push", "pilo/context.py:Context.restore", "pilo/context.py:Close"]}
{"id": "C03", "title": "ctx.rewind followed by its close restores stack and path", "statement": "`with ctx.rewind(stop)` exposes exactly the stack below the frames above the nearest matching frame with a source path trimmed to match, and on exit the stack and path keys are as before; when nothing matches RewindDidNotStop is raised and nothing changes.", "quantifier": "every stack, stop predicate and path", "why_tests_cant": "depends on where source frames and key frames sit in an arbitrarily deep stack", "anchors": ["pilo/context.py:Context.rewind", "pilo/context.py:Context.restore"]}
{"id": "C04", "title": "Contexts of different threads are independent", "statement": "Whatever other threads push or restore on pilo.ctx, and in whatever interleaving, the stack a thread observes is the one produced by its own operations alone, starting from a fresh root frame.", "quantifier": "every number of threads and every interleaving of their context operations", "why_tests_cant": "schedules cannot be enumerated by tests", "anchors": ["pilo/context.py:Context"]}
{"id": "C05", "title": "Collected errors are append-only", "statement": "While a form is being mapped with error='collect', errors already collected are never removed, reordered or changed: each later error list extends the earlier one.", "quantifier": "every form, source, hook body and point in the mapping", "why_tests_cant": "must hold at every intermediate point of every run", "anchors": ["pilo/fields.py:CollectErrors", "pilo/fields.py:Errors.invalid", "pilo/fields.py:Errors.missing", "pilo/fields.py:Form._nested_map"]}
{"id": "C06", "title": "No silent failure of a field without hooks", "statement": "If mapping a hook-free field in collect mode returns pilo.ERROR, or returns NOT_SET for a field with no default, then at least one error was added to ctx.errors by that call; a required field is never dropped silently.", "quantifier": "every hook-free field tree of the built-in field types, every source of plain data (no pilo sentinels such as pilo.ERROR inside, no None keys), every context without ignore_missing, inside a source", "why_tests_cant": "needs every way a value can be rejected at every nesting depth", "anchors": ["pilo/fields.py:Field._compute", "pilo/fields.py:Field._default", "pilo/fields.py:Field._validate"]}
{"id": "C07", "title": "A leaf field reports exactly one error when it fails and none when it succeeds", "statement": "For a hook-free leaf field in collect mode that returns normally: exactly one error is added when the result is ERROR or a missing NOT_SET, and no error is added when a usable value is returned.", "quantifier": "every hook-free leaf field configuration and every source of plain data (no pilo sentinels inside), in a context without ignore_missing", "why_tests_cant": "the input space of values and constraint combinations is infinite", "anchors": ["pilo/fields.py:String._validate", "pilo/fields.py:Number._validate", "pilo/fields.py:Field._map"]}
{"id": "C08", "title": "Every selected field is attempted, in declaration order", "statement": "form.map(src, error='collect') attempts all fields in class order whatever earlier fields did; the errors collected are the concatenation, in field order, of the errors each field contributes, unless some field raises out of the mapping.", "quantifier": "every form class and source", "why_tests_cant": "error combinations grow exponentially with the number of fields", "anchors": ["pilo/fields.py:Form._map", "pilo/fields.py:Form._root_map"]}
{"id": "C09", "title": "error='raise' and error='collect' agree", "statement": "form.map(src, error='raise') raises FormError exactly when form.map(src, error='collect') would return a non-empty list; when it does not raise, the form contents are the same in both modes.", "quantifier": "every form whose hooks are functions of the value, and every source", "why_tests_cant": "two runs have to be compared on every input", "anchors": ["pilo/fields.py:Form.map", "pilo/fields.py:RaiseErrors", "pilo/fields.py:CollectErrors"]}
{"id": "C10", "title": "The constructor raises FormError exactly when mapping reports errors", "statement": "Form(src) raises FormError carrying exactly the errors, in order, that Form().map(src) returns, and otherwise yields the same form contents.", "quantifier": "every form class (hooks included) and every dict, sequence or Source object", "why_tests_cant": "quantifies over all error lists", "anchors": ["pilo/fields.py:Form.__init__", "pilo/fields.py:RaiseErrors", "pilo/fields.py:FormError"]}
{"id": "C11", "title": "Absent value: default verbatim, or exactly one Missing", "statement": "When the source has no value for a field and no hook is set: with a default the default is returned unchanged (never munged, filtered or validated) and no error is added; without one, exactly one Missing error for the current path is added, unless ctx.ignore_missing.", "quantifier": "every field, default, context and source without the key", "why_tests_cant": "all defaults, including ones that would fail the field's own validation", "anchors": ["pilo/fields.py:Field._default", "pilo/fields.py:Field._map"]}
{"id": "C12", "title": "String constraints are enforced exactly", "statement": "A hook-free String field whose source holds string s returns s without error iff every character is in alphabet, min_length <= len(s) <= max_length, the pattern matches and s is one of the choices (each when configured); otherwise ERROR and one Invalid error.", "quantifier": "every string and constraint configuration (no ignores/translations)", "why_tests_cant": "all strings and all bounds, including boundary lengths", "anchors": ["pilo/fields.py:String._validate"]}
{"id": "C13", "title": "Number ranges are inclusive and enforced exactly", "statement": "A hook-free Integer or Float field returns the parsed number v iff min_value <= v <= max_value; otherwise ERROR with one Invalid error.", "quantifier": "every number and pair of bounds", "why_tests_cant": "all integers and floats, including boundaries, NaN and infinities", "anchors": ["pilo/fields.py:Number._validate"]}
{"id": "C14", "title": "Null handling", "statement": "A present null is returned as None without running the parser or type constraints and without error when nullable is true; when nullable is explicitly False it yields ERROR and one 'not nullable' Invalid error; nullable left unset behaves as true.", "quantifier": "every field type, source and nullable setting (hook-free, None neither ignored nor translated)", "why_tests_cant": "all field types at all positions", "anchors": ["pilo/fields.py:Field._compute", "pilo/fields.py:Field._validate"]}
{"id": "C15", "title": "Integer parsing is exact", "statement": "Reading a native value as int succeeds exactly for non-bool integers, floats with an integral value, and strings int() accepts; the result is an integer, never a bool, numerically equal to the source; everything else is a SourceError.", "quantifier": "every native value", "why_tests_cant": "infinite value space with overlapping Python numeric types", "anchors": ["pilo/source/__init__.py:ParserMixin.as_int"]}
{"id": "C16", "title": "Boolean parsing is exact", "statement": "Reading a native value as bool succeeds exactly for bools, integers (true iff non-zero) and strings that lower-case to 0/f/false or 1/t/true; the result is always a bool.", "quantifier": "every native value", "why_tests_cant": "infinite value space", "anchors": ["pilo/source/__init__.py:ParserMixin.as_bool"]}
{"id": "C17", "title": "String and float parsing", "statement": "Reading as string returns strings unchanged and rejects everything else; reading as float returns a float for floats, integers and float() strings and rejects everything else.", "quantifier": "every native value", "why_tests_cant": "infinite value space", "anchors": ["pilo/source/__init__.py:ParserMixin.as_string", "pilo/source/__init__.py:ParserMixin.as_float"]}
{"id": "C18", "title": "Strict JSON never coerces", "statement": "With strict=True a JSON primitive is only accepted as its own JSON type (plus integer read as float): as_string, as_int and as_bool return the stored value itself or raise SourceError; non-strict accepts everything strict accepts with the same result.", "quantifier": "every JSON value and requested type", "why_tests_cant": "infinite value space", "anchors": ["pilo/source/json.py:JsonSource.as_string", "pilo/source/json.py:JsonSource.as_int", "pilo/source/json.py:JsonSource.as_float", "pilo/source/json.py:JsonSource.as_bool"]}
{"id": "C19", "title": "Reading a path is repeatable: caching is transparent", "statement": "However often and in whatever order value/exists/is_null are read while keys are appended and popped, path.value is the value obtained by resolving the current keys one by one from the root.", "quantifier": "every sequence of append, pop and read operations on a path", "why_tests_cant": "the cache state depends on the whole history of reads", "anchors": ["pilo/source/__init__.py:Path.value", "pilo/source/__init__.py:PathPart"]}
{"id": "C20", "title": "JSON path resolution is total and is nested lookup", "statement": "On a JsonSource, path.value never raises: it is the nested lookup of the keys (dotted keys split) or NONE when any step is absent or ill-typed.", "quantifier": "every JSON document and every key sequence of strings and integers", "why_tests_cant": "all documents and paths", "anchors": ["pilo/source/json.py:JsonPath.resolve"]}
{"id": "C21", "title": "Native source resolution precedence", "statement": "On a DefaultSource a key resolves to the container item if present, else the aliased item (top level only), else the attribute; a dotted key is tried literally before being split; a path listed in ignores is absent.", "quantifier": "every container, key, alias map and ignore list", "why_tests_cant": "all containers, keys and alias tables", "anchors": ["pilo/source/default.py:DefaultPath._resolve", "pilo/source/default.py:DefaultPath.resolve"]}
{"id": "C22", "title": "Positional sources map the i-th field from the i-th item", "statement": "Mapping a form from a list or tuple reads the i-th declared field from item i.", "quantifier": "every form class and sequence", "why_tests_cant": "all field counts and sequence lengths, including too short", "anchors": ["pilo/fields.py:Form._seq_source", "pilo/source/default.py:DefaultPath._as_alias"]}
{"id": "C23", "title": "List fields map element-wise in order", "statement": "Parsing a sequence of length n with List(f) maps f at indices 0..n-1 in order and returns the results in order with failed or absent items left out; so at most n items, and exactly n when every item maps.", "quantifier": "every sequence length, item field (hooked or not) and source", "why_tests_cant": "unbounded lengths and arbitrary item outcomes", "anchors": ["pilo/fields.py:List._parse"]}
{"id": "C24", "title": "List length bounds", "statement": "A List value that passes has min_length <= len <= max_length; one outside the bounds yields ERROR with one further Invalid error.", "quantifier": "every list value and bounds", "why_tests_cant": "all lengths", "anchors": ["pilo/fields.py:List._validate"]}
{"id": "C25", "title": "Tuples have exact arity", "statement": "A Tuple field accepts only sequences with exactly as many items as fields, maps item i with field i, and returns a tuple; if all items map, the result has exactly that arity in order.", "quantifier": "every field list and source sequence", "why_tests_cant": "all arities and item outcomes", "anchors": ["pilo/fields.py:Tuple._parse"]}
{"id": "C26", "title": "Dict fields map entry-wise", "statement": "Parsing a mapping with Dict(k, v) yields a dict whose entries are exactly (mapped key, mapped value) for the source keys that pass key_filter, whose value maps and whose key passes the key field, later entries winning on equal mapped keys; required_keys and max_keys are then enforced.", "quantifier": "every mapping, key field, value field and filter", "why_tests_cant": "unbounded mappings and collisions", "anchors": ["pilo/fields.py:Dict._parse", "pilo/fields.py:Dict._validate"]}
{"id": "C27", "title": "A SubForm succeeds exactly when it has no errors, and its errors reach the caller once", "statement": "Mapping a SubForm returns a form iff the nested mapping collected no errors, else ERROR; the errors it collected are appended, once and in order, to the enclosing error list.", "quantifier": "every form class, nesting depth and source", "why_tests_cant": "nesting depth is unbounded", "anchors": ["pilo/fields.py:SubForm._parse", "pilo/fields.py:Form._nested_map"]}
{"id": "C28", "title": "Tag selection", "statement": "form.map(src, tags=T) attempts exactly the fields that carry a tag in T; other fields' stored values and errors are untouched; with no tags all fields are attempted.", "quantifier": "every class of fields whose hooks are functions of the value, tag set, source and prior form state, with unmapped keys ignored", "why_tests_cant": "all tag assignments", "anchors": ["pilo/fields.py:Form._map", "pilo/fields.py:Form._reset"]}
{"id": "C29", "title": "reset drops stale values; without reset they survive", "statement": "form.map(src, reset=True) on a previously used form leaves a selected field in the form only if this mapping produced it; without reset a field that this mapping fails to produce keeps its old value.", "quantifier": "every prior form state, class of fields whose hooks are functions of the value, and source, with unmapped keys ignored", "why_tests_cant": "ranges over all histories of the form object", "anchors": ["pilo/fields.py:Form.map", "pilo/fields.py:Form._reset", "pilo/fields.py:Field.__delete__"]}
{"id": "C30", "title": "unmapped='capture' adds exactly the source keys not already in the form", "statement": "With unmapped='capture', after the declared fields are mapped the form additionally holds every source key that is not already a key of the form, with its raw value, and no existing entry is changed; with 'ignore' nothing is added; other strings raise ValueError.", "quantifier": "every class and source mapping", "why_tests_cant": "unbounded key sets", "anchors": ["pilo/fields.py:Form._unmapped", "pilo/fields.py:Form._map"]}
{"id": "C31", "title": "Group: first matching pattern wins, source order kept", "statement": "A Group returns, in source key order, one (key, captures, value) entry per key that matches some (src, field) pair and whose value maps, using the first matching pair; if no key matches the default is used.", "quantifier": "every pattern list and source mapping", "why_tests_cant": "all key sets and overlapping patterns", "anchors": ["pilo/fields.py:Group._match", "pilo/fields.py:Group._parse"]}
{"id": "C32", "title": "Polymorphic dispatch picks a class that declares the identity", "statement": "Type.cast(value) and PolymorphicSubForm choose a class, in the hierarchy below the type field's class, whose own type field lists the probed identity in its choices; identities nobody declares are rejected.", "quantifier": "every class hierarchy and source value", "why_tests_cant": "all hierarchies and identities", "anchors": ["pilo/__init__.py:Types.map", "pilo/fields.py:Type.cast", "pilo/fields.py:PolymorphicSubForm._form_type"]}
{"id": "C33", "title": "Subclasses defined later are visible to cast", "statement": "A subclass declared at any time before a cast is taken into account by that cast.", "quantifier": "every history of class declarations and casts", "why_tests_cant": "depends on the whole history", "anchors": ["pilo/fields.py:Type.probe", "pilo/__init__.py:Types.map"]}
{"id": "C34", "title": "Field order is declaration order and survives overriding", "statement": "Form.fields lists each declared or inherited field once, ordered by declaration; a subclass field that overrides an inherited one takes the inherited one's position.", "quantifier": "every set of declarations and single-inheritance chain", "why_tests_cant": "all orders and hierarchies", "anchors": ["pilo/fields.py:FormMeta.__new__", "pilo/fields.py:Field.attach", "pilo/fields.py:CreatedCountMixin"]}
{"id": "C35", "title": "form.filter(tags) and its inverse partition the fields", "statement": "Every top-level declared field present in the form is kept by exactly one of form.filter(*tags) and form.filter(*tags, inv=True); neither adds fields.", "quantifier": "every form tree and tag set", "why_tests_cant": "all trees", "anchors": ["pilo/fields.py:Form.filter", "pilo/fields.py:Form.munge"]}
{"id": "C36", "title": "form.munge with the identity function reproduces the declared fields", "statement": "form.munge(lambda form, field, value: value) yields a form of the same class with the same declared field values at every depth (sequences come back as lists) and no undeclared keys; a func returning NONE for a field removes it.", "quantifier": "every form tree and munge function", "why_tests_cant": "unbounded depth", "anchors": ["pilo/fields.py:Form.munge"]}
{"id": "C37", "title": "form.copy is an equal, independent top-level copy", "statement": "form.copy() has the same class and the same entries, and later changes to either form's entries do not affect the other's.", "quantifier": "every form content and later history of updates", "why_tests_cant": "all histories", "anchors": ["pilo/fields.py:Form.copy"]}
{"id": "C38", "title": "flatten enumerates each leaf exactly once, in field order", "statement": "form.flatten() yields exactly the non-form field values reachable through declared fields, each with its field path, in depth-first declaration order; paths are distinct.", "quantifier": "every form tree", "why_tests_cant": "unbounded depth", "anchors": ["pilo/fields.py:Form.flatten"]}
{"id": "C39", "title": "Union mapping merges", "statement": "The keys of a union mapping are: combine - the union of the keys of the present, non-null mappings; first - those of the first present one; last - those of the last present non-null one; absent sources never contribute.", "quantifier": "every list of sources and merge mode", "why_tests_cant": "all numbers of sources", "anchors": ["pilo/source/union.py:Mapping", "pilo/source/union.py:UnionSource.mapping"]}
{"id": "C40", "title": "Union lookups: the first contributing source wins", "statement": "A key of a union resolves to the sources that list it, in source order, and reading a primitive gives the first such source's value.", "quantifier": "every list of sources and key", "why_tests_cant": "all overlaps", "anchors": ["pilo/source/union.py:Mapping.__getitem__", "pilo/source/union.py:Join.primitive"]}
{"id": "C41", "title": "Union sequences concatenate", "statement": "With combine, a union sequence has length the sum of the parts and item i is the i-th item of the concatenation; with first/last it is the first/last present part.", "quantifier": "every list of sequences and index", "why_tests_cant": "all lengths and offsets", "anchors": ["pilo/source/union.py:Sequence"]}
{"id": "C42", "title": "merge_depth limits merging to paths shallower than the depth", "statement": "With merge_depth=d, mappings and sequences at path depth >= d use 'first' and shallower ones use the configured merge.", "quantifier": "every union and depth", "why_tests_cant": "all depths and source counts", "anchors": ["pilo/source/union.py:Mapping.__init__", "pilo/source/union.py:Sequence.__init__"]}
{"id": "C43", "title": "Mount points route to their source", "statement": "In a MountSource the first key selects the mounted source, the rest of the path behaves as a path of that source alone, and an unknown mount point is absent.", "quantifier": "every set of mounts and history of append/pop/read", "why_tests_cant": "all histories", "anchors": ["pilo/source/mount.py:MountPath"]}
{"id": "C44", "title": "Config sources read sections, sub-mappings and lists", "statement": "On a ConfigSource with a section, a key resolves to its name[key] sub-mapping if any, else the option, else the defaults, else absent; a string option indexed by an integer is the corresponding word (single line) or non-blank line (multi-line).", "quantifier": "every configuration and key", "why_tests_cant": "all option sets", "anchors": ["pilo/source/configparser.py:SectionMapping", "pilo/source/configparser.py:Mapping", "pilo/source/configparser.py:Sequence", "pilo/source/configparser.py:ConfigPath.resolve"]}
{"id": "C45", "title": "Reading a mapped attribute is stable and free of side effects", "statement": "Once a field name is in the form, form.name returns the stored value and changes nothing; reading an unmapped field outside a mapping maps it, stores it, and a second read returns the same value.", "quantifier": "every form state and context", "why_tests_cant": "all states and read histories", "anchors": ["pilo/fields.py:Field.__get__"]}
{"id": "C46", "title": "form.has never raises for a declared field", "statement": "form.has(name) returns True when the field has a non-null value and False when it cannot be mapped.", "quantifier": "every form and declared field", "why_tests_cant": "all form states", "anchors": ["pilo/fields.py:Form.has"]}
{"id": "C47", "title": "Unparsable dates are reported", "statement": "A Date, Time or Datetime field given a string that matches none of its formats yields an error and no value.", "quantifier": "every format list and string", "why_tests_cant": "all strings and format lists", "anchors": ["pilo/fields.py:Date._parse", "pilo/fields.py:Time._parse", "pilo/fields.py:Datetime._parse"]}
{"id": "C48", "title": "Unparsable numbers, UUIDs and decimals are reported as field errors", "statement": "An Integer, Float, Decimal or UUID field given a string its type cannot parse yields ERROR and one Invalid error and does not raise out of map.", "quantifier": "every string", "why_tests_cant": "all strings", "anchors": ["pilo/fields.py:Decimal._parse", "pilo/fields.py:UUID._parse", "pilo/fields.py:Field._compute"]}
{"id": "C49", "title": "Error messages name the path of the offending value", "statement": "Each error collected while mapping a form, whose munge, filter and validate hooks are functions of the value and which has no others, carries the rendered path of keys, from the source root, of the field or item it is about.", "quantifier": "every form, nesting depth and source", "why_tests_cant": "nesting is unbounded", "anchors": ["pilo/fields.py:Missing", "pilo/fields.py:Invalid", "pilo/source/__init__.py:Path.__str__"]}
{"id": "C50", "title": "Mapping is compositional", "statement": "Mapping a hook-free SubForm at some key of a document gives the same form contents as mapping the form class directly on the sub-document found there, and the same errors with the key prefixed to their paths.", "quantifier": "every document, class, key path and surrounding context", "why_tests_cant": "all embeddings", "anchors": ["pilo/fields.py:SubForm._parse", "pilo/fields.py:Form.map", "pilo/context.py:Context.push"]}
{"id": "C51", "title": "The mapping result depends only on the data, not on the surrounding context", "statement": "Mapping a form, whose munge, filter and validate hooks are functions of the value and which has no others, from an explicit source gives the same form contents and errors in any surrounding context (that does not set ignore_default, ignore_missing or tags).", "quantifier": "every class, source and context stack", "why_tests_cant": "all context histories", "anchors": ["pilo/fields.py:Form._root_map"]}
{"id": "C52", "title": "Hook registration rejects functions of the wrong signature and keeps the first one", "statement": "Registering a hook stores the function only when its signature matches; a mismatch raises TypeError and leaves the field unchanged; once set, calling the hook invokes it.", "quantifier": "every hook and history of registrations", "why_tests_cant": "all histories", "anchors": ["pilo/fields.py:Hook.__call__"]}
{"id": "C53", "title": "Hooks see only real values, in the order munge, filter, validate", "statement": "The munge, filter and validate hooks of a field are never called with NONE, ERROR or NOT_SET; validate is never called with a value that is ignored or that filter drops; a value a field returns is a constant, a default, or an outcome of munge that is not ignored and that filter and validate accept.", "quantifier": "every field kind, hooks, source, argument and context", "why_tests_cant": "hooks are arbitrary functions and the contexts are unbounded", "anchors": ["pilo/fields.py:Field._map"]}
{"id": "C54", "title": "A date, time or datetime is accepted exactly when it lies in the window", "statement": "A Date, Time or Datetime field reads an object of its type as it is and a string with the first format that matches; the moment is returned without error if it lies between after and before, inclusively, and otherwise the result is ERROR with one Invalid error at the path of the field.", "quantifier": "every moment, bounds, format list, source and context", "why_tests_cant": "all moments, bounds and contexts", "anchors": ["pilo/fields.py:Date._validate", "pilo/fields.py:Time._validate", "pilo/fields.py:Datetime._validate"]}
{"id": "C55", "title": "allow_field takes a single value for a one-item list", "statement": "Where the source is not a sequence, List(field, allow_field=True) maps the item field once at the place of the list and gives the list of just that value, subject to the bounds on the length; an unusable item is the value of the list. Without allow_field the list is reported as Invalid at its own path.", "quantifier": "every item field, source, bounds and context", "why_tests_cant": "arbitrary item fields, nested to any depth", "anchors": ["pilo/fields.py:List._parse"]}
{"id": "C56", "title": "Mapping a form leaves every other form alone", "statement": "Form.map, whether it returns or raises, changes the contents of no form that existed before other than the form itself, and changes the class of no form; mapping a field alone changes the contents of no existing form.", "quantifier": "every class table whose hooks are functions of the value, every source, option, context and heap of forms", "why_tests_cant": "all heaps of forms and arbitrarily nested classes", "anchors": ["pilo/fields.py:Form.map", "pilo/fields.py:SubForm._parse", "pilo/fields.py:PolymorphicSubForm._parse"]}
{"id": "C57", "title": "attach_parent links a sub form to where it was mapped", "statement": "When a field with attach_parent gives a form, the parent of that form is afterwards ctx.parent of the place where the field was mapped; for a field declared on a form this is the form being mapped.", "quantifier": "every field, with any hooks, source and context", "why_tests_cant": "hooks are arbitrary functions and the contexts are unbounded", "anchors": ["pilo/fields.py:Field.map"]}
{"id": "C58", "title": "Mapping does not depend on what forms held before", "statement": "Mapping the same source in two states that differ only in the contents of forms gives the same outcome (exception or errors) and the same new sub forms; every entry of the mapped form that was the same before, or is declared and selected when mapping with reset=True, is the same afterwards. With reset=True and capturing of unmapped keys the whole form is the same, if its undeclared entries were.", "quantifier": "every class table whose hooks are functions of the value, every source, tags, option, context and pair of heaps", "why_tests_cant": "pairs of arbitrary heaps and arbitrarily nested classes", "anchors": ["pilo/fields.py:Form.map", "pilo/fields.py:Form.reset", "pilo/fields.py:Field.map"]}
{"id": "C59", "title": "Mapping depends on the data under the declared keys only", "statement": "With unmapped='ignore', a form whose selected fields have a string src (no Group) maps alike from two dictionaries that have the same under each src and under what precedes a dot or a call in it: the same forms, the same errors, the same exception. Other keys and the order of keys do not matter.", "quantifier": "every class table whose hooks are functions of the value, every pair of dictionaries, tags, option, context and state", "why_tests_cant": "pairs of arbitrary dictionaries and arbitrarily nested classes", "anchors": ["pilo/fields.py:Form.map", "pilo/source/__init__.py:DefaultSource.resolve", "pilo/source/__init__.py:Source.path"]}
{"id": "C60", "title": "A constant field gives its constant whatever the source holds", "statement": "Field.constant(v) on a leaf field without other hooks, translations and ignored values: in every context it gives v and no error, or always ERROR with one and the same error, or always the same exception (when validating v raises). Which of them depends on the field and v only. For a plain Field it is v, unless v is None and the field is not nullable.", "quantifier": "every leaf field configuration, constant, source, context and state", "why_tests_cant": "every source and every context at once", "anchors": ["pilo/fields.py:Field.constant", "pilo/fields.py:Field._map"]}
{"id": "C61", "title": "pattern on numbers gives the number that was matched", "statement": "A text in the source of an Integer or Float field with pattern: if it matches and the matched text is a number, that number is the value when within the bounds, and one error otherwise; if it does not match, ERROR and exactly one error.", "quantifier": "every expression, text, bounds, source kind and state", "why_tests_cant": "arbitrary expressions, texts and bounds", "anchors": ["pilo/fields.py:Integer.pattern", "pilo/fields.py:Float.pattern"]}
{"id": "C62", "title": "capture gives the captured group, and no match is no value", "statement": "A text in the source of a String field with capture: if it matches, the named group, else the group named like the field, else the first, is the value when it meets the field's constraints, and one error otherwise; if it does not match or captures nothing, the field behaves as if absent: default, or one Missing error. A null is handled as for any String.", "quantifier": "every expression, text, group name, constraints, source kind and state", "why_tests_cant": "arbitrary expressions and texts", "anchors": ["pilo/fields.py:String.capture", "pilo/fields.py:Field._map"]}
{"id": "C63", "title": "format gives the text formatted from the named values", "statement": "A String field with format: if every named attribute path leads to a value, the text formatted from exactly these is the value when it meets the field's constraints, and one error otherwise, whatever the source holds; if one of the names has no value, ERROR and one error.", "quantifier": "every format, list of attribute paths of any length, class table, form contents and state", "why_tests_cant": "arbitrary attribute paths and contents", "anchors": ["pilo/fields.py:String.format", "pilo/fields.py:Field.__get__"]}
{"id": "C64", "title": "options decide whether a field is required and nullable", "statement": "For a field of any class without hooks: options(default=None, ...) makes both an absent and a null source give None without error, even with nullable=False; optional=True without default makes an absent source give NONE without error; a default passed along with optional wins; with neither, an absent source is exactly one Missing error; nullable=False makes a null exactly one 'not nullable' error.", "quantifier": "every field, combination of options, source kind and state", "why_tests_cant": "arbitrary combinations of options and earlier settings", "anchors": ["pilo/fields.py:Field.options", "pilo/fields.py:Field._default", "pilo/fields.py:Field._validate"]}
{"id": "C65", "title": "an ignored value is no value", "statement": "A String, Integer, Float, Boolean or plain field with ignore(*vs) whose source holds something equal to one of vs (None for a null) behaves as if the source had no value: the default, or exactly one Missing error, and no validation. Any other value is validated and returned as if nothing was ignored.", "quantifier": "every list of ignored values, value, constraints, source kind and state", "why_tests_cant": "arbitrary values and constraints; equality across number types", "anchors": ["pilo/fields.py:Field.ignore", "pilo/fields.py:Field._filter", "pilo/fields.py:Field._map"]}
{"id": "C66", "title": "a translated value replaces the value read", "statement": "A String, Integer, Float, Boolean or plain field with translate(kvs), called any number of times, whose source holds the scalar w: if a binding is for w, the last such binding's value replaces w before filtering and validation (for choices it counts as one); translated to None it is a null, translated to NONE or an ignored value it is no value. Without a binding w is validated as it is.", "quantifier": "every list of bindings of any length, value, constraints, source kind and state", "why_tests_cant": "arbitrary bindings with colliding keys", "anchors": ["pilo/fields.py:Field.translate", "pilo/fields.py:Field._munge", "pilo/fields.py:String._validate"]}
{"id": "C67", "title": "a copy of a field is independent of the original", "statement": "clone() gives a field with the settings of the original and no parent, and leaves every existing field as it was; afterwards nothing done to the one changes the other. constant(v) on an attached field returns a new unattached field that differs in compute only and leaves the original alone. Fields of which none was copied from the other, directly or through further copies, never affect each other.", "quantifier": "every heap of field objects and every history of operations (options, ignore, translate, tag, hook registration, attach, constant, clone) on any fields", "why_tests_cant": "aliasing: needs every interleaving of operations on original and copies", "anchors": ["pilo/fields.py:Field.clone", "pilo/fields.py:Field.constant", "pilo/fields.py:Hook"]}
{"id": "C68", "title": "forms hold only valid values", "statement": "Whatever a program does with forms (constructing, mapping, remapping, reading attributes, mapping single fields, assigning valid values, entering and leaving contexts), every form holds under the name of a field only the field's default, None where it is nullable, or a value of the field's type satisfying all of its constraints; recursively for items of lists, tuples and dicts and for sub forms, which are of the declared class. What mapping a field returns and what reading an attribute gives is such a value or a sentinel.", "quantifier": "every class table, source, sequence of operations of any length, nesting and state", "why_tests_cant": "an invariant over all histories and all nested field declarations", "anchors": ["pilo/fields.py:Form._map", "pilo/fields.py:Field._map", "pilo/fields.py:Field.__get__", "pilo/fields.py:Form.__init__"]}
{"id": "C69", "title": "a form is what its data maps to", "statement": "Take a form whose fields all hold valid values (or nothing, where the field is optional), and its data: the dictionary of its entries, sub forms replaced by their dictionaries, also inside lists, tuples and dicts. Constructing the form's class from that data, given as a dictionary, a source or a JSON source, succeeds without errors, gives a new form with the same entries (sub forms compared entry by entry), and leaves every existing form and the context as they were.", "quantifier": "every class table, form, nesting depth, source kind (native, JSON) and thread state", "why_tests_cant": "round trip over all declarations and all values, recursively", "anchors": ["pilo/fields.py:Form.__init__", "pilo/fields.py:Form._map", "pilo/fields.py:Field._map", "pilo/fields.py:SubForm", "pilo/fields.py:List", "pilo/fields.py:Dict"]}
{"id": "C70", "title": "attributes are a store", "statement": "After any sequence of assignments to and deletions of field attributes, of any forms, reading an attribute gives the value last assigned to just that attribute of just that form, unchanged and without touching anything; if it was deleted after that (or never assigned and absent from the start) it is mapped anew. Deleting an absent attribute does nothing. No edit raises, and none changes the context, the errors or any other attribute.", "quantifier": "every state, inside and outside of mappings, every sequence of edits, every class table with any hooks", "why_tests_cant": "sequences of edits of any length over any number of forms", "anchors": ["pilo/fields.py:Field.__get__", "pilo/fields.py:Field.__set__", "pilo/fields.py:Field.__delete__"]}
{"id": "C71", "title": "arguments of a field mean what they say", "statement": "A `String(...)` made with any of length (a number or a pair), min_length, max_length, pattern (text or compiled), alphabet and choices, and any options, accepts a text exactly if the text is as every one of these arguments says; a `List(...)` likewise for its length arguments. length together with min_length or max_length is refused.", "quantifier": "every combination of positional and keyword arguments the constructor takes, every name, place, path type and text", "why_tests_cant": "combinations of seven arguments with unboundedly many values each", "anchors": ["pilo/fields.py:String.__init__", "pilo/fields.py:List.__init__", "pilo/fields.py:Field.__init__"]}
{"id": "C72", "title": "the last bound set is in force", "statement": "After any chain of calls of min, max, range, after, before and between on a field, each bound is what the last call that set it said (None takes it away), or what the constructor was given if none did; nothing else about the field changes, and the field accepts exactly the values within the bounds.", "quantifier": "every constructor call, every chain of method calls of any length, every value", "why_tests_cant": "chains of any length", "anchors": ["pilo/fields.py:Number.__init__", "pilo/fields.py:Number.min", "pilo/fields.py:Number.max", "pilo/fields.py:Number.range", "pilo/fields.py:List.range"]}
{"id": "C73", "title": "the arguments of a group are flattened", "statement": "`Group(...)` takes bare fields with a src, (src, field) pairs and lists of these nested to any depth; mapping tries them for each key in reading order, and the first that matches maps the value at the key. Any other argument, at any depth, is a ValueError. A default that is given is the default of the group; without one, a group without matches is an empty list.", "quantifier": "every nesting of arguments, every source mapping with text keys", "why_tests_cant": "nesting of any depth", "anchors": ["pilo/fields.py:Group.__init__", "pilo/fields.py:Group._match", "pilo/fields.py:Group._parse"]}
{"id": "C74", "title": "positional arguments in any order", "statement": "The field of a List and the form class of a SubForm are found at any position among the arguments (for List also under the keyword field), the rest being the source; without one the constructor raises. A form class given to List stands for a SubForm of it. flat=True takes the source away. A Tuple takes its fields one by one or as a sequence, after an optional source.", "quantifier": "every list of positional and keyword arguments", "why_tests_cant": "argument lists of any length", "anchors": ["pilo/fields.py:pluck", "pilo/fields.py:List.__init__", "pilo/fields.py:SubForm.__init__", "pilo/fields.py:Tuple.__init__"]}
{"id": "C75", "title": "type fields have a value", "statement": "The value of Type.instance(x) is x, a missing source gives x, a source with another text is an error; Type.constant(x) gives x whatever the source. With no or several choices, and for Type.abstract(), reading the value is a TypeError.", "quantifier": "every choice and keyword arguments, every place and source", "why_tests_cant": "all texts", "anchors": ["pilo/fields.py:Type.instance", "pilo/fields.py:Type.constant", "pilo/fields.py:Type.value"]}
{"id": "C76", "title": "the source and the options of a new field", "statement": "A field of any class but Group, made with any arguments its constructor takes: its source is the positional argument left for it or else the keyword src, and without one it takes the name it is attached under; src=None is the place of the form. default=v, optional=True, nullable=, ignore=v, translate=, attach_parent= and tags='t' have for every class the same meaning: v is ignored, values are translated as given, the field has the tag t; with no value in the source the default is the value, optional=True gives NONE, otherwise there is exactly one Missing error; null is None unless nullable is falsy and the default is not None. All other keyword arguments belong to the class, or the call fails.", "quantifier": "every field class, every list of positional and keyword arguments, every place and source", "why_tests_cant": "all classes times all arguments", "anchors": ["pilo/fields.py:Field.__init__", "pilo/fields.py:Field.options", "pilo/fields.py:Field.attach"]}
{"id": "C77", "title": "the fields and limits of a new container", "statement": "Dict(k, v, required_keys=, max_keys=) maps keys by k and values by v, and accepts the entries exactly if all required keys are there and there are at most max_keys; List(f, allow_field=) takes a single value only with allow_field; SubForm and PolymorphicSubForm have the form class or type field, reset and unmapped that were given, by default no reset and unmapped keys ignored. A field in a container without a source is mapped at the place of the item.", "quantifier": "every list of arguments, every fields, source and place", "why_tests_cant": "nested fields and mappings of any size", "anchors": ["pilo/fields.py:Dict.__init__", "pilo/fields.py:Dict._validate", "pilo/fields.py:List.__init__", "pilo/fields.py:SubForm.__init__", "pilo/fields.py:PolymorphicSubForm.__init__"]}
{"id": "C78", "title": "mapping finite data terminates", "statement": "Take form classes whose munge, filter and validate hooks are functions of the value and which have no others, possibly nested in themselves, in which at most K fields are mapped one inside the other before one of them reads a name. Constructing a form of such a class from data, JSON or any other built-in source whose nesting depth is z ends after at most (z + 1) * (K + 1) nested calls of Field.map: with a larger budget of calls the result, errors and forms are the same, and what would happen when the budget is used up makes no difference. The same holds of Form.map and Field.map inside another mapping. The condition on names is needed: a form that contains itself without a source is mapped for ever. Attributes of values and results of calls in the data must not be deeper than what they are taken from.", "quantifier": "every table of form classes whose hooks are functions of the value, every data and source of finite depth, every state of the context, every budget", "why_tests_cant": "recursive schemas and data of any depth; a test cannot observe that something never happens", "anchors": ["pilo/fields.py:Field.map", "pilo/fields.py:Form.map", "pilo/fields.py:SubForm._parse", "pilo/source/__init__.py:Path.value"]}
{"id": "C79", "title": "a hook reads a field where the form stands", "statement": "While a form is being mapped and one of its fields, or something below, is at work, reading a field of the form that has no value yet gives what mapping that field at the form gives: the same value, constant or exception and the same errors, whatever frames, keys and sources are open above the form. The read itself stores nothing, and afterwards the context (frames, variables, positions of all paths) is what it was. A field that has a value is not mapped again. The read does not keep what it found: an invalid field is reported by the read and again when it is mapped, a sub form read is not the one stored, and a field that cannot be mapped reads as a constant.", "quantifier": "every context in which the form is being mapped, every field with any hooks, every source, every class table", "why_tests_cant": "the context above the form may be of any depth and shape, and the field read may have hooks that read further", "anchors": ["pilo/fields.py:Field.__get__", "pilo/context.py:Context.rewind", "pilo/context.py:Rewind.__exit__"]}
{"id": "C80", "title": "fields computed from one another: each has the value its definition gives, whatever the order", "statement": "Let the hooks (compute, munge, filter, validate, default) of the fields of a form read other fields of the same form, without cycles. When `form.map(src)` returns, every mapped field has the value which its own definition gives when each read of another field in its hooks is replaced by the value of that field. In particular the values do not depend on the order in which the fields are declared.", "quantifier": "all classes whose selected fields have no sub forms and are computed from one another in finitely many steps; all native, JSON and configuration sources; all bodies of the hooks that read fields and attributes, report errors, return and raise (except the exception that ends a rewind); forms that have no values for these fields yet, or are reset; all error modes, tags and contexts; all recursion limits above the number of steps; all orders of the fields (unless the source is a sequence, whose positions refer to the order)", "why_tests_cant": "the claim compares the mapping with all permutations of the class and with a program in which the reads are replaced by values; hooks are arbitrary functions", "anchors": ["pilo/fields.py:226-230", "pilo/fields.py:468-620", "pilo/fields.py:622-653", "pilo/fields.py:1660-1676"]}
{"id": "C81", "title": "a Date, Time or Datetime field reads what it writes", "statement": "Let `x = field.format(v)` for a value `v` that the Date, Time or Datetime field accepts. Mapped from a source that has the text `x`, the field gives `v` again, without errors, provided the format tells `v` (strptime undoes strftime for it).", "quantifier": "all fields without hooks, translations and ignored values; all formats and lists of formats; all bounds and moments between them; all kinds of sources; all writers and readers of moments", "why_tests_cant": "formats, moments and the behaviour of strftime/strptime are arbitrary", "anchors": ["pilo/fields.py:894-931", "pilo/fields.py:954-970", "pilo/fields.py:993-1014"]}
{"id": "C82", "title": "A value that is rejected is told the first constraint it breaks", "statement": "When a value breaks a constraint of its field, the error reported is Invalid, at the path of the field, with a text that names the first constraint broken (for String: alphabet, minimum length, maximum length, pattern, choices; for numbers: minimum, maximum; for Date, Time and Datetime: after, before; for List: minimum, maximum length; for Dict: required keys, number of keys; null for a field that is not nullable) and the bound, pattern or choices that were declared. There is exactly one such text, and there is one exactly when the value is not one the field accepts.", "quantifier": "every field configuration of these classes, every value, every source and every state of the mapping", "why_tests_cant": "quantifies over all configurations with several constraints broken at once", "anchors": ["pilo/fields.py:String._validate", "pilo/fields.py:Number._validate", "pilo/fields.py:Date._validate", "pilo/fields.py:Time._validate", "pilo/fields.py:Datetime._validate", "pilo/fields.py:List._validate", "pilo/fields.py:Dict._validate", "pilo/fields.py:Field._validate"]}
{"id": "C83", "title": "The text of a FormError lists every error", "statement": "str(FormError) for a non-empty list of errors is an empty line followed by one line per error, in order, each giving the error's class, its path and what is wrong; what Form(src) raises lists so exactly the errors Form().map(src) returns; and if no path and no reason has a line break, two lists of errors with the same text say the same, error by error.", "quantifier": "every list of errors, every form class and every source", "why_tests_cant": "quantifies over all lists of errors and compares pairs of them", "anchors": ["pilo/fields.py:FormError", "pilo/fields.py:FieldError", "pilo/fields.py:Missing", "pilo/fields.py:Invalid", "pilo/fields.py:Form.__init__"]}
{"id": "C84", "title": "A Code field resolves module:attr", "statement": "Given the text 'module:attr', a Code field gives the object that the (dotted) attribute leads to from that module; if the module cannot be imported, or lacks the attribute, or the text is not a name, it reports one Invalid error at its path, with the reason. No text makes it raise. Values that are not text are taken as they are.", "quantifier": "every hook-free Code field, every text, every source and state, and every import system", "why_tests_cant": "modules, attributes and texts are arbitrary", "anchors": ["pilo/fields.py:1193-1217", "pilo/fields.py:1226-1251"]}
{"id": "C85", "title": "A Code field runs blocks of code", "statement": "Text with a line break in it is run as code and gives a module that has the names the code binds; if the code raises, one Invalid error says what was raised.", "quantifier": "every hook-free Code field, every text with a line break, every source and state, Python 2 and 3", "why_tests_cant": "the code and what it does are arbitrary", "anchors": ["pilo/fields.py:1197-1199", "pilo/fields.py:1219-1237"]}
{"id": "C86", "title": "A path can be edited as a list of keys", "statement": "Assigning, deleting and inserting keys at any index changes the keys of a path, and its text, as it would change a list, an index out of range raises IndexError and changes nothing; what is read from the path afterwards is the value of its new keys. Assigning path.value makes that value the one read there and looked into below it, until the key is popped.", "quantifier": "every JSON, config, native, union and mount source, every document, every history of appends, pops, reads and edits at any index, negative ones included", "why_tests_cant": "histories are unbounded; what is read depends on which values earlier reads have cached and on where the edits fall", "anchors": ["pilo/source/__init__.py:91-115", "pilo/source/__init__.py:143-162", "pilo/source/union.py:47-64", "pilo/source/mount.py:78-118"]}
{"id": "C87", "title": "A Decimal field gives exactly the number it reads, if it is in range", "statement": "A hook-free Decimal field whose source holds a decimal, an integer, a boolean, a float, or text Decimal() reads gives the decimal of exactly that value without error if it lies between min_value and max_value, inclusively; otherwise ERROR with one Invalid error.", "quantifier": "every number, text, pair of bounds, source and context", "why_tests_cant": "all numbers of four types, including infinities and NaN, and all bounds", "anchors": ["pilo/fields.py:770-806", "pilo/fields.py:852-860"]}
{"id": "C88", "title": "The fields of a form are mapped apart from each other", "statement": "Mapping a hook-free form gives each field the value, sub forms and errors it has when a form with only that field is mapped from the same source in the same context: the errors of the form are those of its fields, one field after the other in class order. If a field alone raises, and those before it return, the form raises the same exception.", "quantifier": "every class without hooks whose fields have distinct names, every nesting of fields, every source whose root is not changed by reading, every context, tags and reset", "why_tests_cant": "all classes, documents and contexts; a field that leaves the path, the tags, the error list or the forms in a state another field notices would only show in particular combinations", "anchors": ["pilo/fields.py:1598-1658", "pilo/fields.py:1660-1700", "pilo/fields.py:553-620"]}
{"id": "C89", "title": "The order of declaration, and other fields, do not matter to a field", "statement": "Two hook-free classes that declare the same fields in different orders: mapping a form of one returns exactly when mapping a form of the other from the same source in the same context does; the errors are the same, in another order, and every field has the same value in both. If one class declares only some of the fields of the other, mapping its forms returns whenever mapping the other's does, and each of these fields has the same value and adds the same errors.", "quantifier": "every pair of classes without hooks whose fields have distinct names, every nesting of fields, every source whose root is not changed by reading, every context, tags and reset", "why_tests_cant": "all permutations and subsets of all classes, over all documents", "anchors": ["pilo/fields.py:1598-1609", "pilo/fields.py:1660-1674", "pilo/fields.py:553-617"]}
{"id": "C90", "title": "The items of a container are mapped apart from each other", "statement": "Mapping a hook-free List, Tuple or Dict gives each item the value, sub forms and errors it has when that item alone is mapped, at its index or key, from the same state: the result is the list, tuple or dict of what the items give (without those that give nothing usable), and the errors are those of the items, one item after the other, then one Invalid error if the container breaks its bounds.", "quantifier": "every container field without hooks, every field for its items, every nesting, every source whose value is at hand, every context, any number of items", "why_tests_cant": "all containers, item fields and documents; an item that leaves the path, the error list or the forms in a state a later item notices would only show in particular combinations", "anchors": ["pilo/fields.py:1029-1068", "pilo/fields.py:1070-1140", "pilo/fields.py:1142-1260"]}
{"id": "C91", "title": "resolve says where a field is read, and compute what it is", "statement": "If the resolve hook of a field returns ctx(src=key), the field is mapped as it is with src=key and no hook, for every key including 0 and ''; if it returns ctx(src=data), as it is within ctx(src=data); if it returns None, as it is without src; if it raises, mapping raises. A real value that the compute hook of a field returns is mapped as that value given to map, at the field's place.", "quantifier": "every field of every class, hook, key, data, value, source and context", "why_tests_cant": "all keys (falsy ones included), data and contexts; hooks that change the state before they return", "anchors": ["pilo/fields.py:488-494", "pilo/fields.py:553-580"]}
{"id": "C92", "title": "A default hook stands for a default, and ignore_default switches both off", "statement": "Mapping a field whose default hook returns v has the same outcome as mapping the field with default=v: when the source has no value, when munge gives none and when filter drops it. Within ctx(ignore_default=True) neither is used: the field is missing.", "quantifier": "every field of every class with any lexical hooks, every default, source and context", "why_tests_cant": "all fields, hooks and documents, and the stages at which a default is called for", "anchors": ["pilo/fields.py:529-551", "pilo/fields.py:566-589"]}
{"id": "C93", "title": "preserve_whitespace keeps the lines of a text as they are in the file", "statement": "On a ConfigSource with a section and preserve_whitespace=True, a text of several lines reads, after any history of moves and reads, as the lines of the file that make it up, dedented. Texts of one line, numbers and booleans read as without preserve_whitespace.", "quantifier": "every file, section, option, text, history and type", "why_tests_cant": "all files: other sections with the same option, blank lines inside a text, options around it", "anchors": ["pilo/source/configparser.py:143-158", "pilo/source/configparser.py:178-185"]}
{"id": "C94", "title": "Values are told apart as Python's == tells them apart", "statement": "A value counts as one of the ignored values exactly if it is equal to it as a Python value: numbers across types (no NaN equals anything), lists and tuples item by item, dictionaries as mappings in whatever order of their keys, everything else itself. This equality is symmetric and transitive.", "quantifier": "every field, ignored value and source value, nested to any depth, whose dictionaries have no key twice", "why_tests_cant": "all pairs of nested values and orders of keys", "anchors": ["pilo/fields.py:453-459", "pilo/fields.py:515-517"]}
{"id": "C95", "title": "What strict JSON accepts, lenient JSON accepts alike", "statement": "If mapping a form from JsonSource(v, strict=True) ends normally with no errors, then mapping it from JsonSource(v, strict=False) in the same context ends normally with no errors and leaves the same forms: leniency only adds accepted documents, it never changes what an accepted one means.", "quantifier": "every document, every form whose hooks are functions of the value, with nested containers, sub forms and polymorphic sub forms, every unmapped option, tags, reset and error mode", "why_tests_cant": "all documents and all forms at once", "anchors": ["pilo/source/json.py:45-117", "pilo/fields.py:1578-1700"]}
{"id": "C96", "title": "A raised FormError begins with the errors collected first", "statement": "When form.map(src, error='collect') returns errors, the FormError that form.map(src, error='raise') raises begins with a non-empty initial part of those errors, in order; in particular its first error is the first one collected. It goes on only with Invalid errors of enclosing fields whose text is that of the FormError they caught.", "quantifier": "every form whose hooks are functions of the value, and every source", "why_tests_cant": "Which error stops the raising run depends on the field, the source and the nesting; the containers around it catch the FormError and report it again. The relation is between two runs of every form on every document.", "anchors": ["pilo/fields.py:RaiseErrors", "pilo/fields.py:CollectErrors", "pilo/fields.py:Field.compute", "pilo/fields.py:Form.map"]}
{"id": "C97", "title": "Asking for less never rejects what was accepted", "statement": "If form.map(src) ends without errors, then it also does after the fields of the form classes are changed, at any depth, to ask for less: smaller min_length/min/after, larger max_length/max/before, more choices, a larger alphabet, a pattern that matches more, fewer required_keys, a larger max_keys, allow_scalar, nullable, or a default where there was none. The forms it leaves are the same.", "quantifier": "every two tables of hook-free form classes related this way, every built-in source over plain data, collecting or raising, in any context (a default may only be added where ignore_missing is not set)", "why_tests_cant": "A constraint is checked in the middle of a run whose later steps depend on what was accepted before; nullable and default change the branch a field takes. The claim relates two runs for every pair of form definitions and every document.", "anchors": ["pilo/fields.py:String._validate", "pilo/fields.py:Number._validate", "pilo/fields.py:List._validate", "pilo/fields.py:Dict._validate", "pilo/fields.py:Field.map", "pilo/fields.py:Form.map"]}
{"id": "C98", "title": "Unions and mounts are made of sources and mappings, and of nothing else", "statement": "MountSource(**kw) with arguments that are sources, dicts or None makes a source whose paths below each name answer like the paths of that source (a dict or None being wrapped in a plain DefaultSource), and any other argument is refused with a TypeError naming the first one. UnionSource(list) with items that are sources or mappings makes the union of them in order, with mapping_merge and sequence_merge falling back to merge, and any other item is refused with a TypeError giving the first index.", "quantifier": "every list of arguments, every merge option, every history of moves and reads of the resulting path", "why_tests_cant": "Any number of arguments of any kind in any order; reads through a mount depend on the whole history of the path.", "anchors": ["pilo/source/mount.py:MountSource.__init__", "pilo/source/mount.py:MountPath", "pilo/source/union.py:UnionSource.__init__"]}
{"id": "C99", "title": "A ConfigSource can be made from a parser, a text or a file", "statement": "ConfigSource(parser, section, location, defaults) is the source over the options of the parser; ConfigSource(text, ...) and ConfigSource.from_file(path, ...) are the source over the options that the text declares; preserve_case=True keeps the case of the option names; preserve_whitespace=True needs a location.", "quantifier": "every parser, text, file and combination of options", "why_tests_cant": "No combination of options makes the text and file variants work, which is a statement about all texts and all options.", "anchors": ["pilo/source/configparser.py:ConfigSource.__init__", "pilo/source/configparser.py:ConfigSource.from_file"]}
{"id": "C100", "title": "Field order with several bases", "statement": "A form class with several bases resolves names in the order Python merges (the class, its first base, every base's own order kept, nothing twice), and is refused exactly when no order fits. Form.fields lists the field visible under each name once, ordered by the creation of the field that it goes back to by overriding; the names that a class overrides itself, or sees as its first base sees them, stand in the order of the first base.", "quantifier": "every history of field creations and form class declarations, with any lists of bases", "why_tests_cant": "All class graphs, including diamonds, and all interleavings of field creation and overriding.", "anchors": ["pilo/fields.py:FormMeta.__new__", "pilo/fields.py:Field.attach", "pilo/fields.py:CreatedCountMixin"]}
{"id": "C101", "title": "Sources inside sources keep the context discipline", "statement": "Unions and mounts may hold unions and mounts again, to any depth. Mapping from such a source, however the call ends, leaves the context stack and the keys and text of every live path as they were, and only adds to the error lists. A union of plain sources behaves the same whether it is looked at as a union of plain sources or as a union of arbitrary ones.", "quantifier": "every tree of unions and mounts over default, JSON and config sources, every reachable state, every call into the API", "why_tests_cant": "Trees of sources of every depth and width with every history of moves and reads.", "anchors": ["pilo/source/union.py:UnionPath", "pilo/source/mount.py:MountPath", "pilo/context.py:Context.restore"]}
{"id": "C102", "title": "Mounts inside mounts route to their source", "statement": "A path that stands at mount points, one inside the other, and then at further keys answers every question exactly as a path of the source mounted there would at those further keys, whatever moves and reads were made before, there and at other mount points.", "quantifier": "every tree of mounts, every history of appends, pops and reads, every mount point and further keys", "why_tests_cant": "All nestings and all histories, which leave cached values at every mount point.", "anchors": ["pilo/source/mount.py:MountPath.path", "pilo/source/mount.py:MountPath.exists", "pilo/source/mount.py:MountPath.insert", "pilo/source/mount.py:MountPath.__delitem__"]}
{"id": "C103", "title": "Unions of unions read as one union", "statement": "A union of unions reads as the union of all the plain sources in order of mention: a key exists exactly when one of them offers it, and is read from the first that does.", "quantifier": "every nesting of unions of default, JSON and config sources, every text key and primitive type", "why_tests_cant": "All depths of nesting and all distributions of keys over the sources.", "anchors": ["pilo/source/union.py:Mapping.__init__", "pilo/source/union.py:Mapping.__getitem__", "pilo/source/union.py:Join.primitive", "pilo/source/union.py:Sequence.__getitem__"]}
{"id": "C104", "title": "A JsonSource reads exactly what its text and its strictness allow", "statement": "Making a JsonSource raises what json.loads raises; otherwise every value of the document is read as it is, and as a type exactly when the strictness the source was made with allows it, any other read being a SourceError (integers too large for a float excepted).", "quantifier": "every decoder of texts, every document of JSON values, strict or not, every location, every history of reads and moves along string and integer keys, every primitive type", "why_tests_cant": "All values against all types under both settings, after all histories of the path's cache.", "anchors": ["pilo/source/json.py:JsonSource.__init__", "pilo/source/json.py:JsonSource.path", "pilo/source/json.py:JsonSource.as_string", "pilo/source/json.py:JsonSource.as_int", "pilo/source/json.py:JsonSource.as_float", "pilo/source/json.py:JsonSource.as_bool"]}
{"id": "C105", "title": "The text of a path", "statement": "str(path) is the location of the source, for config files the section in brackets, and the keys of the path, joined with colons where present; names after the first follow a dot and indices after the first are in brackets. Reads, aliases and ignores do not change it.", "quantifier": "every default, JSON and config source, every history of reads and moves along string and integer keys", "why_tests_cant": "All key sequences and all histories of reads, pushes and pops.", "anchors": ["pilo/source/__init__.py:Path.__str__", "pilo/source/default.py:DefaultPath.__str__", "pilo/source/json.py:JsonPath.__str__", "pilo/source/configparser.py:ConfigPath.__str__"]}
{"id": "C106", "title": "A field from the context has the value of the context variable", "statement": "If the src of a plain field is the name of a context variable, mapping field.from_context() gives the value of that variable, whatever the source.  A value given to map is treated as by the field without from_context().", "quantifier": "every field, context variable, value, source and context", "why_tests_cant": "On Python 3 no field, data and context makes it work, a statement about all of them; no test of the repository calls from_context.", "anchors": ["pilo/fields.py:Field.from_context", "pilo/fields.py:431-440"]}
{"id": "C107", "title": "A union of documents is read as the merged document", "statement": "A form can be mapped without error from the one JSON document that several JSON documents are together (mappings merged key by key, lists put after each other, or the first or last one of them, as mapping_merge and sequence_merge say; of other values the first one) if and only if it can be mapped without error from the UnionSource of the documents, and then the forms that are left are the same.", "quantifier": "every non-empty list of strict JSON documents, mapping_merge and sequence_merge 'combine', 'first' or 'last', form class nested to any depth and mapping context", "why_tests_cant": "Which documents contribute to a value is decided anew at every level, with caches shared between the paths of the children; the claim compares two different ways of reading for documents and forms of unbounded depth.", "anchors": ["pilo/source/union.py:UnionSource", "pilo/source/union.py:UnionPath.resolve", "pilo/source/union.py:Mapping", "pilo/source/union.py:Sequence", "pilo/source/union.py:Join", "pilo/fields.py:Form.map"]}
{"id": "C108", "title": "What counts as a sequence and as a mapping", "statement": "At any path, path.sequence() of a JsonSource is the number of items if path.value is a list or tuple and a source error otherwise (texts are no sequences); a DefaultSource also takes a text as the sequence of its characters. path.mapping() gives the keys of a dict in order and a source error for anything else; at the root of a DefaultSource with aliases it gives the aliases. A ConfigSource counts lists and tuples and takes dicts for mappings in the same way; texts are read as C44 says.", "quantifier": "every value, every path state (fresh or with cached parts), strict or not", "why_tests_cant": "all values and all ways of reaching a path", "anchors": ["pilo/source/default.py:DefaultSource.sequence", "pilo/source/default.py:DefaultSource.mapping", "pilo/source/json.py:JsonSource.sequence", "pilo/source/json.py:JsonSource.mapping"]}
{"id": "C109", "title": "Attributes can be read outside a mapping whatever the fields are called", "statement": "Outside a mapping, reading a declared attribute for which the form has no entry maps the field from an empty source, whatever the names of the fields of the class are.", "quantifier": "every class, form, field and any depth of calls", "why_tests_cant": "the failure is an endless recursion, and depends on the name of another field of the class", "anchors": ["pilo/fields.py:Field.__get__", "pilo/context.py:Context.push"]}
{"id": "C110", "title": "The answer of each hook decides", "statement": "For field.map(value) with a value that is not translated: what munge makes of the value is filtered and validated in its place, and if munge makes NONE of it, it is as an ignored value, while ERROR and NOT_SET are what the field gives; a true answer of filter keeps the value as without the hook, a false one (such as None) makes it as an ignored value; a true answer of validate accepts what the field accepts without the hook, a false one gives ERROR, with the errors the field reports without the hook. An ignored value is replaced by the field's default, as it is, with no error. Hooks that return the value and answer true change nothing. Where a field without default gives a value it has read, with a filter hook that answers true for that value it gives it too, and with a validate hook it gives that value or ERROR as the hook answers, with the same errors. The munge hook of a value that is translated is given the translation.", "quantifier": "every field kind, value, context, recursion budget and library; hooks that return any function of the value", "why_tests_cant": "hooks are arbitrary functions, and the contexts and kinds of field they are combined with are unbounded", "anchors": ["pilo/fields.py:Field._map", "pilo/fields.py:Field._munge", "pilo/fields.py:Field._filter", "pilo/fields.py:Field._validate"]}
