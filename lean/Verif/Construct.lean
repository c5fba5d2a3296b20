import Verif.Builders

/-!
# Constructing fields

The constructors of the field classes (`pilo/fields.py:339-362,668-687,772-779,888-892,948-952,987-991,1031-1052,1072-1093,
1144-1152,1263-1291,1320-1341,1353-1357,1385-1425`), `pluck` (lines 233-239) and the methods that set bounds (lines
781-790,872-883,1095-1105).

A call has positional and keyword arguments.  The result is the new field, or the exception the call raises.  What is
outside of the model (say a negative length, or a function as choices) ends in `unmodelled`.
-/

namespace Pilo

/-- An argument: a plain value, a field, a form class, a compiled pattern, a function of no arguments, a list or tuple of
arguments, or a set of values. -/
inductive Arg where
  | val (v : Val)
  | field (f : Field)
  | form (cls : Nat)
  | regex (r : Regex)
  | call (p : Prog)
  | list (xs : List Arg)
  | tuple (xs : List Arg)
  | set (xs : List Val)

/-- Keyword arguments. -/
abbrev Kwargs := List (String × Arg)

/-- Not a behaviour of the code: the model does not cover these arguments. -/
def unmodelled {α : Type} : Except Exc α := .error (.other "unmodelled" "")

/-- `kwargs` after `kwargs.pop(k)` for each of the names. -/
def Kwargs.drop (kw : Kwargs) (ks : List String) : Kwargs := kw.filter fun p => !ks.contains p.1

namespace Arg

/-- `bool(arg)`. -/
def truthy : Arg → Bool
  | .val v => v.truthy
  | .list xs => !xs.isEmpty
  | .tuple xs => !xs.isEmpty
  | .set xs => !xs.isEmpty
  | _ => true

/-- `isinstance(arg, Field)`. -/
def isField : Arg → Bool
  | .field _ => true
  | _ => false

/-- `inspect.isclass(arg) and issubclass(arg, Form)`. -/
def isForm : Arg → Bool
  | .form _ => true
  | _ => false

/-- An argument that is a value. -/
def toVal : Arg → Except Exc Val
  | .val v => .ok v
  | _ => unmodelled

/-- The items of a list or tuple. -/
def items? : Arg → Option (List Arg)
  | .list xs => some xs
  | .tuple xs => some xs
  | _ => none

/-- A bound that may be `None`. -/
def bound : Option Arg → Except Exc (Option Val)
  | none => .ok none
  | some (.val .none) => .ok none
  | some (.val v) => .ok (some v)
  | some _ => unmodelled

/-- A length that may be `None`. -/
def size : Option Arg → Except Exc (Option Nat)
  | none => .ok none
  | some (.val .none) => .ok none
  | some (.val (.int i)) => if 0 ≤ i then .ok (some i.toNat) else unmodelled
  | some _ => unmodelled

/-- `a, b = arg`. -/
def unpack2 : Arg → Except Exc (Arg × Arg)
  | .list [a, b] => .ok (a, b)
  | .tuple [a, b] => .ok (a, b)
  | .list _ => .error (.valueError "wrong number of values to unpack")
  | .tuple _ => .error (.valueError "wrong number of values to unpack")
  | .val (.str _) => unmodelled
  | .val (.list _) => unmodelled
  | .val (.tuple _) => unmodelled
  | .val (.dict _) => unmodelled
  | .set _ => unmodelled
  | _ => .error (.typeError "cannot unpack non-iterable object")

end Arg

/-! ### `Field` -/

/-- The names of the parameters of `Field.options` (`pilo/fields.py:364-373`). -/
def optionNames : List String := ["nullable", "default", "optional", "ignore", "translate", "attach_parent", "tags"]

/-- An option; `NOT_SET` is the same as not given. -/
def Kwargs.option {α : Type} (kw : Kwargs) (k : String) (read : Arg → Except Exc α) : Except Exc (Option α) :=
  match kw.lookup k with
  | none => .ok none
  | some (.val .NOT_SET) => .ok none
  | some a => (read a).map some

/-- `default=`. -/
def readDefault : Arg → Except Exc Default
  | .val (.func _) => unmodelled
  | .val v => .ok (.value v)
  | .call p => .ok (.callable p)
  | _ => unmodelled

/-- `translate=`. -/
def readDict : Arg → Except Exc (List (Val × Val))
  | .val (.dict kvs) => .ok kvs
  | _ => unmodelled

/-- `tags=`: what `self.tag(tags)` is given is one tag. -/
def readTag : Arg → Except Exc String
  | .val (.str s) => .ok s
  | .list _ => .error (.typeError "unhashable type: 'list'")
  | .set _ => .error (.typeError "unhashable type: 'set'")
  | _ => unmodelled

/-- `pilo/fields.py:364-399`: the keyword arguments of `Field.options`. -/
def readOptions (kw : Kwargs) : Except Exc Options :=
  if kw.all fun p => optionNames.contains p.1 then do
    let nullable ← kw.option "nullable" Arg.toVal
    let optional ← kw.option "optional" Arg.toVal
    let default ← kw.option "default" readDefault
    let ignore ← kw.option "ignore" Arg.toVal
    let translate ← kw.option "translate" readDict
    let attachParent ← kw.option "attach_parent" fun a => .ok a.truthy
    let tags ← kw.option "tags" readTag
    .ok { nullable, optional, default, ignore, translate, attachParent, tags }
  else .error (.typeError "options() got an unexpected keyword argument")

/-- The parameter `src` of `Field.__init__` (`pilo/fields.py:339`). -/
def readSrc (args : List Arg) (kw : Kwargs) : Except Exc Val :=
  match args, kw.lookup "src" with
  | [], none => .ok .NONE
  | [], some a => a.toVal
  | [a], none => a.toVal
  | [_], some _ => .error (.typeError "__init__() got multiple values for argument 'src'")
  | _ :: _ :: _, _ => .error (.typeError "__init__() takes from 1 to 2 positional arguments")

/-- `pilo/fields.py:339-362`: `Field.__init__`, of an object of the given class. -/
def Field.new (kind : Kind) (args : List Arg) (kw : Kwargs) : Except Exc Field := do
  let src ← readSrc args kw
  let o ← readOptions (kw.drop ["src"])
  .ok ((Field.mk { src := src } kind).options o)

/-- `pilo/fields.py:410-413`: `Field.attach(parent, name)` as far as mapping depends on it. -/
def Field.attach (f : Field) (name : Option String) : Field :=
  f.with fun c => { c with
    name := name
    src := if c.src.isNONE then (match name with | some n => .str n | none => .none) else c.src }

/-! ### `String` -/

/-- `pilo/fields.py:669-677`: the length of a `String`, and what is left of the keyword arguments. -/
def readLength (kw : Kwargs) : Except Exc (Option Nat × Option Nat × Kwargs) :=
  let length := kw.lookup "length"
  let kw := kw.drop ["length"]
  match length with
  | some a =>
    if a.truthy then
      match a.items? with
      | some _ => do
        let (a, b) ← a.unpack2
        let lo ← Arg.size (some a)
        let hi ← Arg.size (some b)
        .ok (lo, hi, kw)
      | none => do
        let n ← Arg.size (some a)
        .ok (n, n, kw)
    else readMinMax kw
  | none => readMinMax kw
where
  /-- Lines 676-677 and 1090-1091. -/
  readMinMax (kw : Kwargs) : Except Exc (Option Nat × Option Nat × Kwargs) := do
    let lo ← Arg.size (kw.lookup "min_length")
    let hi ← Arg.size (kw.lookup "max_length")
    .ok (lo, hi, kw.drop ["min_length", "max_length"])

/-- `pilo/fields.py:678-684`; `compile` is `re.compile`. -/
def readPattern (compile : String → Except Exc Regex) : Option Arg → Except Exc (Option ((String → Bool) × String))
  | none => .ok none
  | some a =>
    if a.truthy then
      match a with
      | .val (.str s) => do
        let r ← compile s
        .ok (some (fun x => (r.run x).isSome, r.text))
      | .regex r => .ok (some (fun x => (r.run x).isSome, r.text))
      | _ => unmodelled
    else .ok none

/-- `alphabet=`: a string, or a list of one-character strings. -/
def readAlphabet : Option Arg → Except Exc (List String)
  | none => .ok []
  | some (.val .none) => .ok []
  | some (.val (.str s)) => .ok (s.toList.map fun c => String.ofList [c])
  | some _ => unmodelled

/-- `choices=`: a list. -/
def readChoices : Option Arg → Except Exc (List Val)
  | none => .ok []
  | some (.val .none) => .ok []
  | some (.val (.list xs)) => .ok xs
  | some (.list xs) => xs.mapM Arg.toVal
  | some _ => unmodelled

/-- `pilo/fields.py:668-687`: `String(...)`. -/
def Field.newString (compile : String → Except Exc Regex) (args : List Arg) (kw : Kwargs) : Except Exc Field := do
  let (minLength, maxLength, kw) ← readLength kw
  let pattern ← readPattern compile (kw.lookup "pattern")
  let alphabet ← readAlphabet (kw.lookup "alphabet")
  let choices ← readChoices (kw.lookup "choices")
  Field.new (.string { minLength, maxLength, pattern, alphabet, choices }) args
    (kw.drop ["pattern", "alphabet", "choices"])

/-! ### Numbers -/

/-- The three classes of numbers. -/
inductive NumClass
  | integer | float | decimal

/-- The kind of a field of the class. -/
def NumClass.kind : NumClass → NumCfg → Kind
  | .integer => .integer
  | .float => .float
  | .decimal => .decimal

/-- `pilo/fields.py:772-779`: `Integer(...)`, `Float(...)`, `Decimal(...)`. -/
def Field.newNumber (cls : NumClass) (args : List Arg) (kw : Kwargs) : Except Exc Field :=
  let range := kw.lookup "range"
  let kw := kw.drop ["range"]
  match range with
  | none | some (.val .none) => do
    let min ← Arg.bound (kw.lookup "min_value")
    let max ← Arg.bound (kw.lookup "max_value")
    Field.new (cls.kind { min, max }) args (kw.drop ["min_value", "max_value"])
  | some a => do
    let (a, b) ← a.unpack2
    let min ← Arg.bound (some a)
    let max ← Arg.bound (some b)
    Field.new (cls.kind { min, max }) args kw

/-! ### Dates -/

/-- The three classes of moments. -/
inductive DateClass
  | date | time | datetime

/-- The kind of a field of the class. -/
def DateClass.kind : DateClass → DateCfg → Kind
  | .date => .date
  | .time => .time
  | .datetime => .datetime

/-- `format=`: a string; for `Date` also a list of them. -/
def readFormat (cls : DateClass) : Option Arg → Except Exc (List String)
  | none => .ok []
  | some (.val .none) => .ok []
  | some (.val (.str s)) => .ok [s]
  | some a => match cls, a.items? with
    | .date, some xs => xs.mapM fun x => match x with
      | .val (.str s) => .ok s
      | _ => unmodelled
    | _, _ => unmodelled

/-- `pilo/fields.py:888-892,948-952,987-991`: `Date(...)`, `Time(...)`, `Datetime(...)`. -/
def Field.newDate (cls : DateClass) (args : List Arg) (kw : Kwargs) : Except Exc Field := do
  let after ← Arg.bound (kw.lookup "after")
  let before ← Arg.bound (kw.lookup "before")
  let format ← readFormat cls (kw.lookup "format")
  Field.new (cls.kind { after, before, format }) args (kw.drop ["after", "before", "format"])

/-! ### Containers -/

/-- `pilo/fields.py:1042-1044`: the check of the fields of a `Tuple`.  The format `{0:r}` is not one that a value has. -/
def readFields : List Arg → Except Exc (List Field)
  | [] => .ok []
  | .field f :: xs => do
    let fs ← readFields xs
    .ok (f :: fs)
  | _ :: _ => .error (.typeError "unsupported format string passed to object.__format__")

/-- `pilo/fields.py:1031-1052`: `Tuple(...)`.  The check for defaults (lines 1046-1051) never finds `NOT_SET`: a default
that is not given is the hook. -/
def Field.newTuple (args : List Arg) (kw : Kwargs) : Except Exc Field :=
  match args with
  | [] => .error (.indexError "list index out of range")
  | .val (.str s) :: fields => go [.val (.str s)] fields
  | fields => go [] fields
where
  /-- Lines 1037-1052. -/
  go (args fields : List Arg) : Except Exc Field :=
    match fields with
    | [a] => match a.items? with
      | some xs => finish args xs
      | none => .error (.typeError "is not a field sequence")
    | xs => finish args xs
  /-- Lines 1042-1052. -/
  finish (args : List Arg) (fields : List Arg) : Except Exc Field := do
    let fs ← readFields fields
    Field.new (.tuple fs) args (kw.drop ["allow_field"])

/-- `pilo/fields.py:233-239`: `pluck(args, match)`: the arguments without the first that matches, and that one. -/
def pluck (p : Arg → Bool) : List Arg → List Arg × Option Arg
  | [] => ([], none)
  | a :: as => if p a then (as, some a) else
    let r := pluck p as
    (a :: r.1, r.2)

/-- The `unmapped` option of a sub form (`pilo/fields.py:1611-1627`). -/
def readUnmapped : Arg → Except Exc Unmapped
  | .val .none => .ok (.str .none)
  | .val (.str "capture") => .ok (.str .capture)
  | .val (.str "ignore") => .ok (.str .ignore)
  | .val (.str "") => .ok (.str .none)
  | .val (.str _) => .ok (.str .bad)
  | .field f => .ok (.value f)
  | .tuple [.field k, .field v] => .ok (.pair k v)
  | .list [.field k, .field v] => .ok (.pair k v)
  | _ => unmodelled

/-- `pilo/fields.py:1332-1341`: `SubForm.options`, on a field of class `cls` with the given settings. -/
def subformOptions (cls : Nat) (reset : Bool) (unmapped : Unmapped) (core : FieldCore) (kw : Kwargs) : Except Exc Field := do
  let r ← kw.option "reset" fun a => .ok a.truthy
  let u ← kw.option "unmapped" readUnmapped
  let flat ← kw.option "flat" fun a => .ok a.truthy
  let core := if flat.getD false then { core with src := .none } else core
  let o ← readOptions (kw.drop ["reset", "unmapped", "flat"])
  .ok ((Field.mk core (.subform cls (r.getD reset) (u.getD unmapped))).options o)

/-- `pilo/fields.py:1320-1341`: `SubForm(...)`. -/
def Field.newSubForm (args : List Arg) (kw : Kwargs) : Except Exc Field :=
  match pluck Arg.isForm args with
  | (args, some (.form cls)) => do
    let src ← readSrc args kw
    subformOptions cls false (.str .ignore) { src := src } (kw.drop ["src"])
  | _ => .error (.other "Exception" "Missing form_type")

/-- `pilo/fields.py:1074-1084`: the field of a `List`, and the positional and keyword arguments left. -/
def readItem (args : List Arg) (kw : Kwargs) : Except Exc (Field × List Arg × Kwargs) :=
  match pluck (fun a => a.isField || a.isForm) args with
  | (args, some (.field f)) => .ok (f, args, kw)
  | (args, some (.form cls)) => do
    let f ← Field.newSubForm [.form cls] []
    .ok (f, args, kw)
  | (_, _) => match kw.lookup "field" with
    | some (.field f) => .ok (f, args, kw.drop ["field"])
    | some (.form _) => .error (.typeError "attach() missing 1 required positional argument: 'parent'")
    | some _ => .error (.attributeError "object has no attribute 'attach'")
    | none => .error (.other "Exception" "Missing field")

/-- `pilo/fields.py:1085-1091`: the length of a `List`, and what is left of the keyword arguments. -/
def readListLength (kw : Kwargs) : Except Exc (Option Nat × Option Nat × Kwargs) :=
  let length := kw.lookup "length"
  let kw := kw.drop ["length"]
  match length with
  | some a =>
    if a.truthy then do
      let (a, b) ← a.unpack2
      let lo ← Arg.size (some a)
      let hi ← Arg.size (some b)
      .ok (lo, hi, kw)
    else readLength.readMinMax kw
  | none => readLength.readMinMax kw

/-- `pilo/fields.py:1072-1093`: `List(...)`. -/
def Field.newList (args : List Arg) (kw : Kwargs) : Except Exc Field := do
  let (f, args, kw) ← readItem args kw
  let (lo, hi, kw) ← readListLength kw
  let allow := ((kw.lookup "allow_field").map Arg.truthy).getD false
  Field.new (.list (f.attach none) lo hi allow) args (kw.drop ["allow_field"])

/-- `required_keys=` of a `Dict`: a set or a list. -/
def readRequired : Option Arg → Except Exc Required
  | none => .ok (.list [])
  | some (.set xs) => .ok (.set xs)
  | some (.val (.list xs)) => .ok (.list xs)
  | some (.list xs) => (xs.mapM Arg.toVal).map .list
  | some _ => unmodelled

/-- `pilo/fields.py:1144-1152`: `Dict(...)`. -/
def Field.newDict (args : List Arg) (kw : Kwargs) : Except Exc Field :=
  match args with
  | .field k :: .field v :: args => do
    let required ← readRequired (kw.lookup "required_keys")
    let maxKeys ← Arg.size (kw.lookup "max_keys")
    Field.new (.dict (k.attach none) (v.attach none) none required maxKeys) args (kw.drop ["required_keys", "max_keys"])
  | _ => unmodelled

/-- `pilo/fields.py:1353-1357`: `PolymorphicSubForm(type_field, ...)`.  `probe` and `types` stand for the forms the type field
belongs to; they are no arguments of the call. -/
def Field.newPoly (probe : Nat) (types : List (Val × Nat)) (args : List Arg) (kw : Kwargs) : Except Exc Field :=
  match args with
  | .field tf :: args => do
    let unmapped ← ((kw.lookup "unmapped").map readUnmapped).getD (.ok (.str .ignore))
    let reset := ((kw.lookup "reset").map Arg.truthy).getD false
    Field.new (.poly tf probe types reset unmapped) args (kw.drop ["reset", "unmapped"])
  | _ => unmodelled

/-! ### `Group` -/

mutual
/-- `pilo/fields.py:1404-1416`: an item of `_add_list`. -/
def groupItem : Arg → Except Exc (List (GSrc × Field))
  | .field f =>
    match f.core.src with
    | .str s => .ok [(.str s, f)]
    | v => if v.isIgnore then .error (.valueError "src is not set") else unmodelled
  | .tuple xs => match xs with
    | [.val (.str s), .field f] => .ok [(.str s, f)]
    | [.regex r, .field f] => .ok [(.re fun s => (r.run s).map fun m => .str m.whole, f)]
    | [_, _] => unmodelled
    | _ => .error (.valueError "tuple be (src, field)")
  | .list xs => groupItems xs
  | _ => .error (.valueError "should be field, (src, field) or [(src, field), ...]")
/-- `pilo/fields.py:1404-1416`: `_add_list`. -/
def groupItems : List Arg → Except Exc (List (GSrc × Field))
  | [] => .ok []
  | x :: xs => do
    let a ← groupItem x
    let b ← groupItems xs
    .ok (a ++ b)
end

/-- `pilo/fields.py:1385-1425`: `Group(...)`.  `kwargs['default'] = list`. -/
def Field.newGroup (fields : List Arg) (kw : Kwargs) : Except Exc Field := do
  let fs ← groupItems fields
  let kw := if (kw.lookup "default").isSome then kw else kw ++ [("default", .call (.ret (.list [])))]
  Field.new (.group fs) [] kw

/-! ### `Type` -/

/-- `pilo/fields.py:1267-1269`: `Type.abstract(...)`. -/
def Type.abstract (compile : String → Except Exc Regex) (args : List Arg) (kw : Kwargs) : Except Exc Field :=
  Field.newString compile args kw

/-- `pilo/fields.py:1272-1274`: the default of `Type.instance`. -/
def onlyChoice : List Val → Val
  | [c] => c
  | _ => .NONE

/-- `pilo/fields.py:1271-1276`: `Type.instance(*choices, **options)`. -/
def Type.instance (compile : String → Except Exc Regex) (choices : List Val) (kw : Kwargs) : Except Exc Field :=
  if (kw.lookup "default").isSome || (kw.lookup "choices").isSome then
    .error (.typeError "got multiple values for keyword argument")
  else
    Field.newString compile [] (kw ++ [("default", .val (onlyChoice choices)), ("choices", .val (.list choices))])

/-- `pilo/fields.py:1278-1285`: `Type.constant(value)`. -/
def Type.constant (compile : String → Except Exc Regex) (v : Val) : Except Exc Field := do
  let f ← Type.instance compile [v] []
  .ok (f.constant v)

/-- `pilo/fields.py:1291-1297`: the property `value` of a `Type`.  The result is what `self.default` is: for a field without
a default, the hook object (`Default.unset`). -/
def Type.value (f : Field) : Except Exc Default :=
  match f.core.default, f.kind with
  | .value v, .string c =>
    if v.isIgnore then
      if c.choices.isEmpty then .error (.typeError "is abstract") else .error (.typeError "is polymorphic")
    else .ok (.value v)
  | d, _ => .ok d

/-! ### Methods that set bounds -/

/-- `f.min(v)`, `f.max(v)`, `f.range(l, r)`, `f.after(v)`, `f.before(v)`, `f.between(l, r)`. -/
inductive Method
  | min (v : Val) | max (v : Val) | range (l r : Val)
  | after (v : Val) | before (v : Val) | between (l r : Val)

/-- A bound that `None` takes away. -/
def Val.given? : Val → Option Val
  | .none => Option.none
  | v => some v

/-- A number of items that `None` takes away. -/
def Val.size? (v : Val) : Except Exc (Option Nat) := Arg.size (some (.val v))

/-- `pilo/fields.py:781-790,872-883,1095-1105`: the methods, on the options of the class of the field. -/
def Kind.call : Kind → Method → Except Exc Kind
  | .integer c, m => (number c m).map .integer
  | .float c, m => (number c m).map .float
  | .decimal c, m => (number c m).map .decimal
  | .date c, m => (date c m).map .date
  | .time c, m => (date c m).map .time
  | .datetime c, m => (date c m).map .datetime
  | .list f _ hi allow, .min v => do .ok (.list f (← v.size?) hi allow)
  | .list f lo _ allow, .max v => do .ok (.list f lo (← v.size?) allow)
  | .list f _ _ allow, .range l r => do .ok (.list f (← l.size?) (← r.size?) allow)
  | _, _ => .error (.attributeError "object has no attribute")
where
  /-- Lines 781-790. -/
  number (c : NumCfg) : Method → Except Exc NumCfg
    | .min v => .ok { c with min := v.given? }
    | .max v => .ok { c with max := v.given? }
    | .range l r => .ok { min := l.given?, max := r.given? }
    | _ => .error (.attributeError "object has no attribute")
  /-- Lines 872-883. -/
  date (c : DateCfg) : Method → Except Exc DateCfg
    | .after v => .ok { c with after := v.given? }
    | .before v => .ok { c with before := v.given? }
    | .between l r => .ok { c with after := l.given?, before := r.given? }
    | _ => .error (.attributeError "object has no attribute")

/-- A method of a field; it returns the field. -/
def Field.call (f : Field) (m : Method) : Except Exc Field := do
  let k ← f.kind.call m
  .ok (.mk f.core k)

/-- A chain of calls. -/
def Field.callAll (f : Field) : List Method → Except Exc Field
  | [] => .ok f
  | m :: ms => do
    let g ← f.call m
    g.callAll ms

end Pilo
