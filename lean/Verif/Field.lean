import Verif.Core

/-!
# Field configuration and hook programs (`pilo/fields.py`)
-/

namespace Pilo

/-- Variables a user may bind with `with ctx(name=value, ...)` besides `src`. -/
structure CtxVars where
  tags : Option (List String) := none
  ignoreDefault : Option Bool := none
  ignoreMissing : Option Bool := none
  vars : List (String × Val) := []

/-- The frame `ctx(**vars)` pushes. -/
def CtxVars.frame (v : CtxVars) : Frame :=
  { tags := v.tags, ignoreDefault := v.ignoreDefault, ignoreMissing := v.ignoreMissing,
    vars := v.vars }

/-- The `unmapped` argument of `Form.map` and option of `SubForm` that a hook can pass. -/
inductive UnmappedStr where
  | none | ignore | capture | bad
deriving DecidableEq, Repr, Inhabited

/-- Hook bodies: what user code called by `pilo` can do with `pilo`.  Continuations are arbitrary
functions of the values obtained, so a program can compute anything from them. -/
inductive Prog : Type where
  /-- `return v` -/
  | ret (v : Val)
  /-- `raise e` -/
  | raise (e : Exc)
  /-- sequencing -/
  | bind (p : Prog) (k : Val → Prog)
  /-- `try: p except Exception as e: h(e)` -/
  | tryCatch (p : Prog) (h : Exc → Prog)
  /-- `obj.name` -/
  | getattr (obj : Val) (name : String)
  /-- `ctx.form` -/
  | ctxForm
  /-- `form[k] = v` -/
  | setItem (form k v : Val)
  /-- `del form[k]` -/
  | delItem (form k : Val)
  /-- `k in form` -/
  | hasItem (form k : Val)
  /-- `ctx.errors.invalid(msg)` -/
  | invalid (msg : String)
  /-- `ctx.errors.missing()` -/
  | missing
  /-- `ctx.src_path.exists` -/
  | pathExists
  /-- `ctx.src_path.is_null` -/
  | pathIsNull
  /-- `ctx.src_path.value` -/
  | pathValue
  /-- `ctx.src_path.primitive(ty)` -/
  | pathPrimitive (ty : PTy)
  /-- `ctx.src_path.sequence()` -/
  | pathSequence
  /-- `list(ctx.src_path.mapping())` -/
  | pathMapping
  /-- `with ctx(**vars): p` -/
  | withVars (v : CtxVars) (p : Prog)
  /-- `with ctx(src=key): p` -/
  | withKey (k : Val) (p : Prog)
  /-- `with ctx(src=DefaultSource(data)): p` -/
  | withData (data : Val) (p : Prog)
  /-- `with ctx(errors=...): p` -/
  | withErrors (raising : Bool) (p : Prog)
  /-- `with ctx.reset(): p` -/
  | withReset (p : Prog)
  /-- `cls()` -/
  | newForm (cls : Nat)
  /-- `form.map(src, tags, reset, unmapped, error)`; `src = None` is `Val.none`; the result is the
  number of errors in the returned list -/
  | mapForm (form src : Val) (tags : List String) (reset : Bool) (unmapped : UnmappedStr)
      (raising : Bool)
  /-- `cls.fields[i].map(value)` -/
  | mapField (cls i : Nat) (value : Val)
deriving Inhabited

/-- A registered hook (`pilo/fields.py:179-230`): the target it was `attach`ed to, if any (then
`self` in the body is that object, `None` standing for the field), and the body as a function of
`self`. -/
structure Hook (α : Type) where
  target : Option Val := none
  body : Val → α

/-- `Field.default` (`pilo/fields.py:346,377-384,529-551`): the unregistered hook, a registered hook,
a zero-argument callable or type, or a value. -/
inductive Default where
  | unset
  | hook (h : Hook Prog)
  | callable (p : Prog)
  | value (v : Val)

/-- A `resolve` hook.  Its body computes the key or the data of the `src` it pushes; `None` stands
for returning `None` (nothing pushed). -/
inductive ResolveHook where
  | key (h : Hook Prog)
  | data (h : Hook Prog)

/-- `pilo/fields.py:339-362`: the state every field has. -/
structure FieldCore where
  name : Option String := none
  src : Val := .NONE
  nullable : Val := .NONE
  default : Default := .unset
  ignores : List Val := []
  translations : List (Val × Val) := []
  tags : List String := []
  attachParent : Bool := false
  resolve : Option ResolveHook := none
  compute : Option (Hook Prog) := none
  parse : Option (Hook Prog) := none
  munge : Option (Hook (Val → Prog)) := none
  filter : Option (Hook (Val → Prog)) := none
  validate : Option (Hook (Val → Prog)) := none

/-- `pilo/fields.py:668-687`: `String` options.  `pattern` is the compiled expression's `match`
(as a predicate) and its text. -/
structure StrCfg where
  minLength : Option Nat := none
  maxLength : Option Nat := none
  pattern : Option ((String → Bool) × String) := none
  alphabet : List String := []
  choices : List Val := []

/-- `pilo/fields.py:772-779`: `Number` options. -/
structure NumCfg where
  min : Option Val := none
  max : Option Val := none

/-- `pilo/fields.py:888-892,948-952,987-991`: options of the date/time fields.  `format` is the
list of format strings (`Date` accepts several; the others use the first). -/
structure DateCfg where
  after : Option Val := none
  before : Option Val := none
  format : List String := []

/-- `pilo/fields.py:1435-1443`: what a `Group` entry matches keys with: a string, or a compiled
pattern with its captures. -/
inductive GSrc where
  | str (s : String)
  | re (f : String → Option Val)

/-- `required_keys` of a `Dict` (`pilo/fields.py:1148`): a set, or a list (the default is `[]`). -/
inductive Required where
  | set (ks : List Val)
  | list (ks : List Val)

mutual
/-- The field classes of `pilo/fields.py` with their own options. -/
inductive Kind where
  /-- `Field` -/
  | base
  /-- `String`, and `Type` as far as mapping is concerned (lines 666-767, 1263-1315) -/
  | string (c : StrCfg)
  /-- lines 809-825 -/
  | integer (c : NumCfg)
  /-- lines 831-849 -/
  | float (c : NumCfg)
  /-- lines 852-860 -/
  | decimal (c : NumCfg)
  /-- lines 863-866 -/
  | boolean
  /-- lines 886-943 -/
  | date (c : DateCfg)
  /-- lines 946-982 -/
  | time (c : DateCfg)
  /-- lines 985-1026 -/
  | datetime (c : DateCfg)
  /-- lines 1029-1067 -/
  | tuple (fs : List Field)
  /-- lines 1070-1139 -/
  | list (f : Field) (minLength maxLength : Option Nat) (allowField : Bool)
  /-- lines 1142-1190 -/
  | dict (kf vf : Field) (keyFilter : Option (Hook (Val → Prog))) (required : Required)
      (maxKeys : Option Nat)
  /-- lines 1193-1251 -/
  | code
  /-- lines 1254-1260 -/
  | uuid
  /-- lines 1318-1348 -/
  | subform (cls : Nat) (reset : Bool) (unmapped : Unmapped)
  /-- lines 1351-1380: the type field, the probe form class and the identity table currently in
  `type_field.types` -/
  | poly (tf : Field) (probe : Nat) (types : List (Val × Nat)) (reset : Bool) (unmapped : Unmapped)
  /-- lines 1383-1465 -/
  | group (fs : List (GSrc × Field))
/-- A field. -/
inductive Field where
  | mk (core : FieldCore) (kind : Kind)
/-- The `unmapped` directive (`pilo/fields.py:1611-1627`). -/
inductive Unmapped where
  | str (u : UnmappedStr)
  | value (vf : Field)
  | pair (kf vf : Field)
end

instance : Inhabited Field := ⟨.mk {} .base⟩

namespace Field

def core : Field → FieldCore
  | .mk c _ => c

def kind : Field → Kind
  | .mk _ k => k

def name (f : Field) : Option String := f.core.name

end Field

/-- `Form.fields` of a class (`pilo/fields.py:1485-1500`), in class order. -/
structure ClassDef where
  fields : List Field
deriving Inhabited

/-- The class table: classes are referred to by number. -/
abbrev Classes := Nat → ClassDef

/-- The name under which a field is stored in its form. -/
def Field.key (f : Field) : Val :=
  match f.name with
  | some n => .str n
  | none => .none

end Pilo
