import Verif.Value
import Mathlib.Data.List.Sort

/-!
# Declaring form classes

A model of what happens when form classes are declared: the global creation counter
(`pilo/fields.py:165-176`), `Field.attach` (`pilo/fields.py:410-420`), `FormMeta.__new__`
(`pilo/fields.py:1485-1500`), and the table of identities a `Type` field builds from the class
hierarchy (`pilo/__init__.py:45-91`, `pilo/fields.py:1299-1308`).

Simplifications: every base of a form class is a form class (plain classes mixed in are left out;
`dict`, `CreatedCountMixin`, `ContextMixin` and `object` stand behind `Form` in every method
resolution order and hold no fields); `choices` are strings; clones (`Field.clone`,
`pilo/fields.py:426-429`) and the throw-away class `TypeProbe` built from them
(`pilo/__init__.py:83`) are not put in the world: `TypeProbe` is a direct subclass of `Form` and so
is never below a class that has a type field.
-/

namespace Pilo.Meta

/-- A class attribute: a field object or anything else. -/
inductive Attr where
  | field (id : Nat)
  | other
  deriving DecidableEq, Repr

/-- What `Field.parent` can be: a form class or another field. -/
inductive Owner where
  | cls (id : Nat)
  | field (id : Nat)
  deriving DecidableEq, Repr

/-- The table of `Types` (`pilo/__init__.py:39`): identity to class. -/
abbrev Table := List (String × Nat)

/-- `pilo/fields.py:321-346` and `pilo/fields.py:686,1288`: the attributes of a field object that
matter here. -/
structure FieldObj where
  /-- `_count` -/
  count : Nat
  parent : Option Owner := none
  name : Option String := none
  /-- `choices` of a `String`; empty for every other field -/
  choices : List String := []
  /-- `Type.types` -/
  types : Option Table := none
  deriving DecidableEq, Repr

/-- A form class: its bases, method resolution order, own attributes and `fields`. -/
structure ClassObj where
  bases : List Nat := []
  mro : List Nat := []
  dikt : List (String × Attr) := []
  fields : List Nat := []
  deriving DecidableEq, Repr

/-- The interpreter state: `CreatedCountMixin._created_count`, all field objects and all form
classes, in creation order. -/
structure World where
  created : Nat
  fields : List FieldObj
  classes : List ClassObj
  deriving DecidableEq, Repr

namespace World

/-- The state after importing pilo: class 0 is `Form` itself (`pilo/fields.py:1503`). -/
def init : World := ⟨0, [], [{ mro := [0] }]⟩

/-- The field object behind a reference. -/
def obj (w : World) (f : Nat) : FieldObj := w.fields.getD f ⟨0, none, none, [], none⟩

/-- The class object behind a reference. -/
def cls (w : World) (c : Nat) : ClassObj := w.classes.getD c {}

/-- The attribute `n` of a class's own `__dict__`. -/
def own (w : World) (c : Nat) (n : String) : Option Attr := (w.cls c).dikt.lookup n

/-- `getattr(cls, n)`: the first class of the method resolution order that has it. -/
def attr (w : World) (c : Nat) (n : String) : Option Attr := (w.cls c).mro.findSome? (w.own · n)

/-- `getattr(cls, n)` when it is a field. -/
def fieldAt (w : World) (c : Nat) (n : String) : Option Nat :=
  match w.attr c n with
  | some (.field f) => some f
  | _ => none

/-- `dir(cls)`: the names of all attributes, sorted. -/
def dir (w : World) (c : Nat) : List String :=
  ((w.cls c).mro.flatMap fun d => (w.cls d).dikt.map Prod.fst).dedup.insertionSort (· ≤ ·)

/-- `inspect.getmembers(cls, is_field)` (`pilo/fields.py:1492`). -/
def members (w : World) (c : Nat) : List (String × Nat) :=
  (w.dir c).filterMap fun n => (w.fieldAt c n).map fun f => (n, f)

/-- Assigning attributes of a field object. -/
def setObj (w : World) (f : Nat) (o : FieldObj) : World := { w with fields := w.fields.set f o }

/-- `pilo/fields.py:414-419`: the `_count` of the nearest base's field of that name. -/
def baseCount (w : World) (c : Nat) (n : String) : Option Nat :=
  (w.cls c).mro.tail.findSome? fun b => (w.fieldAt b n).map fun g => (w.obj g).count

/-- `pilo/fields.py:410-420`: `Field.attach(cls, n)`. -/
def attach (w : World) (f c : Nat) (n : String) : World :=
  w.setObj f { w.obj f with
    parent := some (.cls c), name := some n,
    count := (w.baseCount c n).getD (w.obj f).count }

/-- `pilo/fields.py:1491-1497`: the loop of `FormMeta.__new__`. -/
def metaLoop (c : Nat) : List (String × Nat) → World → List Nat → World × List Nat
  | [], w, acc => (w, acc)
  | (n, f) :: rest, w, acc =>
    metaLoop c rest
      (if (w.obj f).parent.isSome then w else w.attach f c n)
      (if acc.contains f then acc else acc ++ [f])

/-- `pilo/fields.py:1498`: `fields.sort(key=lambda x: x._count)`, a stable sort. -/
def byCount (w : World) (fs : List Nat) : List Nat :=
  fs.insertionSort fun a b => (w.obj a).count ≤ (w.obj b).count

/-- Python's merge of method resolution orders: the next class is the first head that is in no
tail. -/
def mergePick (ls : List (List Nat)) : Option Nat :=
  (ls.filterMap List.head?).find? fun x => ls.all fun l => !l.tail.contains x

/-- The lists once `x` has been taken. -/
def mergeDrop (x : Nat) (ls : List (List Nat)) : List (List Nat) :=
  ls.map fun l => if l.head? = some x then l.tail else l

/-- Python's merge of method resolution orders (C3); the first argument bounds its length. `none`
when no head can be taken (`TypeError: Cannot create a consistent method resolution order`). -/
def merge : Nat → List (List Nat) → Option (List Nat)
  | 0, ls => if ls.all List.isEmpty then some [] else none
  | k + 1, ls =>
    if ls.all List.isEmpty then some []
    else match mergePick ls with
      | none => none
      | some x => (merge k (mergeDrop x ls)).map (x :: ·)

/-- The method resolution order of a class with those bases, without the class itself. -/
def linearize (w : World) (bases : List Nat) : Option (List Nat) :=
  let ls := bases.map (fun b => (w.cls b).mro) ++ [bases]
  merge (ls.map List.length).sum ls

/-- `pilo/fields.py:1486`: `type.__new__`, once the method resolution order is found. -/
def newClass (w : World) (bases tail : List Nat) (dikt : List (String × Attr)) : World :=
  { w with classes := w.classes ++
      [{ bases := bases, mro := w.classes.length :: tail, dikt := dikt }] }

/-- `pilo/fields.py:1488-1500`: the rest of `FormMeta.__new__`. -/
def finish (w : World) (c : Nat) : World :=
  let r := metaLoop c (w.members c) w []
  { r.1 with classes := r.1.classes.set c { r.1.cls c with fields := r.1.byCount r.2 } }

/-- `pilo/fields.py:1485-1500`: `FormMeta.__new__`. Bases without a consistent order raise
`TypeError` in `type.__new__`, before anything has happened. -/
def declare (w : World) (bases : List Nat) (dikt : List (String × Attr)) : World :=
  match w.linearize bases with
  | none => w
  | some tail => (w.newClass bases tail dikt).finish w.classes.length

/-- `pilo/fields.py:174-176` through `Field.__init__`: creating a field. -/
def newField (w : World) (choices : List String) : World :=
  { w with created := w.created + 1,
           fields := w.fields ++ [{ count := w.created + 1, choices := choices }] }

/-- `pilo/fields.py:1547`: creating a form also counts. -/
def newForm (w : World) : World := { w with created := w.created + 1 }

/-- `field.attach(self)` inside `List` and `Dict` (`pilo/fields.py:1085`, `1145-1147`):
the field becomes part of another field. -/
def nest (w : World) (f p : Nat) : World :=
  w.setObj f { w.obj f with parent := some (.field p) }

/-! ### Identities -/

/-- `identities[value] = form_cls`. -/
def tableSet : Table → String → Nat → Table
  | [], k, v => [(k, v)]
  | (k', v') :: rest, k, v => if k = k' then (k', v) :: rest else (k', v') :: tableSet rest k v

/-- `form_cls.__subclasses__()`. -/
def subclasses (w : World) (c : Nat) : List Nat :=
  (List.range w.classes.length).filter fun d => c ∈ (w.cls d).bases

/-- `pilo/__init__.py:50-53`: the identities a class lists. -/
def listed (w : World) (c : Nat) (n : String) : List String :=
  match w.fieldAt c n with
  | some f => (w.obj f).choices
  | none => []

/-- `pilo/__init__.py:48-57`: the recursion `_map` over a class and its subclasses; the first
argument bounds its depth. -/
def walk (w : World) (n : String) : Nat → Nat → Table → Table
  | 0, _, tbl => tbl
  | k + 1, c, tbl =>
    (w.subclasses c).foldl (fun t d => walk w n k d t)
      ((w.listed c n).foldl (fun t v => tableSet t v c) tbl)

/-- `pilo/__init__.py:45-72`: `Types.map(field)`. -/
def typesMap (w : World) (t : Nat) : Except String Table :=
  match (w.obj t).parent, (w.obj t).name with
  | some (.cls p), some n =>
    if t ∈ (w.cls p).fields then .ok (w.walk n w.classes.length p [])
    else .error "ValueError"
  | some _, _ => .error "AttributeError"
  | none, _ => .error "ValueError"

/-- `if not self.types` (`pilo/fields.py:1306`). -/
def unset : Option Table → Bool
  | none => true
  | some [] => true
  | some _ => false

/-- `pilo/fields.py:1305-1307`: the part of `Type.probe` that builds the table. -/
def load (w : World) (t : Nat) : Except String World :=
  if unset (w.obj t).types then
    match w.typesMap t with
    | .ok tbl => .ok (w.setObj t { w.obj t with types := some tbl })
    | .error e => .error e
  else .ok w

/-- `pilo/fields.py:1301-1303`: the class for a probed identity. -/
def pick (w : World) (t : Nat) (v : Val) : Except String Nat :=
  match (((w.obj t).types.getD []).map fun p => (Val.str p.1, p.2)).find? (fun p => v.pyEq p.1) with
  | some p => .ok p.2
  | none => .error "ValueError"

/-- `pilo/fields.py:1299-1303`: `Type.cast` of a value whose identity is `v`. -/
def cast (w : World) (t : Nat) (v : Val) : Except String Nat × World :=
  match w.load t with
  | .error e => (.error e, w)
  | .ok w' => (w'.pick t v, w')

/-! ### Histories -/

/-- Something a program does to the world. -/
inductive Op where
  | field (choices : List String)
  | form
  | nest (f p : Nat)
  | declare (bases : List Nat) (dikt : List (String × Attr))
  | cast (t : Nat) (v : Val)

/-- What an operation does. -/
def step (w : World) : Op → World
  | .field cs => w.newField cs
  | .form => w.newForm
  | .nest f p => w.nest f p
  | .declare b d => w.declare b d
  | .cast t v => (w.cast t v).2

/-- Operations a program can perform: references exist, a class body has each name once, and the
field objects in it are new ones, each under one name. -/
def Can (w : World) : Op → Prop
  | .field _ => True
  | .form => True
  | .nest f _ => f < w.fields.length ∧ (w.obj f).parent = none
  | .declare bs d => bs ≠ [] ∧ (∀ b ∈ bs, b < w.classes.length) ∧ (d.map Prod.fst).Nodup ∧
      (∀ n m f, (n, .field f) ∈ d → (m, .field f) ∈ d → n = m) ∧
      ∀ n f, (n, .field f) ∈ d → f < w.fields.length ∧ (w.obj f).parent = none
  | .cast t _ => t < w.fields.length

/-- The worlds a program can reach. -/
inductive Reach : World → Prop
  | init : Reach init
  | step {w : World} {op : Op} : Reach w → w.Can op → Reach (w.step op)

end World
end Pilo.Meta
