import Verif.Hook
import Verif.Eval

/-!
# Fields as objects: copies

`Field.clone` (`pilo/fields.py:426-429`) is `copy.copy`: the attributes of the copy refer to the same lists,
dictionaries and hooks as those of the original.  Fields are modelled here as objects in a heap, with what a program can
do to them before any mapping (`pilo/fields.py:337-467`).
-/

namespace Pilo.Clone
open Hooks (Func Outcome)

/-- The attribute `default`: the hook made by `__init__`, or a value assigned by `options` (`pilo/fields.py:345,383`). -/
inductive DefaultAttr where
  | hook (r : Nat)
  | value (v : Val)

/-- The hooks of a field other than `default` (`pilo/fields.py:341-348`). -/
inductive HookName where
  | compute | resolve | parse | munge | filter | validate
  deriving DecidableEq

/-- The attributes of a field object (`pilo/fields.py:337-362`).  `ignores`, `translations`, `tags` and the hooks are
references. -/
structure Obj where
  parent : Option Nat := none
  name : Option String := none
  src : Val := .NONE
  nullable : Val := .NONE
  attachParent : Bool := false
  default : DefaultAttr
  ignores : Nat
  translations : Nat
  tags : Nat
  hook : HookName → Nat

/-- The heap; `next` is a reference not used yet. -/
structure Heap where
  next : Nat
  field : Nat → Option Obj
  list : Nat → List Val
  dict : Nat → List (Val × Val)
  hooks : Nat → Hooks.Hook
  /-- `Hook.parent` -/
  owner : Nat → Nat

variable (h : Heap)

/-- A place of a function changed. -/
def put {α : Type} (f : Nat → α) (i : Nat) (v : α) : Nat → α := fun j => if j = i then v else f j

/-- Assigning attributes of a field object. -/
def Heap.assign (i : Nat) (g : Obj → Obj) : Heap := { h with field := put h.field i ((h.field i).map g) }

def HookName.index : HookName → Nat
  | .compute => 0
  | .resolve => 1
  | .parse => 2
  | .munge => 3
  | .filter => 4
  | .validate => 5

/-- `pilo/fields.py:337-362`: `Field(src)`: a field with its own empty list, dictionaries and hooks.  `spec` and `dspec`
are the `argspec`s of the methods the hooks are for, which depend on the field class.  Returns the field. -/
def Heap.make (src : Val) (spec : HookName → String) (dspec : String) : Nat × Heap :=
  let n := h.next
  (n, { h with
    next := n + 11
    field := put h.field n (some {
      src := src
      default := .hook (n + 4)
      ignores := n + 1
      translations := n + 2
      tags := n + 3
      hook := fun k => n + 5 + k.index })
    list := put h.list (n + 1) []
    dict := put (put h.dict (n + 2) []) (n + 3) []
    hooks := fun r => if r < n ∨ n + 11 ≤ r then h.hooks r else
      { spec := if r = n + 4 then dspec else
          spec (if r = n + 5 then .compute else if r = n + 6 then .resolve else if r = n + 7 then .parse else
            if r = n + 8 then .munge else if r = n + 9 then .filter else .validate) }
    owner := fun r => if r < n ∨ n + 11 ≤ r then h.owner r else n })

/-- `pilo/fields.py:426-429`: `Field.clone`: `copy.copy(self)`, then `other.parent = None`.  Returns the copy. -/
def Heap.clone (o : Obj) : Nat × Heap :=
  (h.next, { h with next := h.next + 1, field := put h.field h.next (some { o with parent := none }) })

/-- The `argspec` of `Field._compute`, and of the function `constant` makes. -/
def computeSpec : String := "self"

/-- `pilo/fields.py:447,451`: `field.compute.attach(field)(compute)` for the field `i` with attributes `o`. -/
def Heap.setCompute (i : Nat) (o : Obj) (fn : Nat) : Outcome × Heap :=
  let r := o.hook .compute
  let res := ((h.hooks r).attach i).call i [.func ⟨fn, computeSpec⟩]
  (res.1, { h with hooks := put h.hooks r res.2 })

/-- What a program does with a field. -/
inductive Op where
  /-- `options(nullable=, default=, attach_parent=)`: assignments; and `Field.attach` (`pilo/fields.py:410-420`) -/
  | nullable (v : Val)
  | default (v : Val)
  | attachParent (b : Bool)
  | attach (parent : Nat) (name : Option String)
  /-- `pilo/fields.py:453-459,464-467` -/
  | ignore (vs : List Val)
  | translate (kvs : List (Val × Val))
  | tag (kvs : List (Val × Val))
  /-- `@field.munge` and the like -/
  | register (hook : HookName) (fn : Func)
  /-- `@field.default` -/
  | registerDefault (fn : Func)
  /-- `pilo/fields.py:442-451` -/
  | constant (fn : Nat)
  | clone

/-- What an operation comes to: the field it returns, or what the call of a hook came to. -/
inductive Res where
  | field (i : Nat)
  /-- what the field `i` is attached to in the end, or itself (`pilo/fields.py:221-224`) -/
  | top (i : Nat)
  | call (o : Outcome)
  deriving DecidableEq

/-- One operation on the field `i` with the attributes `o`.  A default that is a value is called like a hook by
`@field.default`; values that can be called are left out. -/
def Heap.act (i : Nat) (o : Obj) : Op → Res × Heap
  | .nullable v => (.field i, h.assign i fun o => { o with nullable := v })
  | .default v => (.field i, h.assign i fun o => { o with
      default := .value v
      nullable := if v.isNull then .bool true else o.nullable })
  | .attachParent b => (.field i, h.assign i fun o => { o with attachParent := b })
  | .attach p n => (.field i, h.assign i fun o => { o with
      parent := some p
      name := n
      src := if o.src.isNONE then (match n with | some n => .str n | none => .none) else o.src })
  | .ignore vs => (.field i, { h with list := put h.list o.ignores (h.list o.ignores ++ vs) })
  | .translate kvs => (.field i, { h with
      dict := put h.dict o.translations (dictUpdate (h.dict o.translations) kvs) })
  | .tag kvs => (.field i, { h with dict := put h.dict o.tags (dictUpdate (h.dict o.tags) kvs) })
  | .register n fn =>
    let res := (h.hooks (o.hook n)).call i [.func fn]
    (match res.1 with | .registered => .top (h.owner (o.hook n)) | r => .call r, { h with hooks := put h.hooks (o.hook n) res.2 })
  | .registerDefault fn =>
    match o.default with
    | .hook r =>
      let res := (h.hooks r).call i [.func fn]
      (match res.1 with | .registered => .top (h.owner r) | r => .call r, { h with hooks := put h.hooks r res.2 })
    | .value _ => (.call .notSet, h)
  | .constant fn =>
    match o.parent with
    | none =>
      let res := h.setCompute i o fn
      (match res.1 with | .registered => .top (h.owner (o.hook .compute)) | r => .call r, res.2)
    | some _ =>
      let c := h.clone o
      let r := c.2.next
      let o' := { o with parent := none, hook := fun n => if n = .compute then r else o.hook n }
      let h' := { c.2 with
        next := r + 1
        field := put c.2.field c.1 (some o')
        hooks := put c.2.hooks r { spec := computeSpec }
        owner := put c.2.owner r c.1 }
      let res := h'.setCompute c.1 o' fn
      (match res.1 with | .registered => .top (h'.owner (o'.hook .compute)) | r => .call r, res.2)
  | .clone => let c := h.clone o; (.field c.1, c.2)

/-- The same for any reference; nothing happens where there is no field. -/
def Heap.step (i : Nat) (op : Op) : Heap :=
  match h.field i with
  | some o => (h.act i o op).2
  | none => h

/-- A step of a program: an operation on a field, named by its reference, or a new field. -/
inductive Act where
  | on (i : Nat) (op : Op)
  | make (src : Val) (spec : HookName → String) (dspec : String)

def Heap.perform : Act → Heap
  | .on i op => h.step i op
  | .make src spec dspec => (h.make src spec dspec).2

/-- A history. -/
def Heap.run (acts : List Act) : Heap := acts.foldl Heap.perform h

/-- The heap of a program that has made no field yet. -/
def Heap.empty : Heap where
  next := 0
  field _ := none
  list _ := []
  dict _ := []
  hooks _ := { spec := "" }
  owner _ := 0

end Pilo.Clone
