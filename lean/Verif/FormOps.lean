import Verif.Eval

/-!
# Operations on mapped forms

`pilo/fields.py:1676-1765`: `Form.has`, `flatten`, `munge`, `filter` and `copy`; `pilo/fields.py:655-663`: assigning and
deleting attributes.
-/

namespace Pilo
variable {P : Type} (I : PathOps P) (L : Lib) (C : Classes)

/-! ### `munge` -/

/-- `pilo/fields.py:1727-1731`: an item of a list or tuple. -/
def mungeItems (rec : Nat → M P Nat) : List Val → M P (List Val)
  | [] => M.pure []
  | .form id :: xs => do
    let b ← rec id
    let ys ← mungeItems rec xs
    M.pure (.form b :: ys)
  | x :: xs => do
    let ys ← mungeItems rec xs
    M.pure (x :: ys)

/-- `pilo/fields.py:1724-1732`: forms, and forms that are items of a list or tuple, are munged too; the
result of a tuple is a list. -/
def mungeVal (rec : Nat → M P Nat) (v : Val) : M P Val :=
  match v with
  | .form id => do
    let b ← rec id
    M.pure (.form b)
  | .list xs => do
    let ys ← mungeItems rec xs
    M.pure (.list ys)
  | .tuple xs => do
    let ys ← mungeItems rec xs
    M.pure (.list ys)
  | v => M.pure v

/-- `form[field.name]` if present, else `NONE` (`pilo/fields.py:1717-1720`). -/
def lookField (items : List (Val × Val)) (f : Field) : Val := (dictGet? items f.key).getD .NONE

/-- `pilo/fields.py:1716-1733`: the loop of `munge`. -/
def mungeLoop (rec : Nat → M P Nat) (func : Nat → Field → Val → M P Val) (id new : Nat) : List Field → M P Unit
  | [] => M.pure ()
  | f :: fs => do
    let items ← formItems id
    let v ← func new f (lookField items f)
    if v.isNONE then mungeLoop rec func id new fs
    else do
      let w ← mungeVal rec v
      formSet new f.key w
      mungeLoop rec func id new fs

/-- `pilo/fields.py:1714-1734`: `form.munge(func)` with recursion budget `n`; the new form. -/
def formMunge (func : Nat → Field → Val → M P Val) : Nat → Nat → M P Nat
  | 0, _ => M.raise .recursion
  | n + 1, id => do
    let cls ← formCls id
    let new ← newForm cls
    mungeLoop (formMunge func n) func id new (C cls).fields
    M.pure new

/-! ### `filter` -/

/-- `field.has_tag(tag)` for some of the tags (`pilo/fields.py:461-462,1740`). -/
def hasAnyTag (f : Field) (tags : List String) : Bool := tags.any fun t => f.core.tags.contains t

/-- `pilo/fields.py:1739-1743`: the function `filter` munges with. -/
def filterFunc (tags : List String) (inv : Bool) (f : Field) (v : Val) : Val :=
  let hit := hasAnyTag f tags
  let hit := if inv then !hit else hit
  if hit then v else .NONE

/-- `pilo/fields.py:1736-1745`: `form.filter(*tags, inv=inv)`. -/
def formFilter (tags : List String) (inv : Bool) (n id : Nat) : M P Nat :=
  formMunge C (fun _ f v => M.pure (filterFunc tags inv f v)) n id

/-! ### `copy` -/

/-- `pilo/fields.py:1749-1750`. -/
def copyLoop (dst : Nat) : List (Val × Val) → M P Unit
  | [] => M.pure ()
  | (k, v) :: kvs => do
    formSet dst k v
    copyLoop dst kvs

/-- `pilo/fields.py:1747-1751`: `form.copy()`. -/
def formCopy (id : Nat) : M P Nat := do
  let cls ← formCls id
  let dst ← newForm cls
  let items ← formItems id
  copyLoop dst items
  M.pure dst

/-! ### `flatten` -/

/-- `pilo/fields.py:1697-1710`: the loop of `_flatten`.  The generator is consumed at once. -/
def flattenLoop (rec : Nat → List Field → M P (List (List Field × Val))) (id : Nat) (path : List Field) :
    List Field → M P (List (List Field × Val))
  | [] => M.pure []
  | f :: fs => do
    let items ← formItems id
    match dictGet? items f.key with
    | none => flattenLoop rec id path fs
    | some v =>
      if v.isIgnore then flattenLoop rec id path fs
      else match v with
        | .form b => do
          let xs ← rec b (path ++ [f])
          let ys ← flattenLoop rec id path fs
          M.pure (xs ++ ys)
        | v => do
          let ys ← flattenLoop rec id path fs
          M.pure ((path ++ [f], v) :: ys)

/-- `pilo/fields.py:1696-1710`: `_flatten` with recursion budget `n`; `path` holds the enclosing fields. -/
def flattenFrom : Nat → Nat → List Field → M P (List (List Field × Val))
  | 0, _, _ => M.raise .recursion
  | n + 1, id, path => do
    let cls ← formCls id
    flattenLoop (flattenFrom n) id path (C cls).fields

/-- `pilo/fields.py:1692-1712`: `form.flatten()`. -/
def formFlatten (n id : Nat) : M P (List (List Field × Val)) := flattenFrom C n id []

/-! ### Assigning and deleting attributes -/

/-- `setattr(form, name, value)` (`pilo/fields.py:655-656`): fields are data descriptors.  Names that are no field would
become attributes of the Python object, which are not modelled; here that raises. -/
def formSetattr (id : Nat) (name : String) (v : Val) : M P Unit := do
  let cls ← formCls id
  match (C cls).field? name with
  | some f => formSet id f.key v
  | none => M.raise (.attributeError ("object has no attribute '" ++ name ++ "'"))

/-- `delattr(form, name)` (`pilo/fields.py:658-663`); names that are no field as for `formSetattr`. -/
def formDelattr (id : Nat) (name : String) : M P Unit := do
  let cls ← formCls id
  match (C cls).field? name with
  | some f => do
    let items ← formItems id
    if dictHas items f.key then formDel id f.key else M.pure ()
  | none => M.raise (.attributeError name)

/-! ### `has` -/

/-- `isinstance(e, LookupError)`. -/
def Exc.isLookupError : Exc → Bool
  | .keyError _ => true
  | .indexError _ => true
  | _ => false

/-- `value.__get__`: of the values a form can hold only functions are descriptors. -/
def valueGet : Val → M P Val
  | .func id => M.pure (.func id)
  | _ => M.raise (.attributeError "object has no attribute '__get__'")

/-- `pilo/fields.py:1676-1690` with a name: after `getattr(self, name, None)` it is the value of the attribute
whose `__get__` is called. -/
def formHasName (n id : Nat) (name : String) : M P Bool := do
  let items ← formItems id
  if (dictGet? items (.str name)).isSome then M.pure true
  else do
    let v ← M.tryCatch (Form.getattr I L C n id name) fun
      | .attributeError _ => M.pure .none
      | e => M.raise e
    if v.isNull then M.pure false
    else do
      let w ← M.tryCatch (valueGet v) fun e => if e.isLookupError then M.pure .none else M.raise e
      M.pure (!w.isNull)

/-- `pilo/fields.py:1676-1690` with a field. -/
def formHasField (n id : Nat) (f : Field) : M P Bool := do
  let w ← M.tryCatch (fieldGet I (mapField I L C n) f id) fun e => if e.isLookupError then M.pure .none else M.raise e
  M.pure (!w.isNull)

end Pilo
