import Verif.Source.Cache
import Verif.Source.Mount

/-!
# `pilo/source/__init__.py`: paths as mutable lists

`Path` is a `MutableSequence` of its parts (`pilo/source/__init__.py:61`): item assignment, deletion and
insertion at any index.  Indices are Python's, so negative ones count from the end.  Slices are not
modelled.
-/

namespace Pilo

/-- The position an index of `list.__setitem__`/`__delitem__` denotes in a list of `n` items; `none`
when it is out of range. -/
def pyAt (n : Nat) (i : Int) : Option Nat :=
  let j := if i < 0 then i + n else i
  if 0 ≤ j ∧ j < n then some j.toNat else none

/-- The position at which `list.insert(i, x)` inserts in a list of `n` items: out of range indices are
clamped. -/
def pySlot (n : Nat) (i : Int) : Nat :=
  if i < 0 then (i + n).toNat else min i.toNat n

namespace PathSt
variable {C : Type}

/-- `pilo/source/__init__.py:151-154` (`Path.__setitem__`). -/
def setItem (p : PathSt C) (i : Int) (k : Val) : Except Exc (PathSt C) :=
  match pyAt p.parts.length i with
  | some j => .ok { p with parts := p.parts.set j (Part.ofKey k) }
  | none => .error (.indexError "list assignment index out of range")

/-- `pilo/source/__init__.py:156-157` (`Path.__delitem__`). -/
def delItem (p : PathSt C) (i : Int) : Except Exc (PathSt C) :=
  match pyAt p.parts.length i with
  | some j => .ok { p with parts := p.parts.eraseIdx j }
  | none => .error (.indexError "list assignment index out of range")

/-- `pilo/source/__init__.py:159-162` (`Path.insert`). -/
def insertItem (p : PathSt C) (i : Int) (k : Val) : PathSt C :=
  { p with parts := p.parts.insertIdx (pySlot p.parts.length i) (Part.ofKey k) }

end PathSt

/-- An edit of a path as a list. -/
inductive PathEdit where
  /-- `path[i] = k` -/
  | set (i : Int) (k : Val)
  /-- `del path[i]` -/
  | del (i : Int)
  /-- `path.insert(i, k)` -/
  | insert (i : Int) (k : Val)

/-- Apply an edit to the part of a path all classes share. -/
def PathSt.edit {C : Type} (p : PathSt C) : PathEdit → Except Exc (PathSt C)
  | .set i k => p.setItem i k
  | .del i => p.delItem i
  | .insert i k => .ok (p.insertItem i k)

/-- Native, JSON and config paths inherit the three methods (`default.py:8`, `json.py:10`, `configparser.py:10`
override none of them). -/
def SPath.edit : SPath → PathEdit → Except Exc SPath
  | .dflt cfg st, e => match st.edit e with
    | .ok st' => .ok (.dflt cfg st')
    | .error x => .error x
  | .json s l st, e => match st.edit e with
    | .ok st' => .ok (.json s l st')
    | .error x => .error x
  | .config cfg st, e => match st.edit e with
    | .ok st' => .ok (.config cfg st')
    | .error x => .error x

/-- `for path in self.paths: …` of `pilo/source/union.py:51-52,56-57,63-64`. -/
def UPath.editAll (e : PathEdit) : List SPath → Except Exc (List SPath)
  | [] => .ok []
  | c :: cs => match c.edit e with
    | .error x => .error x
    | .ok c' => match editAll e cs with
      | .error x => .error x
      | .ok cs' => .ok (c' :: cs')

/-- `pilo/source/union.py:47-64`: a `UnionPath` edits itself and then each of its children. -/
def UPath.edit (p : UPath) (e : PathEdit) : Except Exc UPath :=
  match p.st.edit e with
  | .error x => .error x
  | .ok st => match editAll e p.kids with
    | .error x => .error x
    | .ok kids => .ok { p with st := st, kids := kids }

/-- An edit of a path that can be mounted. -/
def BPath.edit : BPath → PathEdit → Except Exc BPath
  | .simple p, e => match p.edit e with
    | .ok q => .ok (.simple q)
    | .error x => .error x
  | .union p, e => match p.edit e with
    | .ok q => .ok (.union q)
    | .error x => .error x

namespace MPath

/-- `pilo/source/mount.py:89-90,99-100,113-114`: negative indices count from the end, and are not
checked against the start. -/
def fromEnd (p : MPath) (i : Int) : Int := if i < 0 then p.keys.length + i else i

/-- `self.part = value`.  As in `MPath.append`, a key that is neither integer nor string is rejected at
once rather than at the next access. -/
def select (p : MPath) (k : Val) : Except Exc MPath :=
  if k.isIntLike || k.isStr then .ok { p with part := some k }
  else .error (.attributeError "object has no attribute 'key'")

/-- Edit the selected sub path; `gone` is what using `None` instead of it raises. -/
def editSub (p : MPath) (gone : Exc) (e : PathEdit) : Except Exc MPath :=
  match p.part with
  | none => .error gone
  | some m => match (p.sub m).edit e with
    | .ok q => .ok (p.setSub m q)
    | .error x => .error x

/-- `pilo/source/mount.py:86-118` (`__setitem__`, `__delitem__`, `insert`). -/
def edit (p : MPath) : PathEdit → Except Exc MPath
  | .set i k =>
    if p.fromEnd i = 0 then p.select k
    else p.editSub (.typeError "'NoneType' object does not support item assignment")
      (.set (p.fromEnd i - 1) k)
  | .del i => match p.part with
    | none => .error (.indexError "")
    | some m =>
      if p.fromEnd i = 0 then
        if (p.sub m).keys.isEmpty then .ok { p with part := none }
        else .error (.typeError "Cannot delete mount point")
      else p.editSub (.indexError "") (.del (p.fromEnd i - 1))
  | .insert i k =>
    if p.fromEnd i = 0 then p.select k
    else p.editSub (.attributeError "'NoneType' object has no attribute 'insert'")
      (.insert (p.fromEnd i - 1) k)

end MPath

end Pilo
