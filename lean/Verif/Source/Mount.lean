import Verif.Source.Union

/-!
# `MountSource` / `MountPath` (`pilo/source/mount.py`) and the sum of all built-in paths
-/

namespace Pilo

/-- A path that can be mounted: non-composite or union. -/
inductive BPath where
  | simple (p : SPath)
  | union (p : UPath)

namespace BPath

def keys : BPath → List Val
  | .simple p => p.keys
  | .union p => p.keys

def append : BPath → Val → BPath
  | .simple p, k => .simple (p.append k)
  | .union p, k => .union (p.append k)

def pop : BPath → Except Exc BPath
  | .simple p => match p.pop with
    | .ok q => .ok (.simple q)
    | .error e => .error e
  | .union p => match p.pop with
    | .ok q => .ok (.union q)
    | .error e => .error e

/-- `str(path)`; a `UnionPath` has no location. -/
def render (L : Lib) : BPath → Except Exc String
  | .simple p => p.render L
  | .union p => p.st.render L

/-- Dispatch a read to the right subclass. -/
def read {α : Type} (p : BPath) (fs : SPath → Except Exc α × SPath)
    (fu : UPath → Except Exc α × UPath) : Except Exc α × BPath :=
  match p with
  | .simple p => let (r, q) := fs p; (r, .simple q)
  | .union p => let (r, q) := fu p; (r, .union q)

def value (L : Lib) (p : BPath) := p.read (SPath.value L) UPath.value
def exists_ (L : Lib) (p : BPath) := p.read (SPath.exists_ L) UPath.exists_
def isNull (L : Lib) (p : BPath) := p.read (SPath.isNull L) UPath.isNull
def mapping (L : Lib) (p : BPath) := p.read (SPath.mapping L) (UPath.mapping L)
def sequence (L : Lib) (p : BPath) := p.read (SPath.sequence L) (UPath.sequence L)
def primitive (L : Lib) (ty : PTy) (p : BPath) := p.read (SPath.primitive L ty) (UPath.primitive L ty)

/-- `Join.path()` when the value of the path is a `Join`. -/
def joinPath (L : Lib) : BPath → Option (Except Exc BPath)
  | .simple _ => none
  | .union p => match UPath.joinPath L p with
    | none => none
    | some (.error e) => some (.error e)
    | some (.ok q) => some (.ok (.union q))

end BPath

/-- `mount.py:7-14`: a `MountPath`: the selected mount point, the placeholder for unknown mount
points (`dne`), and one path per mounted source. -/
structure MPath where
  part : Option Val
  dne : BPath
  paths : List (String × BPath)

namespace MPath

/-- Position of a mount point. -/
def find (p : MPath) (k : Val) : Option Nat :=
  p.paths.findIdx? (fun q => k.pyEq (.str q.1))

/-- `mount.py:16-18`: the `path` property for the selected mount point `k`. -/
def sub (p : MPath) (k : Val) : BPath :=
  match p.find k with
  | some i => match p.paths[i]? with
    | some q => q.2
    | none => p.dne
  | none => p.dne

/-- Store a changed sub path back. -/
def setSub (p : MPath) (k : Val) (q : BPath) : MPath :=
  match p.find k with
  | some i => { p with paths := p.paths.modify i (fun r => (r.1, q)) }
  | none => { p with dne := q }

/-- `mount.py:20-26`: `parts`. -/
def keys (p : MPath) : List Val :=
  match p.part with
  | none => []
  | some k => k :: (p.sub k).keys

/-- `mount.py:28-33`: `__str__`. -/
def render (L : Lib) (p : MPath) : Except Exc String :=
  match p.part with
  | none => .ok ""
  | some k =>
    let ks := match k with | .str s => s | k => L.fmt k
    if (p.sub k).keys.isEmpty then .ok ("@" ++ ks)
    else match (p.sub k).render L with
      | .ok s => .ok ("@" ++ ks ++ ":" ++ s)
      | .error e => .error e

/-- `mount.py:110-118`: `append` = `insert(len(self), k)`.  A key that is neither integer nor string
at the mount point is stored unwrapped and breaks every later access; the model rejects it at
once. -/
def append (p : MPath) (k : Val) : Except Exc MPath :=
  match p.part with
  | none =>
    if k.isIntLike || k.isStr then .ok { p with part := some k }
    else .error (.attributeError "object has no attribute 'key'")
  | some m => .ok (p.setSub m ((p.sub m).append k))

/-- `pop()` = `self[-1]`, then `mount.py:96-108` with index `-1`. -/
def pop (p : MPath) : Except Exc MPath :=
  match p.part with
  | none => .error (.indexError "list index out of range")
  | some m =>
    if (p.sub m).keys.isEmpty then .ok { p with part := none }
    else match (p.sub m).pop with
      | .ok q => .ok (p.setSub m q)
      | .error e => .error e

/-- A read of the selected sub path. -/
def onSub {α : Type} (p : MPath) (m : Val) (f : BPath → Except Exc α × BPath) :
    Except Exc α × MPath :=
  let (r, q) := f (p.sub m)
  (r, p.setSub m q)

/-- `mount.py:35-39`: `value`; `NONE` at the mount root. -/
def value (L : Lib) (p : MPath) : Except Exc Val × MPath :=
  match p.part with
  | none => (.ok .NONE, p)
  | some m => p.onSub m (BPath.value L)

/-- `mount.py:49-53`: `exists`. -/
def exists_ (L : Lib) (p : MPath) : Except Exc Bool × MPath :=
  match p.part with
  | none => (.ok true, p)
  | some m => p.onSub m (BPath.exists_ L)

/-- `mount.py:55-59`: `is_null` is `self.value is None` (the subclass's own `is_null` is not
consulted). -/
def isNull (L : Lib) (p : MPath) : Except Exc Bool × MPath :=
  match p.part with
  | none => (.ok false, p)
  | some m => match p.onSub m (BPath.value L) with
    | (.ok v, p) => (.ok v.isNull, p)
    | (.error e, p) => (.error e, p)

/-- `mount.py:61-64`: `primitive`: `self.paths[self.part.key]`, so an unknown mount point is a
`KeyError`; at the root `self.error` does not exist. -/
def primitive (L : Lib) (ty : PTy) (p : MPath) : Except Exc Val × MPath :=
  match p.part with
  | none => (.error (.attributeError "'MountPath' object has no attribute 'error'"), p)
  | some m => match p.find m with
    | none => (.error (.keyError ""), p)
    | some _ => p.onSub m (BPath.primitive L ty)

/-- `mount.py:66-69`: `sequence`. -/
def sequence (L : Lib) (p : MPath) : Except Exc Nat × MPath :=
  match p.part with
  | none => (.error (.attributeError "'MountPath' object has no attribute 'error'"), p)
  | some m => match p.find m with
    | none => (.error (.keyError ""), p)
    | some _ => p.onSub m (BPath.sequence L)

/-- `mount.py:71-74`: `mapping`. -/
def mapping (L : Lib) (p : MPath) : Except Exc KeysView × MPath :=
  match p.part with
  | none => (.ok { ks := p.paths.map (fun q => .str q.1) }, p)
  | some m => p.onSub m (BPath.mapping L)

/-- `mount.py:9-14`: `MountPath.__init__`; `dict.iteritems` does not exist in Python 3. -/
def mk' (L : Lib) (paths : List (String × BPath)) : Except Exc MPath :=
  if L.py3 then .error (.attributeError "'dict' object has no attribute 'iteritems'")
  else .ok { part := none, dne := .simple (SPath.native (.dict []) none), paths := paths }

end MPath

/-- Any built-in path. -/
inductive Path where
  | base (p : BPath)
  | mount (p : MPath)

namespace Path

/-- Dispatch a read. -/
def read {α : Type} (p : Path) (fb : BPath → Except Exc α × BPath)
    (fm : MPath → Except Exc α × MPath) : Except Exc α × Path :=
  match p with
  | .base p => let (r, q) := fb p; (r, .base q)
  | .mount p => let (r, q) := fm p; (r, .mount q)

/-- Present keys. -/
def someKeys (r : Except Exc KeysView × Path) : Except Exc (Option KeysView) × Path :=
  match r with
  | (.ok k, p) => (.ok (some k), p)
  | (.error e, p) => (.error e, p)

/-- The path interface of all built-in sources. -/
def ops (L : Lib) : PathOps Path where
  keys p := match p with
    | .base p => p.keys
    | .mount p => p.keys
  render p := match p with
    | .base p => p.render L
    | .mount p => p.render L
  append p k := match p with
    | .base p => .ok (.base (p.append k))
    | .mount p => match p.append k with
      | .ok q => .ok (.mount q)
      | .error e => .error e
  pop p := match p with
    | .base p => match p.pop with
      | .ok q => .ok (.base q)
      | .error e => .error e
    | .mount p => match p.pop with
      | .ok q => .ok (.mount q)
      | .error e => .error e
  value p := p.read (BPath.value L) (MPath.value L)
  exists_ p := p.read (BPath.exists_ L) (MPath.exists_ L)
  isNull p := p.read (BPath.isNull L) (MPath.isNull L)
  mapping p := someKeys (p.read (BPath.mapping L) (MPath.mapping L))
  sequence p := p.read (BPath.sequence L) (MPath.sequence L)
  primitive ty p := p.read (BPath.primitive L ty) (MPath.primitive L ty)
  hasSrc p := match p with
    | .base _ => true
    | .mount _ => false
  joinPath p := match p with
    | .base p => match p.joinPath L with
      | none => none
      | some (.ok q) => some (.ok (.base q))
      | some (.error e) => some (.error e)
    | .mount p => match p.part with
      | none => none
      | some m => match (p.sub m).joinPath L with
        | none => none
        | some (.ok q) => some (.ok (.base q))
        | some (.error e) => some (.error e)
  native v al := .base (.simple (SPath.native v al))

end Path
end Pilo
