import Verif.Source.Mount

/-!
# Sources inside sources: unions and mounts of unions and mounts, to any depth

`UnionSource` and `MountSource` accept any `Source` (`union.py:80-90`, `mount.py:122-130`), so a child
of a union may be a union or a mount again.  `Union.lean` and `Mount.lean` follow the code for
children that are plain sources; here the same functions are written against an interface
`Child P` of the paths below, and `Nest n` is the type of paths of sources nested at most `n` deep.
`Props/Nest.lean` shows that for plain children these are the functions of `Union.lean`.

Keys are integers or strings: other keys are refused when they are appended (see `Nest.ops`).
-/

namespace Pilo

/-- What `UnionPath` and `MountPath` use of a path below them. -/
structure Child (P : Type) where
  /-- `[part.key for part in path]` -/
  keys : P → List Val
  /-- `str(path)` -/
  render : P → Except Exc String
  /-- `path.append(key)` for an integer or a string -/
  app : P → Val → P
  /-- `path.pop()` -/
  pop : P → Except Exc P
  /-- `path[-1].key -= offset` (`union.py:231`) -/
  shift : P → Nat → Except Exc P
  /-- `path.value` as seen by `is NONE`, `is None` and `isinstance` checks -/
  value : P → Except Exc Val × P
  exists_ : P → Except Exc Bool × P
  isNull : P → Except Exc Bool × P
  mapping : P → Except Exc KeysView × P
  sequence : P → Except Exc Nat × P
  primitive : PTy → P → Except Exc Val × P
  hasSrc : P → Bool
  /-- `path.value.path()` when the value is a `Join` -/
  joinPath : P → Option (Except Exc P)
  native : Val → Option (List (Val × Val)) → P

/-- A key that `Path.insert` wraps (`pilo/source/__init__.py:160`). -/
def Val.isKey (k : Val) : Bool := k.isIntLike || k.isStr

/-- `path[-1].key -= offset` on the parts of a path: fails without parts, and on a key that is no
number. -/
def PathSt.shift {C : Type} (st : PathSt C) (offset : Nat) : Except Exc (PathSt C) :=
  match st.parts.reverse with
  | [] => .error (.indexError "list index out of range")
  | q :: rest =>
    match q.key.index? with
    | some i => .ok { st with parts := (({ q with key := .int (i - offset) }) :: rest).reverse }
    | none => .error (.typeError "unsupported operand type(s) for -=")

/-- `path[-1].key -= offset`. -/
def SPath.shift : SPath → Nat → Except Exc SPath
  | .dflt cfg st, o => match st.shift o with
    | .ok st' => .ok (.dflt cfg st')
    | .error e => .error e
  | .json s l st, o => match st.shift o with
    | .ok st' => .ok (.json s l st')
    | .error e => .error e
  | .config cfg st, o => match st.shift o with
    | .ok st' => .ok (.config cfg st')
    | .error e => .error e

/-- Default, JSON and config paths as children. -/
def SPath.child (L : Lib) : Child SPath where
  keys := SPath.keys
  render := SPath.render L
  app := SPath.append
  pop := SPath.pop
  shift := SPath.shift
  value := SPath.value L
  exists_ := SPath.exists_ L
  isNull := SPath.isNull L
  mapping := SPath.mapping L
  sequence := SPath.sequence L
  primitive := SPath.primitive L
  hasSrc _ := true
  joinPath _ := none
  native := SPath.native

/-! ## Unions -/

/-- Read from child `i`, storing the changed child. -/
def onKid {P α : Type} (kids : List P) (i : Nat) (f : P → Except Exc α × P) : Except Exc α × List P :=
  match kids[i]? with
  | none => (.error (.indexError "no such path"), kids)
  | some p => let (r, p') := f p; (r, kids.set i p')

namespace Child
variable {P : Type} (K : Child P)

/-- `union.py:154-171`: the loop of `Mapping.__init__` for a fixed merge mode. -/
def mappingLoop (merge : Merge) :
    List Nat → List (Nat × List Val) → List P → Except Exc (List (Nat × List Val)) × List P
  | [], acc, kids => (.ok acc, kids)
  | i :: rest, acc, kids =>
    match onKid kids i K.exists_ with
    | (.error e, kids) => (.error e, kids)
    | (.ok false, kids) => mappingLoop merge rest acc kids
    | (.ok true, kids) =>
      match onKid kids i K.isNull with
      | (.error e, kids) => (.error e, kids)
      | (.ok isNull, kids) =>
        if merge = .first then
          if isNull then (.ok acc, kids)
          else match onKid kids i K.mapping with
            | (.error e, kids) => (.error e, kids)
            | (.ok ks, kids) => (.ok (acc ++ [(i, ks.ks)]), kids)
        else if isNull then mappingLoop merge rest acc kids
        else match onKid kids i K.mapping with
          | (.error e, kids) => (.error e, kids)
          | (.ok ks, kids) =>
            if acc.isEmpty then mappingLoop merge rest (acc ++ [(i, ks.ks)]) kids
            else if merge = .combine then mappingLoop merge rest (acc ++ [(i, ks.ks)]) kids
            else if merge = .last then mappingLoop merge rest [(i, ks.ks)] kids
            else mappingLoop merge rest acc kids

/-- `union.py:146-173`: `Mapping.__init__`. -/
def mkMapping (cfg : UnionCfg) (merge : Option Merge) (cs : List Nat) (kids : List P) :
    Except Exc (List (Nat × List Val)) × List P :=
  let m := mappingMode cfg merge cs.length
  if m = .bad then (.error (.valueError "merge invalid"), kids)
  else K.mappingLoop m cs [] kids

/-- `union.py:199-217`: the loop of `Sequence.__init__`. -/
def sequenceLoop (cfg : UnionCfg) :
    List Nat → Option Merge → List (Nat × Nat) → List P → Except Exc (List (Nat × Nat)) × List P
  | [], _, acc, kids => (.ok acc, kids)
  | i :: rest, merge, acc, kids =>
    match onKid kids i K.exists_ with
    | (.error e, kids) => (.error e, kids)
    | (.ok false, kids) => sequenceLoop cfg rest merge acc kids
    | (.ok true, kids) =>
      match onKid kids i K.isNull with
      | (.error e, kids) => (.error e, kids)
      | (.ok true, kids) => sequenceLoop cfg rest merge acc kids
      | (.ok false, kids) =>
        match onKid kids i K.sequence with
        | (.error e, kids) => (.error e, kids)
        | (.ok n, kids) =>
          match acc with
          | [] => sequenceLoop cfg rest merge [(i, n)] kids
          | a :: as =>
            let depth := ((kids[i]?).map (fun p => (K.keys p).length)).getD 0
            let m := merge.getD (sequenceMode cfg depth)
            match m with
            | .combine => sequenceLoop cfg rest (some m) (a :: as ++ [(i, n)]) kids
            | .first => sequenceLoop cfg rest (some m) (a :: as) kids
            | .last => sequenceLoop cfg rest (some m) ((i, n) :: as) kids
            | .bad => (.error (.indexError "tuple index out of range"), kids)

/-- `union.py:223-232`: `Sequence.__getitem__`; re-bases the child's last key. -/
def seqGet (ss : List (Nat × Nat)) (k : Val) (kids : List P) : Except Exc UVal × List P :=
  match k.index? with
  | none => (.error (.typeError "unorderable types"), kids)
  | some key =>
    match seqFind key 0 ss with
    | none => (.error (.indexError ""), kids)
    | some (i, offset) =>
      match kids[i]? with
      | none => (.error (.indexError "no such path"), kids)
      | some p =>
        match K.shift p offset with
        | .ok p' => (.ok (.join [i]), kids.set i p')
        | .error e => (.error e, kids)

/-- `union.py:39-43`: `UnionPath.resolve`; what `container[part.key]` raises is swallowed. -/
def resolveUnion (c : UVal) (k : Val) (kids : List P) : Except Exc UVal × List P :=
  match c with
  | .mapping ms => (.ok (match mappingGet ms k with | .ok v => v | .error _ => .val .NONE), kids)
  | .seq ss => match K.seqGet ss k kids with
    | (.ok v, kids) => (.ok v, kids)
    | (.error _, kids) => (.ok (.val .NONE), kids)
  | .join _ => (.ok (.val .NONE), kids)
  | .val v => (.ok (match getItem v k with | .ok w => .val w | .error _ => .val .NONE), kids)

end Child

/-- `union.py:6-25`: a `UnionPath` over children of any kind. -/
structure UnionOf (P : Type) where
  cfg : UnionCfg
  st : PathSt UVal
  kids : List P

namespace UnionOf
variable {P : Type} (K : Child P)

def keys (p : UnionOf P) : List Val := p.st.keys

/-- `union.py:59-64`: `insert` at the end, on this path and on every child. -/
def app (p : UnionOf P) (k : Val) : UnionOf P :=
  { p with st := p.st.append k, kids := p.kids.map (K.app · k) }

/-- `del path[-1]` on every child (`union.py:54-57`). -/
def popAll : List P → Except Exc (List P)
  | [] => .ok []
  | c :: cs => match K.pop c with
    | .error e => .error e
    | .ok c' => match popAll cs with
      | .error e => .error e
      | .ok cs' => .ok (c' :: cs')

/-- `pop()` = read `self[-1]` then `del self[-1]` (`union.py:54-57`). -/
def pop (p : UnionOf P) : Except Exc (UnionOf P) :=
  match p.st.pop with
  | .error e => .error e
  | .ok st' => match popAll K p.kids with
    | .error e => .error e
    | .ok kids' => .ok { p with st := st', kids := kids' }

/-- `path[-1].key -= offset`, done to this path by a union above it: the key of its own last part
changes, the keys of its children do not. -/
def shift (p : UnionOf P) (o : Nat) : Except Exc (UnionOf P) :=
  match p.st.shift o with
  | .ok st' => .ok { p with st := st' }
  | .error e => .error e

/-- `path.value`. -/
def uvalue (p : UnionOf P) : Except Exc UVal × UnionOf P :=
  let (r, kids, st) := PathSt.value (fun _ kids c k => K.resolveUnion c k kids) UVal.isNONE p.kids p.st
  (r, { p with st := st, kids := kids })

def value (p : UnionOf P) : Except Exc Val × UnionOf P :=
  match p.uvalue K with
  | (.ok v, p) => (.ok (UPath.toVal v), p)
  | (.error e, p) => (.error e, p)

/-- `exists` (`pilo/source/__init__.py:124-126`). -/
def exists_ (p : UnionOf P) : Except Exc Bool × UnionOf P :=
  match p.uvalue K with
  | (.ok v, p) => (.ok (!v.isNONE), p)
  | (.error e, p) => (.error e, p)

/-- `union.py:29-37`: `is_null`. -/
def isNull (p : UnionOf P) : Except Exc Bool × UnionOf P :=
  match p.uvalue K with
  | (.error e, p) => (.error e, p)
  | (.ok v, p) => (.ok (match v with
      | .val w => w.isNull
      | .mapping ms => ms.isEmpty
      | .seq ss => ss.isEmpty
      | .join _ => false), p)

/-- `union.py:99-104`: `UnionSource.mapping`. -/
def mapping (p : UnionOf P) : Except Exc KeysView × UnionOf P :=
  match p.uvalue K with
  | (.error e, p) => (.error e, p)
  | (.ok (.join cs), p) =>
    match K.mkMapping p.cfg none cs p.kids with
    | (.error e, kids) => (.error e, { p with kids := kids })
    | (.ok ms, kids) =>
      (.ok { ks := UPath.mappingKeys ms }, { p with st := p.st.setValue (.mapping ms), kids := kids })
  | (.ok (.mapping ms), p) => (.ok { ks := UPath.mappingKeys ms }, p)
  | (.ok _, p) => (.error (.sourceError "not a mapping"), p)

/-- `union.py:106-111`: `UnionSource.sequence`. -/
def sequence (p : UnionOf P) : Except Exc Nat × UnionOf P :=
  match p.uvalue K with
  | (.error e, p) => (.error e, p)
  | (.ok (.join cs), p) =>
    match K.sequenceLoop p.cfg cs none [] p.kids with
    | (.error e, kids) => (.error e, { p with kids := kids })
    | (.ok ss, kids) =>
      (.ok (UPath.seqTotal ss), { p with st := p.st.setValue (.seq ss), kids := kids })
  | (.ok (.seq ss), p) => (.ok (UPath.seqTotal ss), p)
  | (.ok _, p) => (.error (.sourceError "not a sequence"), p)

/-- `union.py:113-116,131-134`: `UnionSource.primitive` and `Join.primitive`. -/
def primitive (ty : PTy) (p : UnionOf P) : Except Exc Val × UnionOf P :=
  match p.uvalue K with
  | (.error e, p) => (.error e, p)
  | (.ok (.join cs), p) =>
    match cs with
    | [] => (.ok .NONE, { p with st := p.st.setValue (.val .NONE) })
    | c :: _ =>
      match onKid p.kids c (K.primitive ty) with
      | (.error e, kids) => (.error e, { p with kids := kids })
      | (.ok v, kids) => (.ok v, { p with st := p.st.setValue (.val v), kids := kids })
  | (.ok v, p) => (.ok (UPath.toVal v), p)

/-- `union.py:8-25,96-97`: `UnionSource.path()` over the root paths of the sources. -/
def make (cfg : UnionCfg) (kids : List P) : Except Exc (UnionOf P) :=
  if kids.isEmpty then .error (.valueError "All paths must have equal length")
  else match K.mkMapping cfg (some .combine) (List.range kids.length) kids with
    | (.error e, _) => .error e
    | (.ok ms, kids') => .ok { cfg := cfg, st := { root := .mapping ms, parts := [] }, kids := kids' }

/-- `union.py:17-25`: the prefix of a new `UnionPath`. -/
def prefixKeys (cs : List Nat) (kids : List P) : List Val :=
  match cs with
  | [] => []
  | c :: _ => match kids[c]? with
    | some p => K.keys p
    | none => []

/-- `union.py:138-141`: `Join.path()` for the `Join` found at the end of this path. -/
def joinPath (p : UnionOf P) : Option (Except Exc (UnionOf P)) :=
  match p.uvalue K with
  | (.ok (.join cs), p) =>
    match K.mkMapping p.cfg none cs p.kids with
    | (.error e, _) => some (.error e)
    | (.ok ms, kids) =>
      let st : PathSt UVal := { root := .mapping ms, parts := (prefixKeys K cs kids).map Part.ofKey }
      some (if st.parts.isEmpty then .error (.indexError "list index out of range")
        else .ok { p with st := st.setValue (.join cs), kids := kids })
  | _ => none

end UnionOf

/-! ## Mounts -/

/-- `mount.py:7-14`: a `MountPath` over paths of any kind. -/
structure MountOf (P : Type) where
  part : Option Val
  dne : P
  paths : List (String × P)

namespace MountOf
variable {P : Type} (K : Child P)

/-- Position of a mount point. -/
def find (p : MountOf P) (k : Val) : Option Nat :=
  p.paths.findIdx? (fun q => k.pyEq (.str q.1))

/-- `mount.py:16-18`: the `path` property for the selected mount point `k`. -/
def sub (p : MountOf P) (k : Val) : P :=
  match p.find k with
  | some i => match p.paths[i]? with
    | some q => q.2
    | none => p.dne
  | none => p.dne

/-- Store a changed sub path back. -/
def setSub (p : MountOf P) (k : Val) (q : P) : MountOf P :=
  match p.find k with
  | some i => { p with paths := p.paths.modify i (fun r => (r.1, q)) }
  | none => { p with dne := q }

/-- `mount.py:20-26`: `parts`. -/
def keys (p : MountOf P) : List Val :=
  match p.part with
  | none => []
  | some k => k :: K.keys (p.sub k)

/-- `mount.py:28-33`: `__str__`. -/
def render (L : Lib) (p : MountOf P) : Except Exc String :=
  match p.part with
  | none => .ok ""
  | some k =>
    let ks := match k with | .str s => s | k => L.fmt k
    if (K.keys (p.sub k)).isEmpty then .ok ("@" ++ ks)
    else match K.render (p.sub k) with
      | .ok s => .ok ("@" ++ ks ++ ":" ++ s)
      | .error e => .error e

/-- `mount.py:110-118`: `append` = `insert(len(self), k)`. -/
def app (p : MountOf P) (k : Val) : MountOf P :=
  match p.part with
  | none => { p with part := some k }
  | some m => p.setSub m (K.app (p.sub m) k)

/-- `pop()` = `self[-1]`, then `mount.py:96-108` with index `-1`. -/
def pop (p : MountOf P) : Except Exc (MountOf P) :=
  match p.part with
  | none => .error (.indexError "list index out of range")
  | some m =>
    if (K.keys (p.sub m)).isEmpty then .ok { p with part := none }
    else match K.pop (p.sub m) with
      | .ok q => .ok (p.setSub m q)
      | .error e => .error e

/-- `path[-1].key -= offset` done by a union above (`mount.py:20-26,78-79`): `path[-1]` is the last part
of the selected path, or the mount point itself. -/
def shift (p : MountOf P) (o : Nat) : Except Exc (MountOf P) :=
  match p.part with
  | none => .error (.indexError "list index out of range")
  | some m =>
    if (K.keys (p.sub m)).isEmpty then
      match m.index? with
      | some i => .ok { p with part := some (.int (i - o)) }
      | none => .error (.typeError "unsupported operand type(s) for -=")
    else match K.shift (p.sub m) o with
      | .ok q => .ok (p.setSub m q)
      | .error e => .error e

/-- A read of the selected sub path. -/
def onSub {α : Type} (p : MountOf P) (m : Val) (f : P → Except Exc α × P) : Except Exc α × MountOf P :=
  let (r, q) := f (p.sub m)
  (r, p.setSub m q)

/-- `mount.py:35-39`: `value`; `NONE` at the mount root. -/
def value (p : MountOf P) : Except Exc Val × MountOf P :=
  match p.part with
  | none => (.ok .NONE, p)
  | some m => p.onSub m K.value

/-- `mount.py:49-53`: `exists` is `self.value is not NONE` (the `exists` of the path below is not
consulted). -/
def exists_ (p : MountOf P) : Except Exc Bool × MountOf P :=
  match p.part with
  | none => (.ok true, p)
  | some m => match p.onSub m K.value with
    | (.ok v, p) => (.ok (!v.isNONE), p)
    | (.error e, p) => (.error e, p)

/-- `mount.py:55-59`: `is_null` is `self.value is None`. -/
def isNull (p : MountOf P) : Except Exc Bool × MountOf P :=
  match p.part with
  | none => (.ok false, p)
  | some m => match p.onSub m K.value with
    | (.ok v, p) => (.ok v.isNull, p)
    | (.error e, p) => (.error e, p)

/-- `mount.py:61-64`: `primitive`. -/
def primitive (ty : PTy) (p : MountOf P) : Except Exc Val × MountOf P :=
  match p.part with
  | none => (.error (.attributeError "'MountPath' object has no attribute 'error'"), p)
  | some m => match p.find m with
    | none => (.error (.keyError ""), p)
    | some _ => p.onSub m (K.primitive ty)

/-- `mount.py:66-69`: `sequence`. -/
def sequence (p : MountOf P) : Except Exc Nat × MountOf P :=
  match p.part with
  | none => (.error (.attributeError "'MountPath' object has no attribute 'error'"), p)
  | some m => match p.find m with
    | none => (.error (.keyError ""), p)
    | some _ => p.onSub m K.sequence

/-- `mount.py:71-74`: `mapping`. -/
def mapping (p : MountOf P) : Except Exc KeysView × MountOf P :=
  match p.part with
  | none => (.ok { ks := p.paths.map (fun q => .str q.1) }, p)
  | some m => p.onSub m K.mapping

/-- `mount.py:9-14`: `MountPath.__init__`; `dict.iteritems` does not exist in Python 3. -/
def make (L : Lib) (paths : List (String × P)) : Except Exc (MountOf P) :=
  if L.py3 then .error (.attributeError "'dict' object has no attribute 'iteritems'")
  else .ok { part := none, dne := K.native (.dict []) none, paths := paths }

/-- The value of a mounted union may be a `Join`. -/
def joinPath (p : MountOf P) : Option (Except Exc P) :=
  match p.part with
  | none => none
  | some m => K.joinPath (p.sub m)

end MountOf

/-! ## One more level -/

/-- A path of a source whose own sources have paths in `P`. -/
inductive Over (P : Type) where
  | leaf (p : P)
  | union (p : UnionOf P)
  | mount (p : MountOf P)

namespace Over
variable {P : Type}

/-- Dispatch a read. -/
def read {α : Type} (p : Over P) (fl : P → Except Exc α × P) (fu : UnionOf P → Except Exc α × UnionOf P)
    (fm : MountOf P → Except Exc α × MountOf P) : Except Exc α × Over P :=
  match p with
  | .leaf p => let (r, q) := fl p; (r, .leaf q)
  | .union p => let (r, q) := fu p; (r, .union q)
  | .mount p => let (r, q) := fm p; (r, .mount q)

/-- Dispatch a change that may fail. -/
def change (p : Over P) (fl : P → Except Exc P) (fu : UnionOf P → Except Exc (UnionOf P))
    (fm : MountOf P → Except Exc (MountOf P)) : Except Exc (Over P) :=
  match p with
  | .leaf p => match fl p with
    | .ok q => .ok (.leaf q)
    | .error e => .error e
  | .union p => match fu p with
    | .ok q => .ok (.union q)
    | .error e => .error e
  | .mount p => match fm p with
    | .ok q => .ok (.mount q)
    | .error e => .error e

/-- The interface of a path, a union of paths or a mount of paths. -/
def child (L : Lib) (K : Child P) : Child (Over P) where
  keys p := match p with
    | .leaf p => K.keys p
    | .union p => p.keys
    | .mount p => p.keys K
  render p := match p with
    | .leaf p => K.render p
    | .union p => p.st.render L
    | .mount p => p.render K L
  app p k := match p with
    | .leaf p => .leaf (K.app p k)
    | .union p => .union (p.app K k)
    | .mount p => .mount (p.app K k)
  pop p := p.change K.pop (UnionOf.pop K) (MountOf.pop K)
  shift p o := p.change (K.shift · o) (UnionOf.shift · o) (MountOf.shift K · o)
  value p := p.read K.value (UnionOf.value K) (MountOf.value K)
  exists_ p := p.read K.exists_ (UnionOf.exists_ K) (MountOf.exists_ K)
  isNull p := p.read K.isNull (UnionOf.isNull K) (MountOf.isNull K)
  mapping p := p.read K.mapping (UnionOf.mapping K) (MountOf.mapping K)
  sequence p := p.read K.sequence (UnionOf.sequence K) (MountOf.sequence K)
  primitive ty p := p.read (K.primitive ty) (UnionOf.primitive K ty) (MountOf.primitive K ty)
  hasSrc p := match p with
    | .leaf p => K.hasSrc p
    | .union _ => true
    | .mount _ => false
  joinPath p := match p with
    | .leaf p => match K.joinPath p with
      | none => none
      | some (.ok q) => some (.ok (.leaf q))
      | some (.error e) => some (.error e)
    | .union p => match p.joinPath K with
      | none => none
      | some (.ok q) => some (.ok (.union q))
      | some (.error e) => some (.error e)
    | .mount p => match p.joinPath K with
      | none => none
      | some (.ok q) => some (.ok (.leaf q))
      | some (.error e) => some (.error e)
  native v al := .leaf (K.native v al)

end Over

/-- Paths of sources nested at most `n` deep. -/
def Nest : Nat → Type
  | 0 => SPath
  | n + 1 => Over (Nest n)

namespace Nest

/-- Their interface. -/
def child (L : Lib) : (n : Nat) → Child (Nest n)
  | 0 => SPath.child L
  | n + 1 => Over.child L (child L n)

/-- The path interface of nested sources.  A key that is neither an integer nor a string is refused
at once; in the code `append` stores it unwrapped and the next read raises the same
`AttributeError`. -/
def ops (L : Lib) (n : Nat) : PathOps (Nest n) where
  keys := (child L n).keys
  render := (child L n).render
  append p k :=
    if k.isKey then .ok ((child L n).app p k)
    else .error (.attributeError "object has no attribute 'key'")
  pop := (child L n).pop
  value := (child L n).value
  exists_ := (child L n).exists_
  isNull := (child L n).isNull
  mapping p := match (child L n).mapping p with
    | (.ok k, p) => (.ok (some k), p)
    | (.error e, p) => (.error e, p)
  sequence := (child L n).sequence
  primitive ty p := (child L n).primitive ty p
  hasSrc := (child L n).hasSrc
  joinPath := (child L n).joinPath
  native := (child L n).native

end Nest
end Pilo
