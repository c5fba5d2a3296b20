import Verif.Source.Simple

/-!
# `UnionSource` / `UnionPath` (`pilo/source/union.py`)

The child paths of a `UnionPath` are shared, mutable objects: the `Mapping`, `Sequence` and `Join`
objects met on the way refer to them.  Here they live in one list and are referred to by
position.  Children are default, JSON or config paths.
-/

namespace Pilo

/-- The merge argument: `'first'`, `'last'`, `'combine'` or any other string. -/
inductive Merge where
  | first | last | combine | bad
deriving DecidableEq, Repr, Inhabited

/-- `union.py:69-92`: configuration of a `UnionSource`. -/
structure UnionCfg where
  mappingMerge : Merge := .first
  sequenceMerge : Merge := .first
  mergeDepth : Option Nat := none

/-- Containers met while resolving a union path: a `Join` (119-141), a `Mapping` (144-192) with its
`(path, keys)` list, a `Sequence` (195-235) with its `(path, length)` list, or the value a
`primitive` read left behind. -/
inductive UVal where
  | join (cs : List Nat)
  | mapping (ms : List (Nat × List Val))
  | seq (ss : List (Nat × Nat))
  | val (v : Val)
deriving Inhabited

/-- `value is NONE`. -/
def UVal.isNONE : UVal → Bool
  | .val v => v.isNONE
  | _ => false

/-- Read from child `i`, storing the changed child. -/
def onChild {α : Type} (kids : List SPath) (i : Nat) (f : SPath → Except Exc α × SPath) :
    Except Exc α × List SPath :=
  match kids[i]? with
  | none => (.error (.indexError "no such path"), kids)
  | some p => let (r, p') := f p; (r, kids.set i p')

/-- `union.py:154-171`: the loop of `Mapping.__init__` for a fixed merge mode; `acc` is
`mappings`. -/
def mappingLoop (L : Lib) (merge : Merge) :
    List Nat → List (Nat × List Val) → List SPath → Except Exc (List (Nat × List Val)) × List SPath
  | [], acc, kids => (.ok acc, kids)
  | i :: rest, acc, kids =>
    match onChild kids i (SPath.exists_ L) with
    | (.error e, kids) => (.error e, kids)
    | (.ok false, kids) => mappingLoop L merge rest acc kids
    | (.ok true, kids) =>
      match onChild kids i (SPath.isNull L) with
      | (.error e, kids) => (.error e, kids)
      | (.ok isNull, kids) =>
        if merge = .first then
          if isNull then (.ok acc, kids)
          else match onChild kids i (SPath.mapping L) with
            | (.error e, kids) => (.error e, kids)
            | (.ok ks, kids) => (.ok (acc ++ [(i, ks.ks)]), kids)
        else if isNull then mappingLoop L merge rest acc kids
        else match onChild kids i (SPath.mapping L) with
          | (.error e, kids) => (.error e, kids)
          | (.ok ks, kids) =>
            if acc.isEmpty then mappingLoop L merge rest (acc ++ [(i, ks.ks)]) kids
            else if merge = .combine then mappingLoop L merge rest (acc ++ [(i, ks.ks)]) kids
            else if merge = .last then mappingLoop L merge rest [(i, ks.ks)] kids
            else mappingLoop L merge rest acc kids

/-- `union.py:148-153`: the effective merge mode of a `Mapping`.  Note line 150: the comparison is
with `len(paths)`, the number of contributing sources. -/
def mappingMode (cfg : UnionCfg) (merge : Option Merge) (nPaths : Nat) : Merge :=
  match merge with
  | some m => m
  | none => match cfg.mergeDepth with
    | some d => if d ≤ nPaths then .first else cfg.mappingMerge
    | none => cfg.mappingMerge

/-- `union.py:146-173`: `Mapping.__init__`. -/
def mkMapping (L : Lib) (cfg : UnionCfg) (merge : Option Merge) (cs : List Nat)
    (kids : List SPath) : Except Exc (List (Nat × List Val)) × List SPath :=
  let m := mappingMode cfg merge cs.length
  if m = .bad then (.error (.valueError "merge invalid"), kids)
  else mappingLoop L m cs [] kids

/-- `union.py:206-209`: the effective merge mode of a `Sequence`, computed at the second sequence
found; `depth` is `len(path)` of that child path. -/
def sequenceMode (cfg : UnionCfg) (depth : Nat) : Merge :=
  match cfg.mergeDepth with
  | some d => if d ≤ depth then .first else cfg.sequenceMerge
  | none => cfg.sequenceMerge

/-- `union.py:199-217`: the loop of `Sequence.__init__`; `merge` is the local variable `merge`, `acc`
is `sequences`.  Line 217 formats with `{1}`, hence raises `IndexError`. -/
def sequenceLoop (L : Lib) (cfg : UnionCfg) :
    List Nat → Option Merge → List (Nat × Nat) → List SPath →
      Except Exc (List (Nat × Nat)) × List SPath
  | [], _, acc, kids => (.ok acc, kids)
  | i :: rest, merge, acc, kids =>
    match onChild kids i (SPath.exists_ L) with
    | (.error e, kids) => (.error e, kids)
    | (.ok false, kids) => sequenceLoop L cfg rest merge acc kids
    | (.ok true, kids) =>
      match onChild kids i (SPath.isNull L) with
      | (.error e, kids) => (.error e, kids)
      | (.ok true, kids) => sequenceLoop L cfg rest merge acc kids
      | (.ok false, kids) =>
        match onChild kids i (SPath.sequence L) with
        | (.error e, kids) => (.error e, kids)
        | (.ok n, kids) =>
          match acc with
          | [] => sequenceLoop L cfg rest merge [(i, n)] kids
          | a :: as =>
            let depth := ((kids[i]?).map (fun p => p.keys.length)).getD 0
            let m := merge.getD (sequenceMode cfg depth)
            match m with
            | .combine => sequenceLoop L cfg rest (some m) (a :: as ++ [(i, n)]) kids
            | .first => sequenceLoop L cfg rest (some m) (a :: as) kids
            | .last => sequenceLoop L cfg rest (some m) ((i, n) :: as) kids
            | .bad => (.error (.indexError "tuple index out of range"), kids)

/-- `union.py:177-184`: `Mapping.__getitem__`: the children whose key list contains the key. -/
def mappingGet (ms : List (Nat × List Val)) (k : Val) : Except Exc UVal :=
  match (ms.filter (fun m => k.inList m.2)).map Prod.fst with
  | [] => .error (.keyError "")
  | cs => .ok (.join cs)

/-- `union.py:224-230`: find the part that holds index `key`, and its offset. -/
def seqFind (key : Int) : Nat → List (Nat × Nat) → Option (Nat × Nat)
  | _, [] => none
  | offset, (i, n) :: rest =>
    if key < (offset : Int) + n then some (i, offset) else seqFind key (offset + n) rest

/-- `path[-1].key -= offset` on a child path (`union.py:231`). -/
def shiftLast {C : Type} (st : PathSt C) (offset : Nat) : PathSt C :=
  match st.parts.reverse with
  | [] => st
  | q :: rest =>
    match q.key.index? with
    | some i => { st with parts := (({ q with key := .int (i - offset) }) :: rest).reverse }
    | none => st

/-- `path[-1].key -= offset`. -/
def SPath.shiftLast : SPath → Nat → SPath
  | .dflt cfg st, o => .dflt cfg (Pilo.shiftLast st o)
  | .json s l st, o => .json s l (Pilo.shiftLast st o)
  | .config cfg st, o => .config cfg (Pilo.shiftLast st o)

/-- The last key of a child is a number, so that `-=` works on it. -/
def SPath.endsInInt (p : SPath) : Bool :=
  match p.keys.getLast? with
  | some k => k.isIntLike
  | none => false

/-- `union.py:223-232`: `Sequence.__getitem__`; re-bases the child's last key. A non-integer key is
an `IndexError` (Python 2) or `TypeError` (Python 3); so is a child that does not end in a number
(`path[-1].key -= offset`). -/
def seqGet (ss : List (Nat × Nat)) (k : Val) (kids : List SPath) : Except Exc UVal × List SPath :=
  match k.index? with
  | none => (.error (.typeError "unorderable types"), kids)
  | some key =>
    match seqFind key 0 ss with
    | none => (.error (.indexError ""), kids)
    | some (i, offset) =>
      match kids[i]? with
      | none => (.error (.indexError "no such path"), kids)
      | some p =>
        if p.endsInInt then (.ok (.join [i]), kids.set i (p.shiftLast offset))
        else (.error (.typeError "unsupported operand type(s) for -="), kids)

/-- `container[part.key]` in `UnionPath.resolve` (`union.py:41`). -/
def unionGet (c : UVal) (k : Val) (kids : List SPath) : Except Exc UVal × List SPath :=
  match c with
  | .mapping ms => (mappingGet ms k, kids)
  | .seq ss => seqGet ss k kids
  | .join _ => (.error (.typeError "'Join' object is not subscriptable"), kids)
  | .val v => match getItem v k with
    | .ok w => (.ok (.val w), kids)
    | .error e => (.error e, kids)

/-- `union.py:39-43`: `UnionPath.resolve`. -/
def resolveUnion (c : UVal) (k : Val) (kids : List SPath) : Except Exc UVal × List SPath :=
  match unionGet c k kids with
  | (.ok v, kids) => (.ok v, kids)
  | (.error _, kids) => (.ok (.val .NONE), kids)

/-- `union.py:6-25`: a `UnionPath`. -/
structure UPath where
  cfg : UnionCfg
  st : PathSt UVal
  kids : List SPath

namespace UPath

def keys (p : UPath) : List Val := p.st.keys

/-- `union.py:59-64`: `insert` at the end, on this path and on every child. -/
def append (p : UPath) (k : Val) : UPath :=
  { p with st := p.st.append k, kids := p.kids.map (·.append k) }

/-- `del path[-1]` on every child (`union.py:54-57`). -/
def popAll : List SPath → Except Exc (List SPath)
  | [] => .ok []
  | c :: cs => match c.pop with
    | .error e => .error e
    | .ok c' => match popAll cs with
      | .error e => .error e
      | .ok cs' => .ok (c' :: cs')

/-- `pop()` = read `self[-1]` then `del self[-1]` (`union.py:54-57`). -/
def pop (p : UPath) : Except Exc UPath :=
  match p.st.pop with
  | .error e => .error e
  | .ok st' => match popAll p.kids with
    | .error e => .error e
    | .ok kids' => .ok { p with st := st', kids := kids' }

/-- `path.value`. -/
def uvalue (p : UPath) : Except Exc UVal × UPath :=
  let (r, kids, st) := PathSt.value (fun _ kids c k => resolveUnion c k kids) UVal.isNONE p.kids p.st
  (r, { p with st := st, kids := kids })

/-- How a container looks to an `isinstance` check on a native type. -/
def toVal : UVal → Val
  | .val v => v
  | .join _ => .obj 0
  | .mapping _ => .obj 1
  | .seq _ => .obj 2

def value (p : UPath) : Except Exc Val × UPath :=
  match p.uvalue with
  | (.ok v, p) => (.ok (toVal v), p)
  | (.error e, p) => (.error e, p)

def exists_ (p : UPath) : Except Exc Bool × UPath :=
  match p.uvalue with
  | (.ok v, p) => (.ok (!v.isNONE), p)
  | (.error e, p) => (.error e, p)

/-- `union.py:29-37`: `is_null`. -/
def isNull (p : UPath) : Except Exc Bool × UPath :=
  match p.uvalue with
  | (.error e, p) => (.error e, p)
  | (.ok v, p) => (.ok (match v with
      | .val w => w.isNull
      | .mapping ms => ms.isEmpty
      | .seq ss => ss.isEmpty
      | .join _ => false), p)

/-- `set(keys)` of a `Mapping` (`union.py:186-192`): duplicates removed, order unspecified. -/
def dedup : List Val → List Val
  | [] => []
  | k :: ks => k :: (dedup ks).filter (fun k' => !(k.pyEq k'))

/-- `list(mapping)` (`union.py:190-192`). -/
def mappingKeys (ms : List (Nat × List Val)) : List Val := dedup (ms.flatMap Prod.snd)

/-- `union.py:99-104`: `UnionSource.mapping`. -/
def mapping (L : Lib) (p : UPath) : Except Exc KeysView × UPath :=
  match p.uvalue with
  | (.error e, p) => (.error e, p)
  | (.ok (.join cs), p) =>
    match mkMapping L p.cfg none cs p.kids with
    | (.error e, kids) => (.error e, { p with kids := kids })
    | (.ok ms, kids) =>
      (.ok { ks := mappingKeys ms }, { p with st := p.st.setValue (.mapping ms), kids := kids })
  | (.ok (.mapping ms), p) => (.ok { ks := mappingKeys ms }, p)
  | (.ok _, p) => (.error (.sourceError "not a mapping"), p)

/-- `len(sequence)` (`union.py:234-235`). -/
def seqTotal (ss : List (Nat × Nat)) : Nat := (ss.map Prod.snd).sum

/-- `union.py:106-111`: `UnionSource.sequence`. -/
def sequence (L : Lib) (p : UPath) : Except Exc Nat × UPath :=
  match p.uvalue with
  | (.error e, p) => (.error e, p)
  | (.ok (.join cs), p) =>
    match sequenceLoop L p.cfg cs none [] p.kids with
    | (.error e, kids) => (.error e, { p with kids := kids })
    | (.ok ss, kids) =>
      (.ok (seqTotal ss), { p with st := p.st.setValue (.seq ss), kids := kids })
  | (.ok (.seq ss), p) => (.ok (seqTotal ss), p)
  | (.ok _, p) => (.error (.sourceError "not a sequence"), p)

/-- `union.py:113-116,131-134`: `UnionSource.primitive` and `Join.primitive`. -/
def primitive (L : Lib) (ty : PTy) (p : UPath) : Except Exc Val × UPath :=
  match p.uvalue with
  | (.error e, p) => (.error e, p)
  | (.ok (.join cs), p) =>
    match cs with
    | [] => (.ok .NONE, { p with st := p.st.setValue (.val .NONE) })
    | c :: _ =>
      match onChild p.kids c (SPath.primitive L ty) with
      | (.error e, kids) => (.error e, { p with kids := kids })
      | (.ok v, kids) => (.ok v, { p with st := p.st.setValue (.val v), kids := kids })
  | (.ok v, p) => (.ok (toVal v), p)

/-- `union.py:8-11,96-97`: `UnionSource.path()`: the root `Mapping` combines all children that are at
their roots. -/
def mk' (L : Lib) (cfg : UnionCfg) (kids : List SPath) : Except Exc UPath :=
  if kids.isEmpty then .error (.valueError "All paths must have equal length")
  else match mkMapping L cfg (some .combine) (List.range kids.length) kids with
    | (.error e, _) => .error e
    | (.ok ms, kids') => .ok { cfg := cfg, st := { root := .mapping ms, parts := [] }, kids := kids' }

/-- `union.py:17-25`: the prefix of a new `UnionPath`: the keys of its children.  The children of a
`Join` have equal keys, so those of the first one are taken. -/
def prefixKeys (cs : List Nat) (kids : List SPath) : List Val :=
  match cs with
  | [] => []
  | c :: _ => match kids[c]? with
    | some p => p.keys
    | none => []

/-- `union.py:138-141`: `Join.path()` for the `Join` found at the end of this path: a new `UnionPath`
over the same children (here: copies) with their keys as prefix and the `Join` cached at the
end. -/
def joinPath (L : Lib) (p : UPath) : Option (Except Exc UPath) :=
  match p.uvalue with
  | (.ok (.join cs), p) =>
    match mkMapping L p.cfg none cs p.kids with
    | (.error e, _) => some (.error e)
    | (.ok ms, kids) =>
      let st : PathSt UVal := { root := .mapping ms, parts := (prefixKeys cs kids).map Part.ofKey }
      some (if st.parts.isEmpty then .error (.indexError "list index out of range")
        else .ok { p with st := st.setValue (.join cs), kids := kids })
  | _ => none

end UPath
end Pilo
