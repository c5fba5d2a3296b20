import Verif.Value

/-!
# `pilo/source/__init__.py`: `PathPart`, `Path`

The abstract base class `Path`, with `resolve` a parameter, so that one model of the caching
`value` property serves every subclass.  `C` is the type of containers (it contains the
`NONE` sentinel) and `σ` is state that a subclass's `resolve` may mutate (the child paths of a
`UnionPath`; `Unit` elsewhere).
-/

namespace Pilo

/-- `pilo/source/__init__.py:51-58` (`PathPart`): a key and the cached value (`NOT_SET` is
`none`).  `raw` marks an entry of `Path.parts` that is *not* a `PathPart`: `Path.insert`
(lines 159-162) only wraps integers and strings, anything else is stored as is and has neither
`.key` nor `.value`. -/
structure Part (C : Type) where
  key : Val
  raw : Bool
  cache : Option C

/-- `pilo/source/__init__.py:160-161`: the wrapping done by `Path.insert`/`__setitem__`. -/
def Part.ofKey {C : Type} (k : Val) : Part C :=
  { key := k, raw := !(k.isIntLike || k.isStr), cache := none }

/-- `pilo/source/__init__.py:73-77`: the mutable part of a `Path`. -/
structure PathSt (C : Type) where
  root : C
  parts : List (Part C)

namespace PathSt
variable {C σ : Type}

/-- The keys of the path, root first. -/
def keys (p : PathSt C) : List Val := p.parts.map Part.key

/-- `MutableSequence.append(k)` = `Path.insert(len(self), k)`, `pilo/source/__init__.py:159-162`. -/
def append (p : PathSt C) (k : Val) : PathSt C := { p with parts := p.parts ++ [Part.ofKey k] }

/-- `MutableSequence.pop()` = `self[-1]` then `del self[-1]`
(`pilo/source/__init__.py:143-144,156-157`). -/
def pop (p : PathSt C) : Except Exc (PathSt C) :=
  match p.parts.reverse with
  | [] => .error (.indexError "list index out of range")
  | _ :: rest => .ok { p with parts := rest.reverse }

/-- `pilo/source/__init__.py:93-101`: search from the end for a part with a cached value.
Input is the reversed part list; the result is the number of leading parts to skip and the
value to start from.  Touching `.value` of an entry that is not a `PathPart` raises.  (Lines
93-94 are the special case where the very last part is cached.) -/
def scan : List (Part C) → Except Exc (Option (Nat × C))
  | [] => .ok none
  | p :: rest =>
    if p.raw then .error (.attributeError "object has no attribute 'value'")
    else match p.cache with
      | some v => .ok (some (rest.length + 1, v))
      | none => scan rest

/-- `pilo/source/__init__.py:103-106`: resolve and cache the remaining parts, stopping at the
first `NONE`. `keys` are the keys of the whole path (subclasses look at them). -/
def fill (resolve : List Val → σ → C → Val → Except Exc C × σ) (isNONE : C → Bool)
    (keys : List Val) : σ → C → List (Part C) → Except Exc C × σ × List (Part C)
  | s, v, [] => (.ok v, s, [])
  | s, v, p :: ps =>
    match resolve keys s v p.key with
    | (.error e, s') => (.error e, s', p :: ps)
    | (.ok w, s') =>
      if isNONE w then (.ok w, s', { p with cache := some w } :: ps)
      else
        let (r, s'', ps') := fill resolve isNONE keys s' w ps
        (r, s'', { p with cache := some w } :: ps')

/-- `pilo/source/__init__.py:91-108`: the `Path.value` property, with its effect on the cache. -/
def value (resolve : List Val → σ → C → Val → Except Exc C × σ) (isNONE : C → Bool)
    (s : σ) (p : PathSt C) : Except Exc C × σ × PathSt C :=
  match scan p.parts.reverse with
  | .error e => (.error e, s, p)
  | .ok none =>
    let (r, s', ps) := fill resolve isNONE p.keys s p.root p.parts
    (r, s', { p with parts := ps })
  | .ok (some (i, v)) =>
    let (r, s', ps) := fill resolve isNONE p.keys s v (p.parts.drop i)
    (r, s', { p with parts := p.parts.take i ++ ps })

/-- `pilo/source/__init__.py:110-115`: the `value` setter. -/
def setValue (p : PathSt C) (v : C) : PathSt C :=
  match p.parts.reverse with
  | [] => { p with root := v }
  | q :: rest => { p with parts := (({ q with cache := some v }) :: rest).reverse }

/-- `pilo/source/__init__.py:84-87`: one non-first component of `str(path)`. -/
def renderPart (L : Lib) (q : Part C) : Except Exc String :=
  if q.raw then .error (.attributeError "object has no attribute 'key'")
  else match q.key with
    | .str s => .ok ("." ++ s)
    | k => .ok ("[" ++ L.fmt k ++ "]")

/-- The non-first components of `str(path)`. -/
def renderTail (L : Lib) : List (Part C) → Except Exc String
  | [] => .ok ""
  | q :: qs =>
    match renderPart L q with
    | .error e => .error e
    | .ok a => match renderTail L qs with
      | .error e => .error e
      | .ok b => .ok (a ++ b)

/-- `pilo/source/__init__.py:79-89`: `Path.__str__`. The first component is formatted as is
(`PathPart.__str__`, lines 57-58). -/
def render (L : Lib) (p : PathSt C) : Except Exc String :=
  match p.parts with
  | [] => .ok ""
  | q :: qs =>
    match renderTail L qs with
    | .error e => .error e
    | .ok t => .ok ((match q.key with | .str s => s | k => L.fmt k) ++ t)

/-- One non-first component of the text of a key sequence. -/
def keyText (L : Lib) (k : Val) : Except Exc String :=
  if !(k.isIntLike || k.isStr) then .error (.attributeError "object has no attribute 'key'")
  else match k with
    | .str s => .ok ("." ++ s)
    | k => .ok ("[" ++ L.fmt k ++ "]")

/-- The non-first components of the text of a key sequence. -/
def keysTailText (L : Lib) : List Val → Except Exc String
  | [] => .ok ""
  | k :: ks =>
    match keyText L k with
    | .error e => .error e
    | .ok a => match keysTailText L ks with
      | .error e => .error e
      | .ok b => .ok (a ++ b)

/-- The text of a key sequence, `a.b[0].c`: the specification of `Path.__str__` (`render` below is
shown equal to it on the keys of the path in `Lawful.lean`). -/
def keysText (L : Lib) : List Val → Except Exc String
  | [] => .ok ""
  | k :: ks =>
    match keysTailText L ks with
    | .error e => .error e
    | .ok t => .ok ((match k with | .str s => s | k => L.fmt k) ++ t)

end PathSt

/-- `':'.join(parts)` with an optional location prefix
(`pilo/source/default.py:46-51`, `json.py:17-22`). -/
def withLocation (loc : Option String) (r : Except Exc String) : Except Exc String :=
  match loc, r with
  | _, .error e => .error e
  | none, .ok s => .ok s
  | some l, .ok s => if l = "" then .ok s else .ok (l ++ ":" ++ s)

end Pilo
