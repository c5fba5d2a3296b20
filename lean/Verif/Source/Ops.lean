import Verif.Source.Native

/-!
# The source interface

`PathOps P` is what the rest of `pilo` uses of a `Path` and its `Source`
(`pilo/source/__init__.py:61-207`): each read may raise and may change the path object (caches).
-/

namespace Pilo

structure PathOps (P : Type) where
  /-- the key sequence of the path (`[part.key for part in path]`) -/
  keys : P → List Val
  /-- `str(path)` -/
  render : P → Except Exc String
  /-- `path.append(key)` -/
  append : P → Val → Except Exc P
  /-- `path.pop()` -/
  pop : P → Except Exc P
  /-- `path.value` as seen by `isinstance` checks (internal containers are opaque `obj`s) -/
  value : P → Except Exc Val × P
  /-- `path.exists` -/
  exists_ : P → Except Exc Bool × P
  /-- `path.is_null` -/
  isNull : P → Except Exc Bool × P
  /-- `path.mapping()`; `none` is the `NONE` constant -/
  mapping : P → Except Exc (Option KeysView) × P
  /-- `path.sequence()` -/
  sequence : P → Except Exc Nat × P
  /-- `path.primitive(type)` -/
  primitive : PTy → P → Except Exc Val × P
  /-- `hasattr(path, 'src')` (false for `MountPath`) -/
  hasSrc : P → Bool
  /-- when `path.value` is itself a `Source` (a union `Join`): that source's `path()` -/
  joinPath : P → Option (Except Exc P)
  /-- `DefaultSource(data, aliases).path()` -/
  native : Val → Option (List (Val × Val)) → P

/-- `q` is `p` with possibly different caches. -/
structure Same {P : Type} (I : PathOps P) (WF : P → Prop) {S : Type} (shape : P → S) (p q : P) : Prop where
  keys : I.keys q = I.keys p
  wf : WF q
  shape : shape q = shape p

/-- What the context discipline needs of a path implementation: `append`/`pop` behave like a list of
keys and reads do not change the keys. `WF` is an invariant of the implementation. -/
structure LawfulPath {P : Type} (I : PathOps P) where
  WF : P → Prop
  /-- the part of a path that no operation changes and that decides, with the keys, which keys can be
  appended and what `str(path)` is -/
  Shape : Type
  shape : P → Shape
  /-- `str(path)` is a function of the shape and the keys -/
  text : Shape → List Val → Except Exc String
  render_text : ∀ {p}, WF p → I.render p = text (shape p) (I.keys p)
  append_shape : ∀ {p k q}, WF p → I.append p k = .ok q → shape q = shape p
  append_back : ∀ {p p' ks k}, WF p → WF p' → I.keys p = ks ++ [k] → I.keys p' = ks →
    shape p' = shape p → ∃ q, I.append p' k = .ok q
  append_keys : ∀ {p k q}, WF p → I.append p k = .ok q → I.keys q = I.keys p ++ [k] ∧ WF q
  pop_keys : ∀ {p ks k}, WF p → I.keys p = ks ++ [k] →
    ∃ q, I.pop p = .ok q ∧ I.keys q = ks ∧ WF q ∧ shape q = shape p
  value_keys : ∀ {p}, WF p → Same I WF shape p (I.value p).2
  exists_keys : ∀ {p}, WF p → Same I WF shape p (I.exists_ p).2
  isNull_keys : ∀ {p}, WF p → Same I WF shape p (I.isNull p).2
  mapping_keys : ∀ {p}, WF p → Same I WF shape p (I.mapping p).2
  sequence_keys : ∀ {p}, WF p → Same I WF shape p (I.sequence p).2
  primitive_keys : ∀ {p ty}, WF p → Same I WF shape p (I.primitive ty p).2
  joinPath_wf : ∀ {p q}, WF p → I.joinPath p = some (.ok q) → WF q
  native_wf : ∀ {v al}, WF (I.native v al)
  native_keys : ∀ {v al}, I.keys (I.native v al) = []

end Pilo
