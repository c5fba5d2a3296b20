import Verif.Source.Deep
import Verif.Source.Whole
import Verif.Capture

/-!
# C30: the `unmapped` directive
-/

namespace Pilo
namespace Capture
variable {L : Lib} {d : DocKind} {root : Val} {ks : List Val} {r : Nat} {C : Classes}

/-! ## Lexical runs inside a document -/

/-- The current path stands at the keys `ks` of the document `root`. -/
def Standing (L : Lib) (d : DocKind) (root : Val) (ks : List Val) (r : Nat) (τ : TSt Path) : Prop :=
  ∃ p, τ.path = some (some (r, p)) ∧ (Path.deep L).WF p ∧ p.home = some (d, root) ∧ (Path.ops L).keys p = ks

theorem Standing.read {α : Type} {f : Path → Except Exc α × Path} {a : α} {τ : TSt Path} (env : Env)
    (h : Standing L d root ks r τ)
    (hf : ∀ p, (Path.deep L).WF p → p.home = some (d, root) → (Path.ops L).keys p = ks →
      (f p).1 = .ok a ∧ Same (Path.ops L) (Path.deep L).WF (Path.deep L).shape p (f p).2) :
    ∃ τ', T.onPath f env τ = (.ok a, τ') ∧ Standing L d root ks r τ' ∧ Calm τ τ' := by
  obtain ⟨p, hp, hw, hh, hk⟩ := h
  obtain ⟨h1, h2⟩ := hf p hw hh hk
  refine ⟨{ τ with path := some (some (r, (f p).2)) }, ?_, ⟨(f p).2, rfl, h2.wf, ?_, h2.keys.trans hk⟩, ⟨rfl, rfl, rfl⟩⟩
  · unfold T.onPath
    rw [hp]
    simp only [h1]
  · have := congrArg Prod.snd h2.shape
    exact Eq.trans this hh

theorem Standing.exists_ {v : Val} {τ : TSt Path} (env : Env) (h : Standing L d root ks r τ)
    (hs : d.Sees L root ks v) : ∃ τ', T.onPath (Path.ops L).exists_ env τ = (.ok (!v.isNONE), τ') ∧
      Standing L d root ks r τ' ∧ Calm τ τ' :=
  h.read env fun _ hw hh hk => ⟨Path.exists_sees hw hh (hk ▸ hs), (Path.deep L).exists_keys hw⟩

theorem Standing.isNull {v : Val} {τ : TSt Path} (env : Env) (h : Standing L d root ks r τ)
    (hs : d.Sees L root ks v) : ∃ τ', T.onPath (Path.ops L).isNull env τ = (.ok v.isNull, τ') ∧
      Standing L d root ks r τ' ∧ Calm τ τ' :=
  h.read env fun _ hw hh hk => ⟨Path.isNull_sees hw hh (hk ▸ hs), (Path.deep L).isNull_keys hw⟩

theorem Standing.auto {v : Val} {τ : TSt Path} (env : Env) (h : Standing L d root ks r τ)
    (hs : d.Sees L root ks v) : ∃ τ', T.onPath ((Path.ops L).primitive .auto) env τ = (.ok v, τ') ∧
      Standing L d root ks r τ' ∧ Calm τ τ' :=
  h.read env fun _ hw hh hk => ⟨Path.auto_sees hw hh (hk ▸ hs), (Path.deep L).primitive_keys hw⟩

theorem Standing.mapping {kvs : List (Val × Val)} {τ : TSt Path} (env : Env) (h : Standing L d root ks r τ)
    (hs : d.Sees L root ks (.dict kvs)) : ∃ τ', T.onPath (Path.ops L).mapping env τ =
      (.ok (some { ks := kvs.map Prod.fst }), τ') ∧ Standing L d root ks r τ' ∧ Calm τ τ' :=
  h.read env fun _ hw hh hk => ⟨Path.mapping_sees hw hh (hk ▸ hs), (Path.deep L).mapping_keys hw⟩

/-- `with ctx(src=key)` around something that leaves the path where it was. -/
theorem Standing.key {α : Type} {k : Val} {a : α} {m : T Path α} {τ : TSt Path} (env : Env)
    (h : Standing L d root ks r τ)
    (hm : ∀ env' τ1, Standing L d root (ks ++ [k]) r τ1 →
      ∃ τ2, m env' τ1 = (.ok a, τ2) ∧ Standing L d root (ks ++ [k]) r τ2 ∧ Calm τ1 τ2) :
    ∃ τ', T.withKey (Path.ops L) k m env τ = (.ok a, τ') ∧ Standing L d root ks r τ' ∧ Calm τ τ' := by
  obtain ⟨p, hp, hw, hh, hk⟩ := h
  obtain ⟨q, hq⟩ : ∃ q, (Path.ops L).append p k = .ok q := by
    cases p with
    | base p => exact ⟨_, rfl⟩
    | mount p => simp [Path.home, Path.doc?] at hh
  obtain ⟨hqk, hqw⟩ := (Path.deep L).append_keys hw hq
  have hqs := (Path.deep L).append_shape hw hq
  have hqh : q.home = some (d, root) := Eq.trans (congrArg Prod.snd hqs) hh
  obtain ⟨τ2, h2, ⟨p2, hp2, hw2, hh2, hk2⟩, hc2⟩ := hm { env with src := some (!k.isNull) }
    { τ with path := some (some (r, q)) } ⟨q, rfl, hqw, hqh, by rw [hqk, hk]⟩
  obtain ⟨p3, hp3, hk3, hw3, hs3⟩ := (Path.deep L).pop_keys hw2 hk2
  have e1 : T.onPath (pathAppend (Path.ops L) k) env τ = (.ok (), { τ with path := some (some (r, q)) }) := by
    unfold T.onPath pathAppend
    rw [hp]
    simp only [hq]
  have e3 : T.onPath (pathPop (Path.ops L)) env τ2 = (.ok (), { τ2 with path := some (some (r, p3)) }) := by
    unfold T.onPath pathPop
    rw [hp2]
    simp only [hp3]
  refine ⟨{ τ2 with path := some (some (r, p3)) }, ?_, ⟨p3, rfl, hw3, ?_, hk3⟩, ⟨hc2.errs, hc2.forms, hc2.npaths⟩⟩
  · unfold T.withKey
    rw [e1]
    dsimp only
    rw [h2]
    dsimp only
    rw [e3]
  · exact Eq.trans (congrArg Prod.snd hs3) hh2

/-- A key that a source of this kind reads as it stands: a native path calls the value for each `()` at the end of a
key, a JSON path takes a key apart at its dots. -/
def Plain : DocKind → String → Prop
  | .native _, k => ¬ ['(', ')'] <:+ k.toList
  | .json _ _, k => hasDot k = false

/-- A mapping whose entries can be read: string keys, read as they stand, once each; values that are not one of the
constants `NONE`, `ERROR`, `NOT_SET`. -/
structure Legible (d : DocKind) (kvs : List (Val × Val)) : Prop where
  keys : ∀ kv ∈ kvs, ∃ k, kv.1 = .str k ∧ Plain d k
  values : ∀ kv ∈ kvs, kv.2.isIgnore = false
  nodup : (kvs.map Prod.fst).Nodup

theorem dictGet?_mem {kvs : List (Val × Val)} (hs : ∀ kv ∈ kvs, kv.1.isStr = true) (hn : (kvs.map Prod.fst).Nodup)
    {k : String} {v : Val} (h : (Val.str k, v) ∈ kvs) : dictGet? kvs (.str k) = some v := by
  induction kvs with
  | nil => cases h
  | cons kv kvs ih =>
    obtain ⟨a, b⟩ := kv
    simp only [List.map_cons, List.nodup_cons] at hn
    unfold dictGet?
    rcases List.mem_cons.1 h with h0 | h0
    · cases h0
      have : Val.pyEq (.str k) (.str k) = true := pyEq_str.2 rfl
      simp [this]
    · have hne : a ≠ .str k := by
        intro he
        subst he
        exact hn.1 (List.mem_map.2 ⟨(.str k, v), h0, rfl⟩)
      have hp : Val.pyEq (.str k) a = false := by
        cases hp : Val.pyEq (.str k) a with
        | false => rfl
        | true => exact absurd (pyEq_str.1 hp) hne
      have := ih (fun kv hkv => hs kv (by simp [hkv])) hn.2 h0
      unfold dictGet? at this
      simpa [hp] using this

theorem Legible.step {kvs : List (Val × Val)} (h : Legible d kvs) {kv : Val × Val} (hkv : kv ∈ kvs) :
    d.step L (.dict kvs) kv.1 = .ok kv.2 := by
  obtain ⟨k, v⟩ := kv
  obtain ⟨s, rfl, hp⟩ := h.keys _ hkv
  have hv := h.values _ hkv
  have hn : v.isNONE = false := by cases v <;> first | rfl | (cases hv)
  have hg : getItem (.dict kvs) (.str s) = .ok v := by
    unfold getItem
    simp only [Val.hashable, if_true]
    rw [dictGet?_mem (fun kv hkv => by obtain ⟨k, hk, _⟩ := h.keys kv hkv; rw [hk]; rfl) h.nodup hkv]
  cases d with
  | json st loc =>
    simp only [Plain] at hp
    simp only [DocKind.step, resolveJson, hp, hg, Bool.false_eq_true, if_false]
  | native loc =>
    have h' : ∀ rest, s.toList.reverse = ')' :: '(' :: rest → False := by
      intro rest hr
      apply hp
      refine ⟨rest.reverse, ?_⟩
      have := congrArg List.reverse hr
      simpa using this.symm
    simp only [DocKind.step, resolveDefault]
    rw [resolveRev.eq_2 L {} [] (.dict kvs) _ h']
    have ha : asItem (.dict kvs) (.str s) = v := by unfold asItem; rw [hg]
    simp only [List.reverse_reverse, String.ofList_toList, resolvePlain, resolveAtom, DefaultCfg.ignore, List.any_nil,
      Bool.false_eq_true, if_false, ha, hn, Bool.not_false, if_true]

theorem Legible.sees {kvs : List (Val × Val)} (h : Legible d kvs) (hs : d.Sees L root ks (.dict kvs)) :
    ∀ kv ∈ kvs, kv.1.isStr = true ∧ kv.2.isIgnore = false ∧ d.Sees L root (ks ++ [kv.1]) kv.2 := by
  intro kv hkv
  have hstr : kv.1.isStr = true := by obtain ⟨k, hk, _⟩ := h.keys kv hkv; rw [hk]; rfl
  exact ⟨hstr, h.values kv hkv, hs.snoc (by rw [hstr]; simp) rfl (h.step hkv)⟩

/-- At a legible mapping of the document the path offers its entries. -/
theorem Legible.offers {kvs : List (Val × Val)} (h : Legible d kvs) {p : Path} (hw : (Path.deep L).WF p)
    (hh : p.home = some (d, root)) (hs : d.Sees L root ((Path.ops L).keys p) (.dict kvs)) :
    Offers (Path.ops L) p kvs where
  exists_ := Path.exists_sees hw hh hs
  isNull := Path.isNull_sees hw hh hs
  mapping := Path.mapping_sees hw hh hs
  entries := by
    intro kv hkv
    obtain ⟨-, hv, hsee⟩ := h.sees hs kv hkv
    obtain ⟨q, hq⟩ : ∃ q, (Path.ops L).append p kv.1 = .ok q := by
      cases p with
      | base p => exact ⟨_, rfl⟩
      | mount p => simp [Path.home, Path.doc?] at hh
    obtain ⟨hqk, hqw⟩ := (Path.deep L).append_keys hw hq
    have hqh : q.home = some (d, root) := Eq.trans (congrArg Prod.snd ((Path.deep L).append_shape hw hq)) hh
    rw [← hqk] at hsee
    have h1 := (Path.deep L).exists_keys hqw
    have hh1 := Eq.trans (congrArg Prod.snd h1.shape) hqh
    have h2 := (Path.deep L).isNull_keys h1.wf
    have hh2 := Eq.trans (congrArg Prod.snd h2.shape) hh1
    have hn : kv.2.isNONE = false := by
      generalize kv.2 = v at hv
      cases v <;> first | rfl | (cases hv)
    refine ⟨q, _, kv.2.isNull, _, hq, Prod.ext ((Path.exists_sees hqw hqh hsee).trans (by rw [hn]; rfl)) rfl,
      Prod.ext (Path.isNull_sees h1.wf hh1 (h1.keys ▸ hsee)) rfl, ?_⟩
    cases hnull : kv.2.isNull with
    | true =>
      simp only [if_true]
      generalize kv.2 = v at hnull
      cases v <;> first | rfl | (cases hnull)
    | false =>
      simp only [Bool.false_eq_true, if_false]
      exact Path.auto_sees h2.wf hh2 (by rw [h2.keys, h1.keys]; exact hsee)
  keys := fun kv hkv => (h.sees hs kv hkv).1
  values := h.values
  nodup := h.nodup

end Capture

open Capture

variable {L : Lib} {d : DocKind} {root : Val} {C : Classes}

/-- C30 for one `Form._map`, of any class (any hooks), at any place of a document: the current path reads the legible
mapping `kvs` of the document `root`.  `A` is the run with `unmapped='ignore'`, `B` the one with `'capture'`. -/
theorem C30_map_partial {kvs : List (Val × Val)} (n id : Nat) (tags : List String) {s : St Path} (hl : Live s)
    (hi : Inv (Path.deep L) s) {r : Nat} {p : Path} (hp : curPathObj s = some (some (r, p)))
    (hh : p.home = some (d, root)) (hs : d.Sees L root ((Path.ops L).keys p) (.dict kvs)) (hk : Legible d kvs) :
    let A := formMapBody (Path.ops L) C (mapField (Path.ops L) L C (n + 2)) id tags (.str .ignore) s
    let B := formMapBody (Path.ops L) C (mapField (Path.ops L) L C (n + 2)) id tags (.str .capture) s
    B.1 = A.1 ∧ (∀ x, A.1 = .error x → B.2 = A.2) ∧
    (A.1 = .ok () → B.2.forms = captured kvs id A.2.forms ∧ B.2.stack = A.2.stack ∧
      ∀ i, i < A.2.errs.length → B.2.errs[i]? = A.2.errs[i]?) := by
  exact body_captures n id tags hl hi hp fun q hw' hq =>
    hk.offers hw' (Eq.trans (congrArg Prod.snd hq.shape) hh) (by rw [hq.keys]; exact hs)

namespace Capture

/-- `form.map(src)` starts at the root of the document `kvs`: a `dict`, or a `JsonSource` or `DefaultSource` of one. -/
inductive Opens (kvs : List (Val × Val)) : SrcArg Path → DocKind → Prop
  | dict : Opens kvs (.data (.dict kvs)) (.native none)
  | native (loc : Option String) :
    Opens kvs (.source (.ok (.base (.simple (.dflt { location := loc } { root := .dict kvs, parts := [] }))))) (.native loc)
  | json (strict : Bool) (loc : Option String) :
    Opens kvs (.source (.ok (.base (.simple (.json strict loc { root := .dict kvs, parts := [] }))))) (.json strict loc)

theorem Opens.run {kvs : List (Val × Val)} {src : SrcArg Path} {d : DocKind} (ho : Opens kvs src d) :
    ∃ p0 : Path, p0.home = some (d, .dict kvs) ∧ (Path.ops L).keys p0 = [] ∧ (Path.deep L).WF p0 ∧
      src.isNone = false ∧ ∀ id s, rootSource (Path.ops L) C id src s = (.ok (.ok p0), s) := by
  cases ho with
  | dict => exact ⟨_, rfl, rfl, (Path.deep L).native_wf, rfl, fun _ _ => rfl⟩
  | native loc =>
    refine ⟨_, rfl, rfl, ⟨?_, ?_⟩, rfl, fun _ _ => rfl⟩
    · simp [Path.lawful, Path.WF, BPath.WF, SPath.Tidy, PathSt.Tidy]
    · intro d st hd
      cases hd
      intro pre q post v h
      simp at h
  | json strict loc =>
    refine ⟨_, rfl, rfl, ⟨?_, ?_⟩, rfl, fun _ _ => rfl⟩
    · simp [Path.lawful, Path.WF, BPath.WF, SPath.Tidy, PathSt.Tidy]
    · intro d st hd
      cases hd
      intro pre q post v h
      simp at h

end Capture

open Capture

/-- C30, `form.map(src, unmapped=...)` for a form of any class (any hooks) and a legible mapping as source.
Against the run with `'ignore'`, the run with `'capture'` raises the same or returns as well, with the same errors;
afterwards the entries of the form are those it had, followed by the entries of the source whose keys it did not
have; every other form is the same. -/
theorem C30_capture_partial {kvs : List (Val × Val)} {src : SrcArg Path} (ho : Opens kvs src d) (hk : Legible d kvs)
    (n id : Nat) (tags : List String) (reset raising : Bool) {s : St Path} (hl : Live s) (hi : Inv (Path.deep L) s) :
    Captures kvs id (Form.map (Path.ops L) L C (n + 2) id src tags reset (.str .ignore) raising s)
      (Form.map (Path.ops L) L C (n + 2) id src tags reset (.str .capture) raising s) := by
  obtain ⟨p0, hh, hks, hw, hnone, hroot⟩ := ho.run (L := L) (C := C)
  exact map_captures hw hnone hroot (fun q hw' hq => hk.offers hw' (Eq.trans (congrArg Prod.snd hq.shape) hh)
    (by rw [hq.keys, hks]; exact DocKind.Sees.root)) n id tags reset raising hl hi

/-- C30, `form.map(src, unmapped=...)` for a form of any class (any hooks) and any built-in source.  `p0` is
`src.path()`: what is captured are the keys that `src.path().mapping()` lists and the form does not have, with the
values `path[key]` reads. -/
theorem C30_source_partial {kvs : List (Val × Val)} {p0 : Path} (hw : (Path.whole L).WF p0)
    (hk : (Path.ops L).keys p0 = []) (ho : Offers (Path.ops L) p0 kvs) (n id : Nat) (tags : List String)
    (reset raising : Bool) {s : St Path} (hl : Live s) (hi : Inv (Path.whole L) s) :
    Captures kvs id (Form.map (Path.ops L) L C (n + 2) id (.source (.ok p0)) tags reset (.str .ignore) raising s)
      (Form.map (Path.ops L) L C (n + 2) id (.source (.ok p0)) tags reset (.str .capture) raising s) :=
  map_captures hw rfl (fun _ _ => rfl)
    (fun _ hw' hq => Path.whole_root hw hk hw' (hq.keys.trans hk) hq.shape ▸ ho) n id tags reset raising hl hi

/-- C30, `'ignore'`: a form whose hooks are functions of the value, any source; only the names of declared fields can get or lose an entry. -/
theorem C30_ignore {P : Type} {I : PathOps P} (W : LawfulPath I) (hN : Named C) (hC : C.All (ValueHooks True)) (k : Nat)
    {id : Nat} {src : SrcArg P} (hsrc : SrcOK W src) {tags : List String} {reset raising : Bool} {s s' : St P} {e : Nat}
    (hi : Inv W s) (hl : Live s) (h : Form.map I L C k id src tags reset (.str .ignore) raising s = (.ok e, s')) :
    ∃ cls, (s.forms[id]?).map FormObj.cls = some cls ∧
      ∀ n, (∀ f ∈ (C cls).fields, f.name ≠ some n) → s'.entry id n = s.entry id n := by
  obtain ⟨cls, fr, as, s1, s2, s3, c, hc⟩ := C29_content W hN hC k hsrc (.inl rfl) hi hl h
  refine ⟨cls, c.ofClass, fun n hn => ?_⟩
  have h1 : produced as n = none := by
    refine produced_none fun a ha hna => ?_
    have : a.field ∈ as.map Attempt.field := List.mem_map_of_mem ha
    rw [c.fields] at this
    exact absurd hna (hn _ (List.mem_filter.1 this).1)
  have h2 : isSelected (s.tagsFor tags) (C cls).fields n = false := by
    unfold isSelected
    rw [List.any_eq_false]
    intro f hf
    simp [hn f hf]
  rw [hc n, h1, h2]
  simp

namespace Capture
variable {P α β : Type} {x : Exc}

/-- Wherever the one run returns, the other raises `x`. -/
def Refuses (x : Exc) (A B : Except Exc α × St P) : Prop := (∀ a, A.1 = .ok a → B.1 = .error x) ∧ ∀ b, B.1 ≠ .ok b

theorem Refuses.after {m : M P β} {f g : β → M P α} {s : St P} (h : ∀ a s', m s = (.ok a, s') → Refuses x (f a s') (g a s')) :
    Refuses x ((m >>= f) s) ((m >>= g) s) := by
  rcases hm : m s with ⟨y, s1⟩
  cases y with
  | error e =>
    rw [M.bind_error hm, M.bind_error hm]
    exact ⟨fun _ h => by (cases h), fun _ h => by (cases h)⟩
  | ok a =>
    rw [M.bind_ok hm, M.bind_ok hm]
    exact h a s1 hm

theorem Refuses.andThen {m m' : M P β} {f : β → M P α} {s : St P} (h : Refuses x (m s) (m' s)) :
    Refuses x ((m >>= f) s) ((m' >>= f) s) := by
  rcases hm : m s with ⟨y, s1⟩
  rcases hm' : m' s with ⟨y', s1'⟩
  rw [hm, hm'] at h
  cases y' with
  | ok b => exact absurd rfl (h.2 b)
  | error e =>
    rw [M.bind_error hm']
    cases y with
    | error e =>
      rw [M.bind_error hm]
      exact ⟨fun _ h => by (cases h), fun _ h => by (cases h)⟩
    | ok a =>
      have := h.1 a rfl
      dsimp only at this
      cases this
      exact ⟨fun _ _ => rfl, fun _ h => by (cases h)⟩

end Capture

/-- C30, other strings: where the mapping with `'ignore'` returns, the one with such a string raises `ValueError`;
it never returns.  Any form, any source. -/
theorem C30_bad {P : Type} {I : PathOps P} (n id : Nat) (src : SrcArg P) (tags : List String) (reset raising : Bool)
    (s : St P) :
    Refuses (.valueError "unmapped invalid, should be \"capture\" or \"ignore\"")
      (Form.map I L C n id src tags reset (.str .ignore) raising s)
      (Form.map I L C n id src tags reset (.str .bad) raising s) := by
  have body : ∀ T s, Refuses (.valueError "unmapped invalid, should be \"capture\" or \"ignore\"")
      (formMapBody I C (mapField I L C n) id T (.str .ignore) s) (formMapBody I C (mapField I L C n) id T (.str .bad) s) ∧
      (formMapBody I C (mapField I L C n) id T (.str .bad) s).2 = (formMapBody I C (mapField I L C n) id T (.str .ignore) s).2 := by
    intro T s
    rw [formMapBody_ignore (u := .str .bad)]
    rcases hm : formMapBody I C (mapField I L C n) id T (.str .ignore) s with ⟨y, s1⟩
    cases y with
    | error e =>
      rw [M.bind_error hm]
      exact ⟨⟨fun _ h => by (cases h), fun _ h => by (cases h)⟩, rfl⟩
    | ok a =>
      rw [M.bind_ok hm]
      exact ⟨⟨fun _ _ => rfl, fun _ h => by (cases h)⟩, rfl⟩
  have block : ∀ T push s, Refuses (.valueError "unmapped invalid, should be \"capture\" or \"ignore\"")
      (withPush I push (formMapBody I C (mapField I L C n) id T (.str .ignore)) s)
      (withPush I push (formMapBody I C (mapField I L C n) id T (.str .bad)) s) := by
    intro T push s
    unfold withPush
    refine Refuses.after fun _ s1 _ => ?_
    obtain ⟨h1, h2⟩ := body T s1
    unfold M.tryFinally
    rcases hA : formMapBody I C (mapField I L C n) id T (.str .ignore) s1 with ⟨y, s2⟩
    rcases hB : formMapBody I C (mapField I L C n) id T (.str .bad) s1 with ⟨y', s2'⟩
    rw [hA, hB] at h1 h2
    dsimp only at h2 ⊢
    subst h2
    rcases restore I s2' with ⟨z, s3⟩
    cases z with
    | ok _ => exact h1
    | error e => exact ⟨fun _ h => by (cases h), fun _ h => by (cases h)⟩
  unfold Form.map formMap
  refine Refuses.after fun ct s1 _ => Refuses.after fun _ s2 _ => Refuses.after fun b s3 _ =>
    Refuses.andThen (m := formMapAt _ _ _ _ _ _ _ _ _) (m' := formMapAt _ _ _ _ _ _ _ _ _) ?_
  have hroot : ∀ src, Refuses (.valueError "unmapped invalid, should be \"capture\" or \"ignore\"")
      (rootMap I C (mapField I L C n) id src (pickTags tags ct) (.str .ignore) raising s3)
      (rootMap I C (mapField I L C n) id src (pickTags tags ct) (.str .bad) raising s3) := by
    intro src
    unfold rootMap
    exact Refuses.after fun mk s4 _ => Refuses.after fun e s5 _ =>
      Refuses.andThen (m := withPush _ _ _) (m' := withPush _ _ _) (block _ _ _)
  unfold formMapAt
  split
  · split
    · unfold nestedMap
      exact Refuses.after fun e s5 _ =>
        Refuses.andThen (m := withPush _ _ _) (m' := withPush _ _ _) (block _ _ _)
    · exact hroot _
  · exact hroot _

section
open Demo

theorem holding_deep (cls : Nat) (items : List (Val × Val)) : Inv (Path.deep lib) (holding cls items) where
  wf := by intro p hp; cases hp
  seg := by simp [holding, SegOK, rootFrame]
  nodup := by simp [holding, srcRefs, rootFrame]
  root := ⟨rootFrame, rfl, rfl⟩

/-- `{"a": 1, "b": 2, "z": [1], "y.x": null}`. -/
def kvsExtra : List (Val × Val) :=
  [(.str "a", .int 1), (.str "b", .int 2), (.str "z", .list [.int 1]), (.str "y.x", .none)]

theorem kvsExtra_legible : Legible (.native none) kvsExtra where
  keys := by
    intro kv h
    simp only [kvsExtra, List.mem_cons, List.not_mem_nil, or_false] at h
    rcases h with rfl | rfl | rfl | rfl <;> exact ⟨_, rfl, by unfold Plain; decide⟩
  values := by decide
  nodup := by simp [kvsExtra]

/-- C30 on a form of the class `T` (`a`, `b`) that already has an entry `z`. -/
example : Captures kvsExtra 0
      (Form.map (Path.ops lib) lib table 12 0 (.data (.dict kvsExtra)) [] false (.str .ignore) false (holding 2 [(.str "z", .int 9)]))
      (Form.map (Path.ops lib) lib table 12 0 (.data (.dict kvsExtra)) [] false (.str .capture) false (holding 2 [(.str "z", .int 9)])) :=
  C30_capture_partial .dict kvsExtra_legible 10 0 [] false false (holding_live _ _) (holding_deep _ _)

/-- There: the fields, the old entry, and the captured `y.x`. -/
example : after (Form.map (Path.ops lib) lib table 12 0 (.data (.dict kvsExtra)) [] false (.str .ignore) false
      (holding 2 [(.str "z", .int 9)])) ["a", "b", "z", "y.x"] = (.ok [], [some (.int 1), some (.int 2), some (.int 9), none]) ∧
    after (Form.map (Path.ops lib) lib table 12 0 (.data (.dict kvsExtra)) [] false (.str .capture) false
      (holding 2 [(.str "z", .int 9)])) ["a", "b", "z", "y.x"] =
      (.ok [], [some (.int 1), some (.int 2), some (.int 9), some .none]) := by decide +kernel

/-- C30_bad: the string is refused after the fields have been mapped. -/
example : (Form.map (Path.ops lib) lib table 12 0 (.data (.dict kvsExtra)) [] false (.str .bad) false (holding 2 [])).1 =
    .error (.valueError "unmapped invalid, should be \"capture\" or \"ignore\"") :=
  (C30_bad 12 0 (.data (.dict kvsExtra)) [] false false (holding 2 [])).1 0 (by decide +kernel)

/-- C30_ignore: `y.x` stays absent. -/
example : (Form.map (Path.ops lib) lib table 12 0 (.data (.dict kvsExtra)) [] false (.str .ignore) false (holding 2 [])).2.entry 0 "y.x" =
    none := by
  obtain ⟨cls, hc, h⟩ := C30_ignore (Path.lawful lib) (L := lib) table_named (Tame.classes table_tame).calm 12 (src := .data (.dict kvsExtra))
    trivial (tags := []) (reset := false) (raising := false) (holding_inv 2 []) (holding_live 2 []) (id := 0) (e := 0)
    (ran (by decide +kernel))
  cases hc
  rw [h "y.x" (by intro f hf; simp only [table, classT, List.mem_cons, List.not_mem_nil, or_false] at hf
                  rcases hf with rfl | rfl <;> simp [Field.name, Field.core])]
  rfl

/-- C30 is false of other keys.  A native path calls a value for each `()` at the end of a key
(`pilo/source/default.py:54`): `Form().map({"a": 1, "b": 2, "f()": 3}, unmapped="capture")` does not capture `f()` but
reports it as missing, though `"f()"` is a key of the source. -/
theorem C30_counterexample : ∃ (kvs : List (Val × Val)) (k : String) (v : Val) (s : St Path), Live s ∧ (.str k, v) ∈ kvs ∧
    after (Form.map (Path.ops lib) lib table 12 0 (.data (.dict kvs)) [] false (.str .ignore) false s) [k] = (.ok [], [none]) ∧
    after (Form.map (Path.ops lib) lib table 12 0 (.data (.dict kvs)) [] false (.str .capture) false s) [k] =
      (.ok [(.missing, k)], [none]) :=
  ⟨[(.str "a", .int 1), (.str "b", .int 2), (.str "f()", .int 3)], "f()", .int 3, holding 2 [], holding_live _ _, by simp,
    by decide +kernel, by decide +kernel⟩

end
end Pilo
