import Verif.Source.Pin

/-!
# A path that was asked whether it exists keeps its value

`pilo/source/__init__.py:91-108`: looking up the value of a path keeps it on the last part, unless the lookup stopped
before.
-/

namespace Pilo
namespace PathSt
variable {V : Type} {isN : V → Bool} {resolve : List Val → Unit → V → Val → Except Exc V × Unit}

theorem fill_atHand (ks : List Val) (ps : List (Part V)) (hraw : ∀ p ∈ ps, p.raw = false) : ∀ (v w : V),
    (fill resolve isN ks () v ps).1 = .ok w → isN w = false →
      ps = [] ∧ (fill resolve isN ks () v ps).2.2 = [] ∨
      ∃ pre q, (fill resolve isN ks () v ps).2.2 = pre ++ [q] ∧ q.raw = false ∧ q.cache = some w := by
  induction ps with
  | nil => intro v w _ _; exact .inl ⟨rfl, rfl⟩
  | cons p ps ih =>
    intro v w h hn
    refine .inr ?_
    unfold fill at h ⊢
    rcases hr : resolve ks () v p.key with ⟨_ | u, s'⟩
    · rw [hr] at h; cases h
    · rw [hr] at h
      dsimp only at h ⊢
      by_cases hu : isN u = true
      · rw [if_pos hu] at h
        cases h
        rw [hn] at hu
        cases hu
      · rw [if_neg hu] at h ⊢
        dsimp only at h ⊢
        rcases ih (fun q hq => hraw q (by simp [hq])) u w h hn with ⟨rfl, h2⟩ | ⟨pre, q, h2, h3, h4⟩
        · have : u = w := by cases h; rfl
          subst this
          exact ⟨[], { p with cache := some u }, by rw [h2]; rfl, hraw p (by simp), rfl⟩
        · exact ⟨{ p with cache := some u } :: pre, q, by rw [h2]; rfl, h3, h4⟩

theorem scan_atHand_raw : ∀ (ps : List (Part V)), scan ps = .ok none → ∀ p ∈ ps, p.raw = false := by
  intro ps
  induction ps with
  | nil => intro _ p hp; cases hp
  | cons q ps ih =>
    intro h p hp
    unfold scan at h
    by_cases hq : q.raw = true
    · rw [if_pos hq] at h; cases h
    · rw [if_neg hq] at h
      split at h
      · cases h
      · rcases List.mem_cons.1 hp with rfl | hp
        · simpa using hq
        · exact ih h p hp

/-- Where the search for a kept value ends: at a part that keeps `v`, with nothing but proper parts after it. -/
theorem scan_atHand : ∀ (ps : List (Part V)) {i : Nat} {v : V}, scan ps = .ok (some (i, v)) →
    ∃ post q pre, ps = post ++ q :: pre ∧ q.raw = false ∧ q.cache = some v ∧ pre.length + 1 = i ∧ ∀ p ∈ post, p.raw = false := by
  intro ps
  induction ps with
  | nil => intro i v h; cases h
  | cons q ps ih =>
    intro i v h
    unfold scan at h
    by_cases hq : q.raw = true
    · rw [if_pos hq] at h; cases h
    · rw [if_neg hq] at h
      split at h
      · rename_i c hc
        cases h
        exact ⟨[], q, ps, rfl, by simpa using hq, hc, rfl, by intro _ h; cases h⟩
      · obtain ⟨post, q', pre, h1, h2, h3, h4, h5⟩ := ih h
        refine ⟨q :: post, q', pre, by rw [h1]; rfl, h2, h3, h4, fun p hp => ?_⟩
        rcases List.mem_cons.1 hp with rfl | hp
        · simpa using hq
        · exact h5 p hp

theorem value_atHand (st : PathSt V) {w : V} (h : (PathSt.value resolve isN () st).1 = .ok w) (hn : isN w = false) :
    (PathSt.value resolve isN () st).2.2.AtHand := by
  unfold PathSt.value at h ⊢
  cases hs : scan st.parts.reverse with
  | error e => rw [hs] at h; cases h
  | ok o =>
    rw [hs] at h
    cases o with
    | none =>
      dsimp only at h ⊢
      rcases fill_atHand _ st.parts (fun p hp => scan_atHand_raw _ hs p (by simpa using hp)) _ _ h hn with ⟨_, h2⟩ | ⟨pre, q, h2, h3, h4⟩
      · exact .inl h2
      · exact .inr ⟨pre, q, w, h2, h3, h4⟩
    | some iv =>
      obtain ⟨i, v⟩ := iv
      dsimp only at h ⊢
      obtain ⟨post, q, pre, h1, h2, h3, h4, h5⟩ := scan_atHand _ hs
      have hp : st.parts = (pre.reverse ++ [q]) ++ post.reverse := by
        have := congrArg List.reverse h1
        simpa using this
      have hlen : (pre.reverse ++ [q]).length = i := by simp [h4]
      have htake : st.parts.take i = pre.reverse ++ [q] := by rw [hp, ← hlen, List.take_left]
      have hdrop : st.parts.drop i = post.reverse := by rw [hp, ← hlen, List.drop_left]
      rw [hdrop] at h ⊢
      rw [htake]
      rcases fill_atHand _ post.reverse (fun p hp => h5 p (by simpa using hp)) _ _ h hn with ⟨_, h6⟩ | ⟨pre', q', h6, h7, h8⟩
      · exact .inr ⟨pre.reverse, q, v, by rw [h6, List.append_nil], h2, h3⟩
      · exact .inr ⟨pre.reverse ++ [q] ++ pre', q', w, by rw [h6]; simp, h7, h8⟩

end PathSt

theorem SPath.exists_atHand (L : Lib) {p : SPath} (h : (p.exists_ L).1 = .ok true) : (p.exists_ L).2.AtHand := by
  unfold SPath.exists_ SPath.withValue at h ⊢
  cases p with
  | dflt cfg st =>
    have hv := fun w => PathSt.value_atHand (w := w) (isN := Val.isNONE) (resolve := fun ks (_ : Unit) c k => (resolveDefault L cfg ks c k, ())) st
    unfold valueDflt at h ⊢
    dsimp only at h ⊢
    cases hr : (PathSt.value (fun ks (_ : Unit) c k => (resolveDefault L cfg ks c k, ())) Val.isNONE () st).1 with
    | error e => rw [hr] at h; cases h
    | ok v =>
      rw [hr] at h hv
      exact hv v rfl (by simpa using h)
  | json s l st =>
    have hv := fun w => PathSt.value_atHand (w := w) (isN := Val.isNONE) (resolve := fun _ (_ : Unit) c k => (.ok (resolveJson c k), ())) st
    unfold valueJson at h ⊢
    dsimp only at h ⊢
    cases hr : (PathSt.value (fun _ (_ : Unit) c k => (.ok (resolveJson c k), ())) Val.isNONE () st).1 with
    | error e => rw [hr] at h; cases h
    | ok v =>
      rw [hr] at h hv
      exact hv v rfl (by simpa using h)
  | config cfg st =>
    have hv := fun w => PathSt.value_atHand (w := w) (isN := CfgVal.isNONE) (resolve := fun _ (_ : Unit) c k => (resolveConfig L cfg c k, ())) st
    unfold valueCfg at h ⊢
    dsimp only at h ⊢
    cases hr : (PathSt.value (fun _ (_ : Unit) c k => (resolveConfig L cfg c k, ())) CfgVal.isNONE () st).1 with
    | error e => rw [hr] at h; cases h
    | ok v =>
      rw [hr] at h hv
      exact hv v rfl (by simpa using h)

/-- Once a path that exists was asked for, its value is at hand, and asking more changes nothing. -/
theorem SPath.asked_atHand (L : Lib) {q : SPath} (h : (q.exists_ L).1 = .ok true) :
    ∃ q', (SPath.isNull L (q.exists_ L).2).2 = q' ∧ q'.AtHand := by
  have h1 := SPath.exists_atHand L h
  have h2 := SPath.Past.withValue (L := L) (onD := fun _ _ v => (.ok v.isNull : Except Exc Bool)) (onJ := fun _ v => .ok v.isNull)
    (onC := fun _ _ v => .ok v.toVal.isNull) h1 SPath.Past.refl
  exact ⟨_, h2.zero, h1⟩

end Pilo
