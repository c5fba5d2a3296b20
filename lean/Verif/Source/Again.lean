import Verif.Source.Lawful

/-!
# Reading a value again

A path whose value is there gives the same value when it is read again: the value is kept on the last part
(`pilo/source/__init__.py:91-108`).  So what a path said of itself (`exists`, `is_null`) is true of the value
read afterwards.
-/

namespace Pilo

namespace PathSt
variable {C σ : Type}

theorem fill_reread {resolve : List Val → σ → C → Val → Except Exc C × σ} {isN : C → Bool} {ks : List Val}
    {v : C} (hv : isN v = false) (ps : List (Part C)) : ∀ {s s' : σ} {c : C} {ps' : List (Part C)},
    fill resolve isN ks s c ps = (.ok v, s', ps') → (ps = [] ∧ s' = s ∧ ps' = []) ∨
      ∃ pre post q, ps = pre ++ [q] ∧ ps' = post ++ [{ q with cache := some v }] := by
  induction ps with
  | nil =>
    intro s s' c ps' h
    simp only [fill, Prod.mk.injEq, Except.ok.injEq] at h
    exact .inl ⟨rfl, h.2.1.symm, h.2.2.symm⟩
  | cons p ps ih =>
    intro s s' c ps' h
    right
    unfold fill at h
    split at h
    · simp at h
    · next w s1 _ =>
      split at h
      · next hw =>
        simp only [Prod.mk.injEq, Except.ok.injEq] at h
        rw [h.1, hv] at hw
        cases hw
      · generalize hr : fill resolve isN ks s1 w ps = r at h
        obtain ⟨r1, r2, r3⟩ := r
        simp only [Prod.mk.injEq] at h
        obtain ⟨h1, h2, h3⟩ := h
        subst h1; subst h2; subst h3
        rcases ih hr with ⟨h4, -, h5⟩ | ⟨pre, post, q, h4, h5⟩
        · subst h4; subst h5
          simp only [fill, Prod.mk.injEq, Except.ok.injEq] at hr
          exact ⟨[], [], p, rfl, by rw [hr.1]; rfl⟩
        · exact ⟨p :: pre, { p with cache := some w } :: post, q, by rw [h4]; rfl, by rw [h5]; rfl⟩

/-- Reading a value that is there, again. -/
theorem value_reread {resolve : List Val → σ → C → Val → Except Exc C × σ} {isN : C → Bool} {s s' : σ}
    {p p' : PathSt C} {v : C} (h : value resolve isN s p = (.ok v, s', p')) (hv : isN v = false) :
    value resolve isN s' p' = (.ok v, s', p') := by
  have key : ∀ (l post : List (Part C)) (q : Part C), q.raw = false →
      value resolve isN s' { p with parts := l ++ (post ++ [{ q with cache := some v }]) } =
        (.ok v, s', { p with parts := l ++ (post ++ [{ q with cache := some v }]) }) := by
    intro l post q hq
    have hscan : scan (l ++ (post ++ [{ q with cache := some v }])).reverse =
        .ok (some ((l ++ (post ++ [{ q with cache := some v }])).length, v)) := by
      simp [scan, hq, Nat.add_comm, Nat.add_left_comm]
    unfold value
    simp only [hscan, List.drop_length, fill, List.take_length, List.append_nil]
  have hraw : ∀ (l : List (Part C)) (q : Part C) x, scan (l ++ [q]).reverse = .ok x → q.raw = false := by
    intro l q x hx
    rw [List.reverse_append, List.reverse_singleton, List.singleton_append] at hx
    unfold scan at hx
    split at hx
    · cases hx
    · next h => simpa using h
  have h0 := h
  unfold value at h
  split at h
  · simp at h
  · next hs =>
    generalize hr : fill resolve isN p.keys s p.root p.parts = r at h
    obtain ⟨r1, r2, r3⟩ := r
    simp only [Prod.mk.injEq] at h
    obtain ⟨h1, h2, h3⟩ := h
    subst h1; subst h2
    rcases fill_reread hv _ hr with ⟨h4, h5, h6⟩ | ⟨pre, post, q, h4, h5⟩
    · have hp : p' = p := by rw [← h3, h6, ← h4]
      rw [hp, h5] at h0 ⊢
      exact h0
    · have := key [] post q (hraw pre q none (by rw [← h4]; exact hs))
      rw [← h3, h5]
      exact this
  · next i w hs =>
    generalize hr : fill resolve isN p.keys s w (p.parts.drop i) = r at h
    obtain ⟨r1, r2, r3⟩ := r
    simp only [Prod.mk.injEq] at h
    obtain ⟨h1, h2, h3⟩ := h
    subst h1; subst h2
    rcases fill_reread hv _ hr with ⟨h4, h5, h6⟩ | ⟨pre, post, q, h4, h5⟩
    · have hp : p' = p := by
        rw [← h3, h6, List.append_nil]
        have : p.parts.take i = p.parts := by
          have := List.take_append_drop i p.parts
          rw [h4, List.append_nil] at this
          exact this
        rw [this]
      rw [hp, h5] at h0 ⊢
      exact h0
    · have := key (p.parts.take i) post q (hraw (p.parts.take i ++ pre) q (some (i, w)) (by
        rw [List.append_assoc, ← h4, List.take_append_drop]; exact hs))
      rw [← h3, h5]
      exact this

end PathSt

/-- What a path says of itself is true of its value: one that exists and is not null does not then give
`None`. -/
def Honest {P : Type} (I : PathOps P) : Prop :=
  ∀ p v, (I.exists_ p).1 = .ok true → (I.isNull (I.exists_ p).2).1 = .ok false →
    (I.value (I.isNull (I.exists_ p).2).2).1 = .ok v → v.isNull = false

namespace SPath
variable {L : Lib}

/-- Reads of a path whose value is there. -/
theorem withValue_reread {p q : SPath} {v : Val} (h : p.value L = (.ok v, q)) (hv : v.isNONE = false) :
    p.exists_ L = (.ok true, q) ∧ p.isNull L = (.ok v.isNull, q) ∧ q.value L = (.ok v, q) := by
  cases p with
  | dflt cfg st =>
    simp only [value, exists_, isNull, withValue] at h ⊢
    generalize hw : valueDflt L cfg st = w at h ⊢
    obtain ⟨x, st'⟩ := w
    cases x with
    | error e => simp at h
    | ok x =>
      simp only [Prod.mk.injEq, Except.ok.injEq] at h
      obtain ⟨rfl, rfl⟩ := h
      refine ⟨by simp [hv], rfl, ?_⟩
      unfold valueDflt at hw ⊢
      generalize hr : PathSt.value _ Val.isNONE () st = r at hw
      obtain ⟨r1, r2, r3⟩ := r
      simp only [Prod.mk.injEq] at hw
      obtain ⟨rfl, rfl⟩ := hw
      simp only
      rw [PathSt.value_reread hr hv]
  | json b l st =>
    simp only [value, exists_, isNull, withValue] at h ⊢
    generalize hw : valueJson st = w at h ⊢
    obtain ⟨x, st'⟩ := w
    cases x with
    | error e => simp at h
    | ok x =>
      simp only [Prod.mk.injEq, Except.ok.injEq] at h
      obtain ⟨rfl, rfl⟩ := h
      refine ⟨by simp [hv], rfl, ?_⟩
      unfold valueJson at hw ⊢
      generalize hr : PathSt.value _ Val.isNONE () st = r at hw
      obtain ⟨r1, r2, r3⟩ := r
      simp only [Prod.mk.injEq] at hw
      obtain ⟨rfl, rfl⟩ := hw
      simp only
      rw [PathSt.value_reread hr hv]
  | config cfg st =>
    simp only [value, exists_, isNull, withValue] at h ⊢
    generalize hw : valueCfg L cfg st = w at h ⊢
    obtain ⟨x, st'⟩ := w
    cases x with
    | error e => simp at h
    | ok x =>
      simp only [Prod.mk.injEq, Except.ok.injEq] at h
      obtain ⟨rfl, rfl⟩ := h
      have hx : x.isNONE = false := by cases x <;> first | exact hv | rfl
      refine ⟨by simp [hx], rfl, ?_⟩
      unfold valueCfg at hw ⊢
      generalize hr : PathSt.value _ CfgVal.isNONE () st = r at hw
      obtain ⟨r1, r2, r3⟩ := r
      simp only [Prod.mk.injEq] at hw
      obtain ⟨rfl, rfl⟩ := hw
      simp only
      rw [PathSt.value_reread hr hx]

/-- A path that exists has a value. -/
theorem value_of_exists {p q : SPath} (h : p.exists_ L = (.ok true, q)) :
    ∃ v, p.value L = (.ok v, q) ∧ v.isNONE = false := by
  cases p with
  | dflt cfg st =>
    simp only [value, exists_, withValue] at h ⊢
    generalize valueDflt L cfg st = w at h ⊢
    obtain ⟨x, st'⟩ := w
    cases x with
    | error e => simp at h
    | ok x => simp at h; exact ⟨x, by simp [h.2], h.1⟩
  | json b l st =>
    simp only [value, exists_, withValue] at h ⊢
    generalize valueJson st = w at h ⊢
    obtain ⟨x, st'⟩ := w
    cases x with
    | error e => simp at h
    | ok x => simp at h; exact ⟨x, by simp [h.2], h.1⟩
  | config cfg st =>
    simp only [value, exists_, withValue] at h ⊢
    generalize valueCfg L cfg st = w at h ⊢
    obtain ⟨x, st'⟩ := w
    cases x with
    | error e => simp at h
    | ok x =>
      simp at h
      refine ⟨x.toVal, by simp [h.2], ?_⟩
      cases x <;> first | exact h.1 | rfl

/-- What a simple path says of itself is true. -/
theorem honest : Honest (ops L) := by
  intro p v h1 h2 h3
  rcases h : p.exists_ L with ⟨x, q⟩
  have h1 : (p.exists_ L).1 = .ok true := h1
  rw [h] at h1
  dsimp only at h1
  subst h1
  obtain ⟨w, hw, hn⟩ := value_of_exists h
  have hq := (withValue_reread hw hn).2.2
  obtain ⟨-, h5, h6⟩ := withValue_reread hq hn
  have h2 : ((p.exists_ L).2.isNull L).1 = .ok false := h2
  have h3 : (((p.exists_ L).2.isNull L).2.value L).1 = .ok v := h3
  rw [h] at h2 h3
  dsimp only at h2 h3
  rw [h5] at h2 h3
  dsimp only at h2 h3
  rw [h6] at h3
  cases h3
  exact Except.ok.inj h2

end SPath

namespace UPath

theorem uvalue_reread {p q : UPath} {v : UVal} (h : p.uvalue = (.ok v, q)) (hv : v.isNONE = false) :
    q.uvalue = (.ok v, q) := by
  unfold uvalue at h ⊢
  generalize hr : PathSt.value _ UVal.isNONE p.kids p.st = r at h
  obtain ⟨r1, r2, r3⟩ := r
  simp only [Prod.mk.injEq] at h
  obtain ⟨rfl, rfl⟩ := h
  simp only
  rw [PathSt.value_reread hr hv]

/-- A union path that exists has a value, the same when read again. -/
theorem value_of_exists {p q : UPath} (h : p.exists_ = (.ok true, q)) :
    ∃ v, p.value = (.ok (toVal v), q) ∧ q.uvalue = (.ok v, q) := by
  unfold exists_ at h
  unfold value
  rcases hu : p.uvalue with ⟨x, q'⟩
  rw [hu] at h
  cases x with
  | error e => simp at h
  | ok x =>
    simp at h
    obtain ⟨h1, rfl⟩ := h
    exact ⟨x, rfl, uvalue_reread hu h1⟩

end UPath

namespace BPath
variable {L : Lib}

/-- A path that exists has a value, the same when read again. -/
theorem value_of_exists {p q : BPath} (h : p.exists_ L = (.ok true, q)) :
    ∃ v, p.value L = (.ok v, q) ∧ q.value L = (.ok v, q) ∧ ((q.isNull L).1 = .ok false → v.isNull = false) ∧
      (q.isNull L).2 = q := by
  cases p with
  | simple p =>
    simp only [exists_, read, Prod.mk.injEq] at h
    obtain ⟨h1, rfl⟩ := h
    obtain ⟨v, h2, h3⟩ := SPath.value_of_exists (q := (p.exists_ L).2) (by rw [← h1])
    have h4 := (SPath.withValue_reread h2 h3).2.2
    obtain ⟨-, h5, -⟩ := SPath.withValue_reread h4 h3
    refine ⟨v, by simp only [value, read, h2], by simp only [value, read, h4], ?_, by simp only [isNull, read, h5]⟩
    simp only [isNull, read, h5, Except.ok.injEq]
    exact id
  | union p =>
    simp only [exists_, read, Prod.mk.injEq] at h
    obtain ⟨h1, rfl⟩ := h
    obtain ⟨v, h2, h3⟩ := UPath.value_of_exists (q := p.exists_.2) (by rw [← h1])
    refine ⟨UPath.toVal v, by simp only [value, read, h2], by simp only [value, read, UPath.value, h3], ?_,
      by simp only [isNull, read, UPath.isNull, h3]⟩
    simp only [isNull, read, UPath.isNull, h3, Except.ok.injEq]
    cases v <;> simp [UPath.toVal, Val.isNull]

end BPath

namespace Path
variable {L : Lib}

/-- What a path of a built-in source says of itself is true. -/
theorem honest : Honest (ops L) := by
  intro p v h1 h2 h3
  cases p with
  | base p =>
    rcases h : p.exists_ L with ⟨x, q⟩
    simp only [ops, Path.read, h] at h1 h2 h3
    subst h1
    obtain ⟨w, h4, h5, h6, h7⟩ := BPath.value_of_exists h
    rw [h7, h5] at h3
    cases h3
    exact h6 h2
  | mount p =>
    cases hp : p.part with
    | none =>
      simp only [ops, Path.read, MPath.exists_, MPath.isNull, MPath.value, hp, Except.ok.injEq] at h3
      subst h3
      rfl
    | some m =>
      rcases h : (p.sub m).exists_ L with ⟨x, q⟩
      simp only [ops, Path.read, MPath.exists_, hp, MPath.onSub, h] at h1 h2 h3
      subst h1
      obtain ⟨w, h4, h5, h6, h7⟩ := BPath.value_of_exists h
      simp only [MPath.isNull, MPath.part_setSub, hp, MPath.onSub, MPath.sub_setSub_self, h5, Except.ok.injEq] at h2 h3
      simp only [MPath.value, MPath.part_setSub, hp, MPath.onSub, MPath.sub_setSub_self, h5, Except.ok.injEq] at h3
      subst h3
      exact h2

end Path
end Pilo
