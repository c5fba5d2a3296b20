import Verif.Source.Edit
import Verif.Props.Resolve

/-!
# C86: a path can be edited as a list of keys
-/

namespace Pilo
variable {L : Lib}

/-! ## What an edit does to a list -/

/-- What an edit of a list of `n` keys replaces: the keys from the first position up to the second give
way to the listed ones.  `none`: the index is out of range. -/
def PathEdit.hole (n : Nat) : PathEdit → Option (Nat × Nat × List Val)
  | .set i k => (pyAt n i).map fun j => (j, j + 1, [k])
  | .del i => (pyAt n i).map fun j => (j, j + 1, [])
  | .insert i k => some (pySlot n i, pySlot n i, [k])

/-- The keys after an edit; an index out of range changes nothing. -/
def PathEdit.keys (ks : List Val) (e : PathEdit) : List Val :=
  match e.hole ks.length with
  | some (a, b, mid) => ks.take a ++ mid ++ ks.drop b
  | none => ks

/-- Python's indices: `0 … n-1` from the start, `-1 … -n` from the end. -/
theorem pyAt_iff (n : Nat) (i : Int) (j : Nat) :
    pyAt n i = some j ↔ j < n ∧ (i = j ∨ i = (j : Int) - n) := by
  unfold pyAt
  by_cases hi : i < 0
  · simp only [hi, if_true]
    split
    · rename_i h
      simp only [Option.some.injEq]
      omega
    · simp only [reduceCtorEq, false_iff]
      omega
  · simp only [hi, if_false]
    split
    · rename_i h
      simp only [Option.some.injEq]
      omega
    · simp only [reduceCtorEq, false_iff]
      omega

theorem pySlot_le (n : Nat) (i : Int) : pySlot n i ≤ n := by
  unfold pySlot
  split <;> omega

theorem insertIdx_take_drop {α : Type} (x : α) : ∀ (l : List α) (i : Nat), i ≤ l.length →
    l.insertIdx i x = l.take i ++ [x] ++ l.drop i := by
  intro l
  induction l with
  | nil =>
    intro i hi
    have : i = 0 := by simpa using hi
    subst this
    rfl
  | cons y l ih =>
    intro i hi
    cases i with
    | zero => rfl
    | succ i =>
      rw [List.insertIdx_succ_cons, ih i (by simpa using hi)]
      simp

namespace PathSt
variable {C : Type}

/-- An edit replaces parts and leaves the others as they are. -/
theorem edit_hole (p : PathSt C) (e : PathEdit) :
    match e.hole p.parts.length with
    | some (a, b, mid) => p.edit e = .ok { p with parts := p.parts.take a ++ mid.map Part.ofKey ++ p.parts.drop b }
    | none => p.edit e = .error (.indexError "list assignment index out of range") := by
  cases e with
  | set i k =>
    simp only [PathEdit.hole, edit, setItem]
    cases h : pyAt p.parts.length i with
    | none => rfl
    | some j =>
      have hj := ((pyAt_iff _ _ _).1 h).1
      simp [List.set_eq_take_append_cons_drop, hj]
  | del i =>
    simp only [PathEdit.hole, edit, delItem]
    cases h : pyAt p.parts.length i with
    | none => rfl
    | some j => simp [List.eraseIdx_eq_take_drop_succ]
  | insert i k =>
    simp only [PathEdit.hole, edit, insertItem]
    rw [insertIdx_take_drop _ _ _ (pySlot_le _ _)]
    simp

theorem ofKey_keys (ks : List Val) : (ks.map (Part.ofKey (C := C))).map Part.key = ks := by
  induction ks with
  | nil => rfl
  | cons k ks ih => simp only [List.map_cons, ih]; rfl

/-- An edit acts on the keys as on a list, and keeps the root. -/
theorem edit_keys (p : PathSt C) (e : PathEdit) :
    match p.edit e with
    | .ok q => q.keys = e.keys p.keys ∧ q.root = p.root ∧ (p.Tidy → q.Tidy)
    | .error x => x = .indexError "list assignment index out of range" ∧ e.hole p.keys.length = none := by
  have h := edit_hole p e
  have hl : p.keys.length = p.parts.length := by simp [keys]
  rw [← hl] at h
  cases hh : e.hole p.keys.length with
  | none =>
    rw [hh] at h
    simp only [h]
    exact ⟨trivial, trivial⟩
  | some t =>
    obtain ⟨a, b, mid⟩ := t
    rw [hh] at h
    simp only [h]
    refine ⟨?_, trivial, ?_⟩
    · simp only [PathEdit.keys, hh]
      simp only [keys, List.map_append, List.map_take, List.map_drop]
      rw [ofKey_keys]
    · intro ht q hq
      simp only [List.append_assoc, List.mem_append, List.mem_map] at hq
      rcases hq with hq | ⟨k, _, rfl⟩ | hq
      · exact ht q (List.mem_of_mem_take hq)
      · rfl
      · exact ht q (List.mem_of_mem_drop hq)

end PathSt

/-! ## Histories with edits -/

/-- What can be done to a path: what C19 speaks of, and edits. -/
inductive PathStep where
  | op (o : PathOp)
  | edit (e : PathEdit)

/-- The effect of one step on a path; a failing edit leaves it as it is. -/
def SPath.step (L : Lib) (p : SPath) : PathStep → SPath
  | .op o => p.act L o
  | .edit e => match p.edit e with
    | .ok q => q
    | .error _ => p

/-- The keys after one step. -/
def PathStep.keys (ks : List Val) : PathStep → List Val
  | .op o => o.keys ks
  | .edit e => e.keys ks

theorem PathEdit.keys_none {ks : List Val} {e : PathEdit} (h : e.hole ks.length = none) :
    e.keys ks = ks := by
  simp only [PathEdit.keys, h]

theorem SPath.edit_spec (p : SPath) (e : PathEdit) :
    match p.edit e with
    | .ok q => q.keys = e.keys p.keys ∧ (p.Tidy → q.Tidy) ∧ ∀ L, q.text L = p.text L
    | .error x => x = .indexError "list assignment index out of range" ∧ e.hole p.keys.length = none := by
  cases p with
  | dflt cfg st =>
    have h := st.edit_keys e
    simp only [SPath.edit, SPath.keys]
    cases he : st.edit e with
    | ok st' => rw [he] at h; exact ⟨h.1, h.2.2, fun _ => rfl⟩
    | error x => rw [he] at h; exact h
  | json s l st =>
    have h := st.edit_keys e
    simp only [SPath.edit, SPath.keys]
    cases he : st.edit e with
    | ok st' => rw [he] at h; exact ⟨h.1, h.2.2, fun _ => rfl⟩
    | error x => rw [he] at h; exact h
  | config cfg st =>
    have h := st.edit_keys e
    simp only [SPath.edit, SPath.keys]
    cases he : st.edit e with
    | ok st' => rw [he] at h; exact ⟨h.1, h.2.2, fun _ => rfl⟩
    | error x => rw [he] at h; exact h

theorem SPath.act_spec {p : SPath} (ht : p.Tidy) (o : PathOp) :
    (p.act L o).keys = o.keys p.keys ∧ (p.act L o).Tidy ∧ ∀ L', (p.act L o).text L' = p.text L' := by
  have read : ∀ {q : SPath}, SPath.Keeps p q → q.keys = p.keys ∧ q.Tidy ∧ ∀ L', q.text L' = p.text L' :=
    fun h => ⟨h.keys, h.tidy ht, h.text⟩
  cases o with
  | append k =>
    exact ⟨by cases p <;> exact PathSt.append_keys _ _, SPath.append_tidy ht k, fun L' => SPath.append_text L' p k⟩
  | pop =>
    simp only [SPath.act, PathOp.keys]
    rcases List.eq_nil_or_concat p.keys with hk | ⟨ks, k, hk⟩
    · cases hp : p.pop with
      | ok q =>
        exfalso
        cases p <;> simp only [SPath.keys, PathSt.keys, List.map_eq_nil_iff] at hk <;>
          simp [SPath.pop, PathSt.pop, hk] at hp
      | error e => exact ⟨by simp [hk], ht, fun _ => rfl⟩
    · rw [List.concat_eq_append] at hk
      obtain ⟨q, hq, h1, h2, h3⟩ := SPath.pop_keys hk
      rw [hq]
      exact ⟨by simp [h1, hk], h2 ht, h3⟩
  | value => exact read (SPath.withValue_keeps ..)
  | exists_ => exact read (SPath.withValue_keeps ..)
  | isNull => exact read (SPath.withValue_keeps ..)
  | mapping => exact read (SPath.withValue_keeps ..)
  | sequence => exact read (SPath.withValue_keeps ..)
  | primitive ty => exact read (SPath.withValue_keeps ..)

/-- C86, keys and text: whatever is read, pushed, popped, assigned, deleted or inserted, at whatever
index, a native, JSON or config path has the keys a list would have, and `str(path)` is their text. -/
theorem C86_keys (steps : List PathStep) : ∀ {p : SPath}, p.Tidy →
    (steps.foldl (SPath.step L) p).keys = steps.foldl PathStep.keys p.keys ∧
    (steps.foldl (SPath.step L) p).render L = p.text L (steps.foldl PathStep.keys p.keys) := by
  suffices h : ∀ {p : SPath}, p.Tidy →
      (steps.foldl (SPath.step L) p).keys = steps.foldl PathStep.keys p.keys ∧
      (steps.foldl (SPath.step L) p).Tidy ∧ (steps.foldl (SPath.step L) p).text L = p.text L by
    intro p hp
    obtain ⟨h1, h2, h3⟩ := h hp
    exact ⟨h1, by rw [SPath.render_text L h2, h3, h1]⟩
  induction steps with
  | nil => intro p hp; exact ⟨rfl, hp, rfl⟩
  | cons s steps ih =>
    intro p hp
    have : (p.step L s).keys = s.keys p.keys ∧ (p.step L s).Tidy ∧ (p.step L s).text L = p.text L := by
      cases s with
      | op o =>
        obtain ⟨h1, h2, h3⟩ := SPath.act_spec (L := L) hp o
        exact ⟨h1, h2, h3 L⟩
      | edit e =>
        have h := p.edit_spec e
        simp only [SPath.step, PathStep.keys]
        cases he : p.edit e with
        | ok q => rw [he] at h; exact ⟨h.1, h.2.1 hp, h.2.2 L⟩
        | error x => rw [he] at h; exact ⟨(PathEdit.keys_none h.2).symm, hp, rfl⟩
    obtain ⟨h1, h2, h3⟩ := this
    obtain ⟨h4, h5, h6⟩ := ih h2
    refine ⟨?_, h5, h6.trans h3⟩
    simp only [List.foldl_cons]
    rw [h4, h1]

/-! ## What is read after an edit

The value of a part is remembered once it has been read, and an edit forgets nothing.  So what is read is
the value of the current keys as long as each edit comes before the parts behind it have been read. -/

/-- How many leading parts may remember a value: a read reaches all of them, what is popped or edited
away takes its value and those behind it along. -/
def PathStep.mark (ks : List Val) (m : Nat) : PathStep → Nat
  | .op (.append _) => m
  | .op .pop => min m (ks.length - 1)
  | .op _ => ks.length
  | .edit e => match e.hole ks.length with
    | some (a, _, _) => min m a
    | none => m

/-- No key behind the edited ones has been read. -/
def PathStep.Timely (ks : List Val) (m : Nat) : PathStep → Prop
  | .op _ => True
  | .edit e => match e.hole ks.length with
    | some (_, b, _) => m ≤ b
    | none => True

/-- A history whose edits all come in time, from keys `ks` of which the first `m` may have been read. -/
def Timely : List Val → Nat → List PathStep → Prop
  | _, _, [] => True
  | ks, m, s :: rest => s.Timely ks m ∧ Timely (s.keys ks) (s.mark ks m) rest

/-- Only the first `m` parts remember a value. -/
def PathSt.Fresh {C : Type} (m : Nat) (p : PathSt C) : Prop := ∀ q ∈ p.parts.drop m, q.cache = none

theorem PathSt.Fresh.full {C : Type} (p : PathSt C) : p.Fresh p.keys.length := by
  intro q hq
  simp [PathSt.keys] at hq

theorem PathSt.Fresh.append {C : Type} {p : PathSt C} {m : Nat} (h : p.Fresh m) (k : Val) :
    (p.append k).Fresh m := by
  intro q hq
  simp only [PathSt.append, List.drop_append, List.mem_append] at hq
  rcases hq with hq | hq
  · exact h q hq
  · have := List.mem_of_mem_drop hq
    simp only [List.mem_singleton] at this
    subst this
    rfl

theorem PathSt.Fresh.pop {C : Type} {p q : PathSt C} {m : Nat} (h : p.Fresh m) (hq : p.pop = .ok q) :
    q.Fresh (min m (p.keys.length - 1)) := by
  have hp : ∃ x, p.parts = q.parts ++ [x] := by
    unfold PathSt.pop at hq
    cases hr : p.parts.reverse with
    | nil => rw [hr] at hq; simp at hq
    | cons x rest =>
      rw [hr] at hq
      simp only [Except.ok.injEq] at hq
      subst hq
      exact ⟨x, by have := congrArg List.reverse hr; simpa using this⟩
  obtain ⟨x, hx⟩ := hp
  have hl : p.keys.length - 1 = q.parts.length := by simp [PathSt.keys, hx]
  rw [hl]
  intro y hy
  by_cases hm : m ≤ q.parts.length
  · rw [Nat.min_eq_left hm] at hy
    exact h y (by rw [hx, List.drop_append]; simp [hy])
  · rw [Nat.min_eq_right (by omega)] at hy
    simp at hy

theorem PathSt.Fresh.pop_error {C : Type} {p : PathSt C} {e : Exc} (hq : p.pop = .error e) (m : Nat) :
    p.Fresh m := by
  have : p.parts = [] := by
    unfold PathSt.pop at hq
    cases hr : p.parts.reverse with
    | nil => simpa using hr
    | cons q rest => rw [hr] at hq; simp at hq
  intro q h
  simp [this] at h

theorem PathSt.Fresh.edit {C : Type} {p : PathSt C} {m a b : Nat} {mid : List Val} (h : p.Fresh m)
    (hb : m ≤ b) :
    PathSt.Fresh (min m a)
      { p with parts := p.parts.take a ++ mid.map Part.ofKey ++ p.parts.drop b } := by
  intro q hq
  simp only [List.append_assoc] at hq
  rw [List.drop_append, List.mem_append] at hq
  rcases hq with hq | hq
  · by_cases hm : m ≤ a
    · rw [Nat.min_eq_left hm, List.drop_take] at hq
      exact h q (List.mem_of_mem_take hq)
    · rw [Nat.min_eq_right (by omega), List.drop_take] at hq
      simp at hq
  · have := List.mem_of_mem_drop hq
    rcases List.mem_append.1 this with h1 | h1
    · obtain ⟨k, _, rfl⟩ := List.mem_map.1 h1
      rfl
    · exact h q (List.drop_subset_drop_left _ hb h1)

/-- A good cache stays good under an edit before the parts behind it have been read. -/
theorem PathSt.Good.edit {C : Type} {R : C → Val → Except Exc C} {p : PathSt C} {m a b : Nat}
    {mid : List Val} (hg : PathSt.Good R p.root p.parts) (h : p.Fresh m) (hb : m ≤ b) :
    PathSt.Good R p.root (p.parts.take a ++ mid.map Part.ofKey ++ p.parts.drop b) := by
  have htail : ∀ q ∈ mid.map Part.ofKey ++ p.parts.drop b, q.cache = none := by
    intro q hq
    rcases List.mem_append.1 hq with h1 | h1
    · obtain ⟨k, _, rfl⟩ := List.mem_map.1 h1
      rfl
    · exact h q (List.drop_subset_drop_left _ hb h1)
  intro pre q post v hs hc
  rw [List.append_assoc] at hs
  rcases List.append_eq_append_iff.1 hs with ⟨c, h1, h2⟩ | ⟨c, h1, h2⟩
  · have := htail q (by rw [h2]; simp)
    rw [hc] at this
    cases this
  · cases c with
    | nil =>
      have := htail q (by
        rw [List.nil_append] at h2
        rw [← h2]
        simp)
      rw [hc] at this
      cases this
    | cons x c =>
      simp only [List.cons_append, List.cons.injEq] at h2
      obtain ⟨rfl, _⟩ := h2
      have hp : p.parts = pre ++ q :: (c ++ p.parts.drop a) := by
        have := List.take_append_drop a p.parts
        rw [h1] at this
        simpa using this.symm
      exact hg pre q (c ++ p.parts.drop a) v hp hc

/-- The keys an edit mentions satisfy `K`. -/
def PathStep.Uses (K : Val → Prop) : PathStep → Prop
  | .op o => o.Uses K
  | .edit (.set _ k) => K k
  | .edit (.insert _ k) => K k
  | .edit (.del _) => True

theorem PathEdit.hole_uses {K : Val → Prop} {e : PathEdit} (h : PathStep.Uses K (.edit e)) {n a b : Nat}
    {mid : List Val} (he : e.hole n = some (a, b, mid)) : ∀ k ∈ mid, K k := by
  cases e with
  | set i k =>
    simp only [PathEdit.hole, Option.map_eq_some_iff, Prod.mk.injEq] at he
    obtain ⟨j, _, _, _, rfl⟩ := he
    simp only [List.mem_singleton, forall_eq]
    exact h
  | del i =>
    simp only [PathEdit.hole, Option.map_eq_some_iff, Prod.mk.injEq] at he
    obtain ⟨j, _, _, _, rfl⟩ := he
    simp
  | insert i k =>
    simp only [PathEdit.hole, Option.some.injEq, Prod.mk.injEq] at he
    obtain ⟨_, _, rfl⟩ := he
    simp only [List.mem_singleton, forall_eq]
    exact h

/-- One edit in time. -/
theorem PathSt.Fine.edit {C : Type} {R : C → Val → Except Exc C} {K : Val → Prop} {root : C}
    {ks : List Val} {p : PathSt C} (h : PathSt.Fine R K root ks p) {m : Nat} (hf : p.Fresh m)
    {e : PathEdit} (hu : PathStep.Uses K (.edit e)) (ht : PathStep.Timely ks m (.edit e)) :
    match p.edit e with
    | .ok q => PathSt.Fine R K root (e.keys ks) q ∧ q.Fresh (PathStep.mark ks m (.edit e))
    | .error _ => e.keys ks = ks ∧ PathStep.mark ks m (.edit e) = m := by
  have hl : p.parts.length = ks.length := by rw [← h.keys]; simp [PathSt.keys]
  have hh := PathSt.edit_hole p e
  have hk := PathSt.edit_keys p e
  rw [hl] at hh
  cases he : e.hole ks.length with
  | none =>
    rw [he] at hh
    simp only [hh]
    exact ⟨PathEdit.keys_none he, by simp only [PathStep.mark, he]⟩
  | some t =>
    obtain ⟨a, b, mid⟩ := t
    rw [he] at hh
    simp only at hh
    rw [hh] at hk
    simp only [hh]
    simp only [PathStep.Timely, he] at ht
    refine ⟨⟨hk.2.2 h.tidy, ?_, h.root, by rw [hk.1, h.keys], ?_⟩, ?_⟩
    · exact PathSt.Good.edit h.good hf ht
    · intro k hk'
      simp only [PathEdit.keys, he, List.append_assoc, List.mem_append] at hk'
      rcases hk' with h1 | h1 | h1
      · exact h.uses k (List.mem_of_mem_take h1)
      · exact PathEdit.hole_uses hu he k h1
      · exact h.uses k (List.mem_of_mem_drop h1)
    · simp only [PathStep.mark, he]
      exact PathSt.Fresh.edit hf ht

/-- Only the first `m` parts of the path remember a value. -/
def SPath.Fresh (m : Nat) : SPath → Prop
  | .dflt _ st => st.Fresh m
  | .json _ _ st => st.Fresh m
  | .config _ st => st.Fresh m

theorem SPath.Fresh.full (p : SPath) : p.Fresh p.keys.length := by
  cases p <;> exact PathSt.Fresh.full _

theorem SPath.Fresh.act {p : SPath} (ht : p.Tidy) {m : Nat} (h : p.Fresh m) (o : PathOp) :
    (p.act L o).Fresh (PathStep.mark p.keys m (.op o)) := by
  have hk := (SPath.act_spec (L := L) ht o).1
  have full : (p.act L o).keys = p.keys → (p.act L o).Fresh p.keys.length := by
    intro he
    have := SPath.Fresh.full (p.act L o)
    rwa [he] at this
  cases o with
  | append k =>
    cases p <;> exact PathSt.Fresh.append h k
  | pop =>
    cases p with
    | dflt cfg st =>
      simp only [SPath.act, SPath.pop, PathStep.mark]
      cases hp : st.pop with
      | ok st' => exact PathSt.Fresh.pop h hp
      | error e => exact PathSt.Fresh.pop_error hp _
    | json s l st =>
      simp only [SPath.act, SPath.pop, PathStep.mark]
      cases hp : st.pop with
      | ok st' => exact PathSt.Fresh.pop h hp
      | error e => exact PathSt.Fresh.pop_error hp _
    | config cfg st =>
      simp only [SPath.act, SPath.pop, PathStep.mark]
      cases hp : st.pop with
      | ok st' => exact PathSt.Fresh.pop h hp
      | error e => exact PathSt.Fresh.pop_error hp _
  | value => exact full hk
  | exists_ => exact full hk
  | isNull => exact full hk
  | mapping => exact full hk
  | sequence => exact full hk
  | primitive ty => exact full hk

/-- Whatever reads and edits in time preserve holds after a history whose edits are in time. -/
theorem timely_hist {F : List Val → SPath → Prop} {K : Val → Prop}
    (tidy : ∀ {ks p}, F ks p → p.Tidy ∧ p.keys = ks)
    (act : ∀ {ks p o}, F ks p → PathOp.Uses K o → F (o.keys ks) (p.act L o))
    (edit : ∀ {ks p m e}, F ks p → p.Fresh m → PathStep.Uses K (.edit e) →
      PathStep.Timely ks m (.edit e) → match p.edit e with
        | .ok q => F (e.keys ks) q ∧ q.Fresh (PathStep.mark ks m (.edit e))
        | .error _ => e.keys ks = ks ∧ PathStep.mark ks m (.edit e) = m) :
    ∀ (steps : List PathStep) {ks m p}, F ks p → p.Fresh m → (∀ s ∈ steps, PathStep.Uses K s) →
      Timely ks m steps → F (steps.foldl PathStep.keys ks) (steps.foldl (SPath.step L) p) := by
  intro steps
  induction steps with
  | nil => intro ks m p h _ _ _; exact h
  | cons s steps ih =>
    intro ks m p h hf hu ht
    have hu' := fun x hx => hu x (List.mem_cons_of_mem s hx)
    simp only [List.foldl_cons]
    cases s with
    | op o =>
      have hk := (tidy h).2
      have h1 := SPath.Fresh.act (L := L) (tidy h).1 hf o
      rw [hk] at h1
      exact ih (act h (hu (.op o) (by simp))) h1 hu' ht.2
    | edit e =>
      have h1 := edit h hf (hu (.edit e) (by simp)) ht.1
      have h2 := ht.2
      simp only [SPath.step, PathStep.keys] at h2 ⊢
      cases he : p.edit e with
      | ok q =>
        rw [he] at h1
        exact ih h1.1 h1.2 hu' h2
      | error x =>
        rw [he] at h1
        rw [h1.1] at h2 ⊢
        rw [h1.2] at h2
        exact ih h hf hu' h2

/-- C86, values, JSON sources: after a history whose edits each come before the keys behind them have
been read, `path.value` is the plain resolution of the keys a list would have.  What is missing: edits
in front of keys that have been read (`C86_stale`). -/
theorem C86_json_partial (strict : Bool) (loc : Option String) (doc : Val) (steps : List PathStep)
    (ht : Timely [] 0 steps) :
    (SPath.value L (steps.foldl (SPath.step L) (.json strict loc { root := doc, parts := [] }))).1
      = PathSt.spec jsonStep doc (steps.foldl PathStep.keys []) := by
  have h : FineJson strict loc doc (steps.foldl PathStep.keys [])
      (steps.foldl (SPath.step L) (.json strict loc { root := doc, parts := [] })) := by
    refine timely_hist (F := FineJson strict loc doc) (K := fun _ => True) (m := 0) ?_ ?_ ?_ steps
      ⟨_, rfl, PathSt.Fine.init doc⟩ (by intro q hq; cases hq) ?_ ht
    · rintro ks p ⟨st, rfl, hst⟩
      exact ⟨hst.tidy, hst.keys⟩
    · intro ks p o h _
      exact h.act o
    · rintro ks p m e ⟨st, rfl, hst⟩ hf hu ht
      have h1 := hst.edit hf hu ht
      simp only [SPath.edit]
      cases he : st.edit e with
      | ok q => rw [he] at h1; exact ⟨⟨_, rfl, h1.1⟩, h1.2⟩
      | error x => rw [he] at h1; exact h1
    · intro s _
      cases s with
      | op o => cases o <;> exact trivial
      | edit e => cases e <;> exact trivial
  have := (h.withValue (L := L) (fun _ _ v => .ok v) (fun _ v => .ok v) (fun _ _ v => .ok v.toVal)).1
  unfold SPath.value
  rw [this]
  cases PathSt.spec jsonStep doc (steps.foldl PathStep.keys []) <;> rfl

/-- C86, values, config sources. -/
theorem C86_config_partial (cfg : ConfigCfg) (steps : List PathStep) (ht : Timely [] 0 steps) :
    (SPath.value L (steps.foldl (SPath.step L) (.config cfg { root := cfg.rootVal, parts := [] }))).1
      = match PathSt.spec (resolveConfig L cfg) cfg.rootVal (steps.foldl PathStep.keys []) with
        | .ok v => .ok v.toVal
        | .error e => .error e := by
  have h : FineCfg L cfg (steps.foldl PathStep.keys [])
      (steps.foldl (SPath.step L) (.config cfg { root := cfg.rootVal, parts := [] })) := by
    refine timely_hist (F := FineCfg L cfg) (K := fun _ => True) (m := 0) ?_ ?_ ?_ steps
      ⟨_, rfl, PathSt.Fine.init _⟩ (by intro q hq; cases hq) ?_ ht
    · rintro ks p ⟨st, rfl, hst⟩
      exact ⟨hst.tidy, hst.keys⟩
    · intro ks p o h _
      exact h.act o
    · rintro ks p m e ⟨st, rfl, hst⟩ hf hu ht
      have h1 := hst.edit hf hu ht
      simp only [SPath.edit]
      cases he : st.edit e with
      | ok q => rw [he] at h1; exact ⟨⟨_, rfl, h1.1⟩, h1.2⟩
      | error x => rw [he] at h1; exact h1
    · intro s _
      cases s with
      | op o => cases o <;> exact trivial
      | edit e => cases e <;> exact trivial
  exact (h.withValue (L := L) (fun _ _ v => .ok v) (fun _ v => .ok v) (fun _ _ v => .ok v.toVal)).1

/-- C86, values, native sources without aliases and ignores, for keys that name nothing on the `NONE`
constant (as C19). -/
theorem C86_native_partial (loc : Option String) (doc : Val) (steps : List PathStep)
    (hu : ∀ s ∈ steps, PathStep.Uses (DullKey L) s) (ht : Timely [] 0 steps) :
    (SPath.value L (steps.foldl (SPath.step L)
        (.dflt { location := loc } { root := doc, parts := [] }))).1
      = PathSt.spec (nativeStep L loc) doc (steps.foldl PathStep.keys []) := by
  have h : FineNat L loc doc (steps.foldl PathStep.keys [])
      (steps.foldl (SPath.step L) (.dflt { location := loc } { root := doc, parts := [] })) := by
    refine timely_hist (F := FineNat L loc doc) (K := DullKey L) (m := 0) ?_ ?_ ?_ steps
      ⟨_, rfl, PathSt.Fine.init doc⟩ (by intro q hq; cases hq) hu ht
    · rintro ks p ⟨st, rfl, hst⟩
      exact ⟨hst.tidy, hst.keys⟩
    · intro ks p o h ho
      exact h.act o ho
    · rintro ks p m e ⟨st, rfl, hst⟩ hf hu ht
      have h1 := hst.edit hf hu ht
      simp only [SPath.edit]
      cases he : st.edit e with
      | ok q => rw [he] at h1; exact ⟨⟨_, rfl, h1.1⟩, h1.2⟩
      | error x => rw [he] at h1; exact h1
  have := (h.withValue (L := L) (fun _ _ v => .ok v) (fun _ v => .ok v) (fun _ _ v => .ok v.toVal)).1
  unfold SPath.value
  rw [this]
  cases PathSt.spec (nativeStep L loc) doc (steps.foldl PathStep.keys []) <;> rfl

namespace Demo

/-- Two maps under one root. -/
def twoMaps : Val := .dict [(.str "a", .dict [(.str "x", .int 1)]), (.str "b", .dict [(.str "x", .int 2)])]

/-- Descend to `a.x`, turn it into `b.x` before reading, read; turn the last key into `y` and back. -/
def timelySteps : List PathStep :=
  [.op (.append (.str "a")), .op (.append (.str "x")), .edit (.set 0 (.str "b")), .op .value,
   .edit (.set (-1) (.str "y")), .op .exists_, .edit (.del 1), .edit (.insert 7 (.str "x")),
   .edit (.del 9)]

end Demo

/-- The history meets the hypothesis, and reads `b.x`. -/
example : Timely [] 0 Demo.timelySteps ∧
    (SPath.value Demo.lib (Demo.timelySteps.foldl (SPath.step Demo.lib)
      (.json false none { root := Demo.twoMaps, parts := [] }))).1 = .ok (.int 2) := by
  refine ⟨?_, by decide +kernel⟩
  simp [Timely, Demo.timelySteps, PathStep.Timely, PathStep.mark, PathStep.keys, PathOp.keys,
    PathEdit.keys, PathEdit.hole, pyAt, pySlot]

/-! ## What an edit in front of keys that have been read gives -/

namespace PathSt
variable {C σ : Type}

/-- Filling parts with a value that is not `NONE` at the end caches it in the last one. -/
theorem fill_ends (resolve : List Val → σ → C → Val → Except Exc C × σ) (isN : C → Bool)
    (keys : List Val) (ps : List (Part C)) : ∀ (s : σ) (c : C) {v s' ps'}, ps ≠ [] →
    fill resolve isN keys s c ps = (.ok v, s', ps') → isN v = false →
    ∃ init q, ps' = init ++ [q] ∧ q.cache = some v ∧ (∀ x ∈ ps, x.raw = false) = (∀ x ∈ ps', x.raw = false) := by
  induction ps with
  | nil => intro s c v s' ps' h; exact absurd rfl h
  | cons p ps ih =>
    intro s c v s' ps' _ h hv
    simp only [fill] at h
    cases hr : resolve keys s c p.key with
    | mk r s1 =>
      rw [hr] at h
      cases r with
      | error e => simp at h
      | ok w =>
        simp only at h
        cases hw : isN w with
        | true =>
          simp only [hw, if_true, Prod.mk.injEq, Except.ok.injEq] at h
          rw [h.1, hv] at hw
          cases hw
        | false =>
          simp only [hw, Bool.false_eq_true, if_false] at h
          cases ps with
          | nil =>
            simp only [fill, Prod.mk.injEq, Except.ok.injEq] at h
            obtain ⟨rfl, _, rfl⟩ := h
            exact ⟨[], _, rfl, rfl, by simp⟩
          | cons p' ps =>
            cases hf : fill resolve isN keys s1 w (p' :: ps) with
            | mk r2 rest =>
              obtain ⟨s2, ps2⟩ := rest
              rw [hf] at h
              simp only [Prod.mk.injEq] at h
              obtain ⟨rfl, rfl, rfl⟩ := h
              obtain ⟨init, q, h1, h2, h3⟩ := ih s1 w (by simp) hf hv
              refine ⟨_ :: init, q, by rw [h1]; rfl, h2, ?_⟩
              simp only [List.mem_cons, forall_eq_or_imp] at h3 ⊢
              rw [h3]

/-- A value that is there, once read, is remembered by the last part. -/
theorem value_last (resolve : List Val → σ → C → Val → Except Exc C × σ) (isN : C → Bool) (s : σ)
    (p : PathSt C) {v : C} (h : (value resolve isN s p).1 = .ok v) (hv : isN v = false)
    (hp : p.parts ≠ []) :
    ∃ init q, (value resolve isN s p).2.2.parts = init ++ [q] ∧ q.cache = some v ∧ q.raw = false := by
  have hs := scan_spec p.parts.reverse
  unfold value at h ⊢
  cases hsc : scan p.parts.reverse with
  | error e => rw [hsc] at h; simp at h
  | ok o =>
    rw [hsc] at h hs
    cases o with
    | none =>
      simp only at h hs ⊢
      obtain ⟨init, q, h1, h2, h3⟩ := fill_ends resolve isN p.keys p.parts s p.root hp
        (by rw [← h]) hv
      refine ⟨init, q, h1, h2, ?_⟩
      have h4 : ∀ x ∈ p.parts, x.raw = false := fun x hx => (hs x (by simpa using hx)).1
      rw [h3] at h4
      exact h4 q (by rw [h1]; simp)
    | some t =>
      obtain ⟨i, w⟩ := t
      obtain ⟨pre, q, post, h1, h2, h3, h4, h5⟩ := hs
      have hpp : p.parts = (post.reverse ++ [q]) ++ pre.reverse := by
        have := congrArg List.reverse h1
        simpa using this
      have hlen : (post.reverse ++ [q]).length = i := by simp [h5]
      have hdrop : p.parts.drop i = pre.reverse := by rw [hpp, ← hlen, List.drop_left]
      have htake : p.parts.take i = post.reverse ++ [q] := by rw [hpp, ← hlen, List.take_left]
      simp only [hdrop, htake] at h ⊢
      cases hpre : pre.reverse with
      | nil =>
        rw [hpre] at h
        simp only [fill, Except.ok.injEq] at h ⊢
        exact ⟨post.reverse, q, by simp, by rw [h4, h], h3⟩
      | cons x xs =>
        rw [hpre] at h
        obtain ⟨init, y, h6, h7, h8⟩ := fill_ends resolve isN p.keys (x :: xs) s w (by simp)
          (by rw [← h]) hv
        refine ⟨post.reverse ++ [q] ++ init, y, by rw [h6]; simp, h7, ?_⟩
        have h9 : ∀ z ∈ x :: xs, z.raw = false := by
          intro z hz
          rw [← hpre] at hz
          exact (h2 z (by simpa using hz)).1
        rw [h8] at h9
        exact h9 y (by rw [h6]; simp)

/-- What the last part remembers is the value. -/
theorem value_kept_last (resolve : List Val → σ → C → Val → Except Exc C × σ) (isN : C → Bool) (s : σ)
    {p : PathSt C} {init : List (Part C)} {q : Part C} {v : C} (hp : p.parts = init ++ [q])
    (hq : q.cache = some v) (hr : q.raw = false) : (value resolve isN s p).1 = .ok v := by
  unfold value
  have : scan p.parts.reverse = .ok (some (p.parts.length, v)) := by
    rw [hp]
    simp [scan, hq, hr]
  rw [this]
  simp [fill]

end PathSt

/-- An edit in front of the last key: what it replaces ends before the last key. -/
def PathEdit.InFront (n : Nat) (e : PathEdit) : Prop :=
  ∃ a b mid, e.hole n = some (a, b, mid) ∧ b < n

/-- C86 fails for edits in front of keys that have been read: whatever the class of the path, whatever
its resolver, if `path.value` has been read and is not `NONE`, editing the path in front of its last key
leaves `path.value` what it was, whatever the keys now are. -/
theorem C86_stale {C σ : Type} (resolve : List Val → σ → C → Val → Except Exc C × σ) (isN : C → Bool)
    (s : σ) (p : PathSt C) {v : C} (h : (PathSt.value resolve isN s p).1 = .ok v) (hv : isN v = false)
    {e : PathEdit} (he : e.InFront p.keys.length) :
    ∃ q, (PathSt.value resolve isN s p).2.2.edit e = .ok q ∧ q.keys = e.keys p.keys ∧
      ∀ s', (PathSt.value resolve isN s' q).1 = .ok v := by
  obtain ⟨a, b, mid, hh, hb⟩ := he
  have hp : p.parts ≠ [] := by
    intro h0
    simp [PathSt.keys, h0] at hb
  obtain ⟨init, x, h1, h2, h3⟩ := PathSt.value_last resolve isN s p h hv hp
  have hkeys := PathSt.keys_of_sig (PathSt.value_sig resolve isN s p)
  have hhole := PathSt.edit_hole (PathSt.value resolve isN s p).2.2 e
  have hkk := PathSt.edit_keys (PathSt.value resolve isN s p).2.2 e
  have hl : (PathSt.value resolve isN s p).2.2.parts.length = p.keys.length := by
    rw [← hkeys]; simp [PathSt.keys]
  rw [hl, hh] at hhole
  simp only at hhole
  rw [hhole] at hkk
  rw [hkeys] at hkk
  refine ⟨_, hhole, hkk.1, ?_⟩
  intro s'
  refine PathSt.value_kept_last resolve isN s'
    (init := (PathSt.value resolve isN s p).2.2.parts.take a ++ mid.map Part.ofKey ++ init.drop b) ?_ h2 h3
  have : b ≤ init.length := by
    rw [h1] at hl
    simp at hl
    omega
  simp only [h1, List.drop_append_of_le_length this, List.append_assoc]

/-- Reading `a.x`, then assigning `b` to its first key: the text is `b.x`, the keys are those of the list,
and the value is still that of `a.x`. -/
theorem C86_counterexample : ∃ steps : List PathStep,
    (steps.foldl (SPath.step Demo.lib) (.json false none { root := Demo.twoMaps, parts := [] })).render
      Demo.lib = .ok "b.x" ∧
    PathSt.spec jsonStep Demo.twoMaps (steps.foldl PathStep.keys []) = .ok (.int 2) ∧
    (SPath.value Demo.lib (steps.foldl (SPath.step Demo.lib)
      (.json false none { root := Demo.twoMaps, parts := [] }))).1 = .ok (.int 1) :=
  ⟨[.op (.append (.str "a")), .op (.append (.str "x")), .op .value, .edit (.set 0 (.str "b"))],
    by decide +kernel, by decide +kernel, by decide +kernel⟩

/-! ## Assigning a value -/

/-- C86, assignment: for every class of path, after `path.value = v` reading the path gives `v`, and keys
are unchanged. -/
theorem C86_assigned {C σ : Type} (resolve : List Val → σ → C → Val → Except Exc C × σ)
    (isN : C → Bool) (s : σ) {p : PathSt C} (ht : p.Tidy)
    (hk : ∀ k ∈ p.keys, (k.isIntLike || k.isStr) = true) (v : C) :
    (PathSt.value resolve isN s (p.setValue v)).1 = .ok v ∧ (p.setValue v).keys = p.keys := by
  refine ⟨?_, PathSt.keys_of_sig (PathSt.setValue_sig p v)⟩
  unfold PathSt.setValue
  cases hr : p.parts.reverse with
  | nil =>
    have : p.parts = [] := by simpa using hr
    simp [PathSt.value, PathSt.scan, PathSt.fill, this]
  | cons q rest =>
    have hp : p.parts = rest.reverse ++ [q] := by
      have := congrArg List.reverse hr; simpa using this
    have hq : q ∈ p.parts := by rw [hp]; simp
    refine PathSt.value_kept_last resolve isN s (init := rest.reverse) (q := { q with cache := some v })
      (by simp) rfl ?_
    show q.raw = false
    rw [ht q hq, hk q.key (List.mem_map_of_mem hq)]
    rfl

/-- C86, assignment: what is below an assigned value is looked up in it. -/
theorem C86_assigned_below {C σ : Type} (resolve : List Val → σ → C → Val → Except Exc C × σ)
    (isN : C → Bool) (s : σ) {p : PathSt C} (ht : p.Tidy)
    (hk : ∀ k ∈ p.keys, (k.isIntLike || k.isStr) = true) (v : C) {k : Val}
    (hkk : (k.isIntLike || k.isStr) = true) :
    (PathSt.value resolve isN s ((p.setValue v).append k)).1
      = (resolve (p.keys ++ [k]) s v k).1 := by
  have hone : ∀ ks, (PathSt.fill resolve isN ks s v [Part.ofKey k]).1 = (resolve ks s v k).1 := by
    intro ks
    simp only [PathSt.fill, Part.ofKey]
    cases hres : resolve ks s v k with
    | mk r s1 =>
      cases r with
      | error e => rfl
      | ok w =>
        simp only
        split <;> rfl
  have hraw : (Part.ofKey (C := C) k).raw = false := by simp only [Part.ofKey, hkk]; rfl
  have hkeys : ((p.setValue v).append k).keys = p.keys ++ [k] := by
    rw [PathSt.append_keys, PathSt.keys_of_sig (PathSt.setValue_sig p v)]
  unfold PathSt.value
  rw [hkeys]
  unfold PathSt.setValue
  cases hr : p.parts.reverse with
  | nil =>
    have : p.parts = [] := by simpa using hr
    simp only [PathSt.append, this, List.nil_append, List.reverse_singleton, PathSt.scan, hraw,
      Bool.false_eq_true, if_false]
    exact hone _
  | cons q rest =>
    have hp : p.parts = rest.reverse ++ [q] := by
      have := congrArg List.reverse hr; simpa using this
    have hq : q ∈ p.parts := by rw [hp]; simp
    have hqr : q.raw = false := by
      rw [ht q hq, hk q.key (List.mem_map_of_mem hq)]
      rfl
    have hsc : PathSt.scan ((rest.reverse ++ [{ q with cache := some v }]) ++ [Part.ofKey k]).reverse
        = .ok (some (rest.length + 1, v)) := by
      simp only [List.reverse_append, List.reverse_reverse, List.reverse_singleton, List.singleton_append,
        PathSt.scan, hraw, Bool.false_eq_true, if_false, hqr]
      rfl
    simp only [PathSt.append, List.reverse_cons, hsc]
    have hd : ((rest.reverse ++ [{ q with cache := some v }]) ++ [Part.ofKey k]).drop (rest.length + 1)
        = [Part.ofKey k] := by
      rw [List.drop_append_of_le_length (by simp), List.drop_of_length_le (by simp)]
      rfl
    rw [hd]
    exact hone _

/-- C86, assignment: popping the key takes the assigned value away. -/
theorem C86_assigned_gone {C : Type} {p q : PathSt C} (v : C) (h : p.pop = .ok q) :
    (p.setValue v).pop = .ok q := by
  unfold PathSt.pop at h ⊢
  unfold PathSt.setValue
  cases hr : p.parts.reverse with
  | nil => rw [hr] at h; simp at h
  | cons x rest =>
    rw [hr] at h
    simpa using h

/-- A path with keys, as the theorems ask for. -/
example : ∃ p : PathSt Val, p.Tidy ∧ p.keys = [.str "a", .str "x"] ∧
    (SPath.valueJson p).1 = .ok .NONE ∧ (SPath.valueJson (p.setValue (.str "new"))).1 = .ok (.str "new") := by
  refine ⟨((PathSt.mk (.dict []) []).append (.str "a")).append (.str "x"), ?_, rfl, ?_, ?_⟩
  · exact PathSt.append_tidy (PathSt.append_tidy (by intro q hq; cases hq) _) _
  · decide +kernel
  · decide +kernel

/-! ## Union and mount paths -/

theorem PathEdit.keys_length (ks ks' : List Val) (e : PathEdit) (h : ks.length = ks'.length) :
    (e.keys ks).length = (e.keys ks').length := by
  simp only [PathEdit.keys, h]
  split <;> simp [h]

/-- The children of a union path are edited like the path itself. -/
theorem UPath.editAll_spec (e : PathEdit) (n : Nat) (t : Nat × Nat × List Val) (hh : e.hole n = some t) :
    ∀ kids : List SPath, UPath.InStep n kids →
    ∃ kids', UPath.editAll e kids = .ok kids' ∧ kids'.map SPath.keys = kids.map (fun c => e.keys c.keys) := by
  intro kids
  induction kids with
  | nil => intro _; exact ⟨[], rfl, rfl⟩
  | cons c cs ih =>
    intro hk
    obtain ⟨cs', h1, h2⟩ := ih (fun x hx => hk x (List.mem_cons_of_mem _ hx))
    have hc := c.edit_spec e
    have hn := hk c (by simp)
    cases hce : c.edit e with
    | error x =>
      rw [hce] at hc
      rw [hn, hh] at hc
      cases hc.2
    | ok c' =>
      rw [hce] at hc
      exact ⟨c' :: cs', by simp only [UPath.editAll, hce, h1], by simp [h2, hc.1]⟩

/-- C86, union sources: an edit of a union path acts on its keys and on those of each of its children as
on a list; an index out of range raises `IndexError`. -/
theorem C86_union {p : UPath} (hp : p.WF) (e : PathEdit) :
    match p.edit e with
    | .ok q => q.keys = e.keys p.keys ∧ q.kids.map SPath.keys = p.kids.map (fun c => e.keys c.keys) ∧ q.WF
    | .error x => x = .indexError "list assignment index out of range" ∧ e.hole p.keys.length = none := by
  have h := p.st.edit_keys e
  unfold UPath.edit
  cases he : p.st.edit e with
  | error x =>
    rw [he] at h
    exact h
  | ok st =>
    rw [he] at h
    cases hh : e.hole p.keys.length with
    | none =>
      have h1 := PathSt.edit_hole p.st e
      have hl : p.st.parts.length = p.keys.length := by simp [UPath.keys, PathSt.keys]
      rw [hl, hh] at h1
      simp only at h1
      rw [he] at h1
      cases h1
    | some t =>
      obtain ⟨kids', h1, h2⟩ := UPath.editAll_spec e _ t hh p.kids hp.kids
      simp only [h1]
      refine ⟨h.1, h2, ?_, h.2.2 hp.tidy⟩
      intro c hc
      have : c.keys ∈ kids'.map SPath.keys := List.mem_map_of_mem hc
      rw [h2] at this
      obtain ⟨c0, hc0, hce⟩ := List.mem_map.1 this
      rw [← hce]
      show (e.keys c0.keys).length = st.keys.length
      rw [h.1]
      exact PathEdit.keys_length _ _ _ (hp.kids c0 hc0)

theorem BPath.edit_spec {p : BPath} (hp : p.WF) (e : PathEdit) :
    match p.edit e with
    | .ok q => q.keys = e.keys p.keys ∧ q.WF ∧ ∀ L, q.text L = p.text L
    | .error x => x = .indexError "list assignment index out of range" ∧ e.hole p.keys.length = none := by
  cases p with
  | simple p =>
    have h := p.edit_spec e
    simp only [BPath.edit, BPath.keys]
    cases he : p.edit e with
    | ok q => rw [he] at h; exact ⟨h.1, h.2.1 hp, h.2.2⟩
    | error x => rw [he] at h; exact h
  | union p =>
    have h := C86_union hp e
    simp only [BPath.edit, BPath.keys]
    cases he : p.edit e with
    | ok q => rw [he] at h; exact ⟨h.1, h.2.2, fun _ => rfl⟩
    | error x => rw [he] at h; exact h

/-- The edit of the sub path that an edit of a mount path amounts to. -/
def PathEdit.below (i' : Int) : PathEdit → PathEdit
  | .set _ k => .set i' k
  | .del _ => .del i'
  | .insert _ k => .insert i' k

/-- The index of an edit. -/
def PathEdit.index : PathEdit → Int
  | .set i _ => i
  | .del i => i
  | .insert i _ => i

/-- An index counted from the start, however far before it. -/
def fromTop (n : Nat) (i : Int) : Int := if i < 0 then (n : Int) + i else i

theorem PathEdit.below_keys (m : Val) (ks : List Val) (e : PathEdit) {a b : Nat} {mid : List Val}
    (h : e.hole (ks.length + 1) = some (a, b, mid)) (ha : 1 ≤ a) :
    let i := fromTop (ks.length + 1) e.index
    i ≠ 0 ∧ (∃ t, (e.below (i - 1)).hole ks.length = some t) ∧
      m :: (e.below (i - 1)).keys ks = e.keys (m :: ks) := by
  have key : ∀ {n : Nat} {i : Int} {j : Nat}, pyAt (n + 1) i = some j → 1 ≤ j →
      fromTop (n + 1) i ≠ 0 ∧ pyAt n (fromTop (n + 1) i - 1) = some (j - 1) := by
    intro n i j hj h1
    unfold fromTop
    rw [pyAt_iff] at hj
    obtain ⟨h2, h3⟩ := hj
    by_cases hi : i < 0
    · simp only [hi, if_true]
      refine ⟨by omega, ?_⟩
      rw [pyAt_iff]
      omega
    · simp only [hi, if_false]
      refine ⟨by omega, ?_⟩
      rw [pyAt_iff]
      omega
  cases e with
  | set i k =>
    simp only [PathEdit.hole, Option.map_eq_some_iff, Prod.mk.injEq] at h
    obtain ⟨j, hj, rfl, rfl, rfl⟩ := h
    obtain ⟨h0, h1⟩ := key hj ha
    refine ⟨h0, ⟨(j - 1, j - 1 + 1, [k]), ?_⟩, ?_⟩
    · simp only [PathEdit.below, PathEdit.index, PathEdit.hole, h1, Option.map_some]
    · obtain ⟨j, rfl⟩ : ∃ j', j = j' + 1 := ⟨j - 1, by omega⟩
      simp only [PathEdit.below, PathEdit.index, PathEdit.keys, PathEdit.hole, h1, Option.map_some,
        List.length_cons, hj, Nat.add_sub_cancel]
      simp
  | del i =>
    simp only [PathEdit.hole, Option.map_eq_some_iff, Prod.mk.injEq] at h
    obtain ⟨j, hj, rfl, rfl, rfl⟩ := h
    obtain ⟨h0, h1⟩ := key hj ha
    refine ⟨h0, ⟨(j - 1, j - 1 + 1, []), ?_⟩, ?_⟩
    · simp only [PathEdit.below, PathEdit.index, PathEdit.hole, h1, Option.map_some]
    · obtain ⟨j, rfl⟩ : ∃ j', j = j' + 1 := ⟨j - 1, by omega⟩
      simp only [PathEdit.below, PathEdit.index, PathEdit.keys, PathEdit.hole, h1, Option.map_some,
        List.length_cons, hj, Nat.add_sub_cancel]
      simp
  | insert i k =>
    simp only [PathEdit.hole, Option.some.injEq, Prod.mk.injEq] at h
    obtain ⟨rfl, rfl, rfl⟩ := h
    have h1 : fromTop (ks.length + 1) i ≠ 0 ∧
        pySlot ks.length (fromTop (ks.length + 1) i - 1) + 1 = pySlot (ks.length + 1) i := by
      unfold fromTop
      unfold pySlot at ha ⊢
      by_cases hi : i < 0
      · simp only [hi, if_true] at ha ⊢
        refine ⟨by omega, ?_⟩
        split <;> omega
      · simp only [hi, if_false] at ha ⊢
        refine ⟨by omega, ?_⟩
        split <;> omega
    refine ⟨h1.1, ⟨_, rfl⟩, ?_⟩
    simp only [PathEdit.below, PathEdit.index, PathEdit.keys, PathEdit.hole, List.length_cons, ← h1.2]
    simp

theorem MPath.edit_below {p : MPath} {m : Val} (hm : p.part = some m) (e : PathEdit)
    (h0 : p.fromEnd e.index ≠ 0) :
    p.edit e = match (p.sub m).edit (e.below (p.fromEnd e.index - 1)) with
      | .ok q => .ok (p.setSub m q)
      | .error x => .error x := by
  cases e <;> simp only [PathEdit.index] at h0 <;>
    simp only [MPath.edit, MPath.editSub, hm, h0, if_false, PathEdit.below, PathEdit.index] <;> rfl

/-- C86, mount sources: an edit behind the mount point, at an index in range, acts on the keys as on a
list.  What is missing: edits of the mount point itself, and indices out of range; for those the claim is
false (`C86_mount_insert_counterexample`, `C86_mount_switch_counterexample`,
`C86_mount_index_counterexample`). -/
theorem C86_mount_partial {p : MPath} (hp : p.WF) (e : PathEdit) {a b : Nat} {mid : List Val}
    (h : e.hole p.keys.length = some (a, b, mid)) (ha : 1 ≤ a) :
    ∃ q, p.edit e = .ok q ∧ q.keys = e.keys p.keys ∧ q.WF := by
  cases hm : p.part with
  | none =>
    exfalso
    have hk : p.keys = [] := by simp [MPath.keys, hm]
    rw [hk] at h
    cases e with
    | set i k =>
      simp only [PathEdit.hole, Option.map_eq_some_iff] at h
      obtain ⟨j, hj, _⟩ := h
      have := ((pyAt_iff _ _ _).1 hj).1
      simp at this
    | del i =>
      simp only [PathEdit.hole, Option.map_eq_some_iff] at h
      obtain ⟨j, hj, _⟩ := h
      have := ((pyAt_iff _ _ _).1 hj).1
      simp at this
    | insert i k =>
      simp only [PathEdit.hole, Option.some.injEq, Prod.mk.injEq] at h
      have := pySlot_le 0 i
      simp only [List.length_nil] at h
      omega
  | some m =>
    have hk : p.keys = m :: (p.sub m).keys := by simp [MPath.keys, hm]
    rw [hk] at h
    obtain ⟨h0, ⟨t, ht⟩, h1⟩ := PathEdit.below_keys m (p.sub m).keys e h ha
    have hfe : p.fromEnd e.index = fromTop ((p.sub m).keys.length + 1) e.index := by
      simp only [MPath.fromEnd, hk, List.length_cons]
      rfl
    rw [← hfe] at h0 ht h1
    have hsub := BPath.edit_spec (hp.sub m) (e.below (p.fromEnd e.index - 1))
    rw [MPath.edit_below hm e h0]
    cases he : (p.sub m).edit (e.below (p.fromEnd e.index - 1)) with
    | error x =>
      rw [he] at hsub
      rw [ht] at hsub
      cases hsub.2
    | ok q =>
      rw [he] at hsub
      refine ⟨_, rfl, ?_, MPath.setSub_wf hp hm hsub.2.1⟩
      rw [hk, ← h1]
      simp only [MPath.keys, MPath.part_setSub, hm, MPath.sub_setSub_self, hsub.1]

namespace Demo

/-- Two mounted JSON documents. -/
def mounts : MPath where
  part := none
  dne := .simple (.dflt {} { root := .dict [], parts := [] })
  paths := [("m", .simple (.json false none { root := twoMaps, parts := [] })),
    ("n", .simple (.json false none { root := twoMaps, parts := [] }))]

/-- Appending keys to a mount path and then editing it: the keys before and after the edit. -/
def mountEdit (ks : List Val) (es : List PathEdit) : Except Exc (List Val × List Val) := do
  let p ← ks.foldlM (fun p k => p.append k) mounts
  let q ← es.foldlM (fun p e => p.edit e) p
  pure (p.keys, q.keys)

end Demo

/-- `path.insert(0, …)` at a mount point does not insert: it replaces the mount point, and the keys below
the old one disappear with it. -/
theorem C86_mount_insert_counterexample :
    Demo.mountEdit [.str "m", .str "a", .str "x"] [.insert 0 (.str "n")]
      = .ok ([.str "m", .str "a", .str "x"], [.str "n"]) := by
  decide +kernel

/-- Assigning the mount point and assigning it back: the keys that had disappeared are there again. -/
theorem C86_mount_switch_counterexample :
    Demo.mountEdit [.str "m", .str "a", .str "x"] [.set 0 (.str "n")]
      = .ok ([.str "m", .str "a", .str "x"], [.str "n"]) ∧
    Demo.mountEdit [.str "m", .str "a", .str "x"] [.set 0 (.str "n"), .set 0 (.str "m")]
      = .ok ([.str "m", .str "a", .str "x"], [.str "m", .str "a", .str "x"]) := by
  decide +kernel

/-- An index before the start of a mount path is not an error: it changes, or deletes, another key. -/
theorem C86_mount_index_counterexample :
    Demo.mountEdit [.str "m", .str "a", .str "x", .int 0] [.set (-5) (.str "b")]
      = .ok ([.str "m", .str "a", .str "x", .int 0], [.str "m", .str "a", .str "b", .int 0]) ∧
    Demo.mountEdit [.str "m", .str "a", .str "x", .int 0] [.del (-5)]
      = .ok ([.str "m", .str "a", .str "x", .int 0], [.str "m", .str "a", .int 0]) := by
  decide +kernel

/-- Edits behind the mount point. -/
example : Demo.mountEdit [.str "m", .str "a", .str "x"] [.set 1 (.str "b"), .insert (-1) (.int 0), .del 2]
    = .ok ([.str "m", .str "a", .str "x"], [.str "m", .str "b", .str "x"]) := by
  decide +kernel

end Pilo
