import Verif.Props.Translate
import Verif.ValEq

/-!
# C94: values are the same if they are equal as Python values

`ignore`, `choices`, `required_keys`, translations and the keys of dictionaries compare values by `==`
(`pilo/fields.py:453-459,515-517,680-689,1031-1041`).
-/

namespace Pilo

/-! ## The specification -/

/-- The value is this number. -/
inductive Denotes : Val → Num → Prop
  | int (i : Int) : Denotes (.int i) (.fin i)
  | float (x : Num) : Denotes (.float x) x
  | decimal (x : Num) : Denotes (.decimal x) x
  | true : Denotes (.bool true) (.fin 1)
  | false : Denotes (.bool false) (.fin 0)

/-- Equality of Python values: numbers are equal across types, but no NaN equals anything; lists and tuples are equal
item by item; dictionaries are equal as mappings, in whatever order; everything else is equal to itself. -/
inductive Equal : Val → Val → Prop
  | number {a b : Val} {x : Num} (ha : Denotes a x) (hb : Denotes b x) (hx : x ≠ .nan) : Equal a b
  | none : Equal .none .none
  | str (s : String) : Equal (.str s) (.str s)
  | list {xs ys : List Val} (hl : xs.length = ys.length)
      (h : ∀ (i : Nat) x y, xs[i]? = some x → ys[i]? = some y → Equal x y) : Equal (.list xs) (.list ys)
  | tuple {xs ys : List Val} (hl : xs.length = ys.length)
      (h : ∀ (i : Nat) x y, xs[i]? = some x → ys[i]? = some y → Equal x y) : Equal (.tuple xs) (.tuple ys)
  | dict {a b : List (Val × Val)} (there back : Val × Val → Val × Val)
      (ht : ∀ p ∈ a, there p ∈ b) (htk : ∀ p ∈ a, Equal p.1 (there p).1) (htv : ∀ p ∈ a, Equal p.2 (there p).2)
      (hb : ∀ p ∈ b, back p ∈ a) (hbk : ∀ p ∈ b, Equal (back p).1 p.1) (hbv : ∀ p ∈ b, Equal (back p).2 p.2) :
      Equal (.dict a) (.dict b)
  | const (c) : Equal (.const c) (.const c)
  | ext (t) (n) : Equal (.ext t n) (.ext t n)
  | func (c) : Equal (.func c) (.func c)
  | obj (i) : Equal (.obj i) (.obj i)
  | form (i) : Equal (.form i) (.form i)

/-- The dictionaries in the value have no key twice, and no key that is itself a container. -/
inductive Proper : Val → Prop
  | scalar {v : Val} (h : v.scalar = true) : Proper v
  | form (i) : Proper (.form i)
  | list {xs : List Val} (h : ∀ x ∈ xs, Proper x) : Proper (.list xs)
  | tuple {xs : List Val} (h : ∀ x ∈ xs, Proper x) : Proper (.tuple xs)
  | dict {d : List (Val × Val)} (hk : ∀ p ∈ d, p.1.scalar = true) (hv : ∀ p ∈ d, Proper p.2)
      (hd : d.Pairwise fun x y => ¬ Equal x.1 y.1) : Proper (.dict d)

/-! ## `==` of the model -/

theorem denotes_iff {v : Val} {x : Num} : Denotes v x ↔ v.num? = some x := by
  constructor
  · rintro (_ | _ | _ | _ | _) <;> rfl
  · intro h
    cases v with
    | bool b =>
      cases b <;> cases h
      · exact .false
      · exact .true
    | int i => cases h; exact .int i
    | float x => cases h; exact .float _
    | decimal x => cases h; exact .decimal _
    | _ => cases h

theorem equal_num {a b : Val} {x : Num} (ha : a.num? = some x) : a.pyEq b = true ↔ Equal a b := by
  rw [pyEq_num ha]
  constructor
  · intro h
    cases hb : b.num? with
    | none => rw [hb] at h; cases h
    | some y =>
      rw [hb] at h
      obtain ⟨rfl, hx⟩ := Num.eq_iff.1 h
      exact .number (denotes_iff.2 ha) (denotes_iff.2 hb) hx
  · intro h
    cases h with
    | number h1 h2 hx =>
      rw [denotes_iff] at h1 h2
      rw [ha] at h1
      cases h1
      rw [h2]
      exact Num.eq_iff.2 ⟨rfl, hx⟩
    | _ => cases ha

theorem equal_scalar {a b : Val} (h : a.scalar = true) : a.pyEq b = true ↔ Equal a b := by
  cases ha : a.num? with
  | some x => exact equal_num ha
  | none =>
    constructor
    · intro he
      cases a <;> first | (cases ha; done) | (cases h; done) | skip
      all_goals cases b <;> first | (simp [Val.pyEq] at he; done) | skip
      all_goals first
        | exact .none
        | (simp only [Val.pyEq, beq_iff_eq, Bool.and_eq_true] at he; obtain ⟨rfl, rfl⟩ := he; exact .ext _ _)
        | (simp only [Val.pyEq, beq_iff_eq] at he; subst he; exact .str _)
        | (simp only [Val.pyEq, beq_iff_eq] at he; subst he; exact .const _)
        | (simp only [Val.pyEq, beq_iff_eq] at he; subst he; exact .func _)
        | (simp only [Val.pyEq, beq_iff_eq] at he; subst he; exact .obj _)
    · intro he
      cases he with
      | number h1 => rw [denotes_iff, ha] at h1; cases h1
      | list => cases h
      | tuple => cases h
      | dict => cases h
      | form => cases h
      | none => simp [Val.pyEq]
      | str => simp [Val.pyEq]
      | const => simp [Val.pyEq]
      | ext => simp [Val.pyEq]
      | func => simp [Val.pyEq]
      | obj => simp [Val.pyEq]

theorem pyEqList_iff : ∀ (xs ys : List Val), Val.pyEqList xs ys = true ↔ xs.length = ys.length ∧
    ∀ (i : Nat) x y, xs[i]? = some x → ys[i]? = some y → x.pyEq y = true
  | [], [] => by simp [Val.pyEqList]
  | [], _ :: _ => by simp [Val.pyEqList]
  | _ :: _, [] => by simp [Val.pyEqList]
  | x :: xs, y :: ys => by
    rw [Val.pyEqList, Bool.and_eq_true, pyEqList_iff xs ys]
    constructor
    · rintro ⟨h1, h2, h3⟩
      refine ⟨by simp [h2], ?_⟩
      intro i a b ha hb
      cases i with
      | zero =>
        simp only [List.getElem?_cons_zero, Option.some.injEq] at ha hb
        rw [← ha, ← hb]
        exact h1
      | succ i =>
        simp only [List.getElem?_cons_succ] at ha hb
        exact h3 i a b ha hb
    · rintro ⟨h1, h2⟩
      refine ⟨h2 0 x y rfl rfl, by simpa using h1, fun i a b ha hb => h2 (i + 1) a b ?_ ?_⟩
      · rw [List.getElem?_cons_succ]; exact ha
      · rw [List.getElem?_cons_succ]; exact hb

theorem pyEqDict_iff : ∀ (xs ys : List (Val × Val)), Val.pyEqDict xs ys = true ↔
    ∀ p ∈ xs, ∃ p' ∈ ys, p.1.pyEq p'.1 = true ∧ p.2.pyEq p'.2 = true
  | [], ys => by simp [Val.pyEqDict]
  | (k, v) :: xs, ys => by
    rw [Val.pyEqDict, Bool.and_eq_true, pyEqDict_iff xs ys, List.any_eq_true]
    simp only [List.forall_mem_cons, Bool.and_eq_true]

/-- Things that are matched one to one are no more than what they are matched with; and all of those if they are as
many. -/
theorem matching {α : Type} {R : α → α → Prop} : ∀ {xs ys : List α},
    (xs.Pairwise fun x y => ∀ z, R x z → R y z → False) → (∀ x ∈ xs, ∃ z ∈ ys, R x z) →
    xs.length ≤ ys.length ∧ (ys.length ≤ xs.length → ∀ z ∈ ys, ∃ x ∈ xs, R x z)
  | [], ys, _, _ => ⟨Nat.zero_le _, fun h z hz => by
      cases ys with
      | nil => cases hz
      | cons y ys => simp at h⟩
  | x :: xs, ys, hd, hi => by
    obtain ⟨hx, hd⟩ := List.pairwise_cons.1 hd
    obtain ⟨z, hz, hR⟩ := hi x (by simp)
    obtain ⟨l1, l2, rfl⟩ := List.append_of_mem hz
    obtain ⟨h1, h2⟩ := matching (xs := xs) (ys := l1 ++ l2) hd (by
      intro y hy
      obtain ⟨u, hu, hu2⟩ := hi y (by simp [hy])
      refine ⟨u, ?_, hu2⟩
      simp only [List.mem_append, List.mem_cons] at hu ⊢
      rcases hu with hu | rfl | hu
      · exact .inl hu
      · exact (hx y hy u hR hu2).elim
      · exact .inr hu)
    simp only [List.length_append, List.length_cons] at h1 ⊢
    refine ⟨by omega, fun hl u hu => ?_⟩
    simp only [List.mem_append, List.mem_cons] at hu
    have h3 := h2 (by simp only [List.length_append]; omega)
    rcases hu with hu | rfl | hu
    · obtain ⟨y, hy, h4⟩ := h3 u (by simp [hu])
      exact ⟨y, by simp [hy], h4⟩
    · exact ⟨x, by simp, hR⟩
    · obtain ⟨y, hy, h4⟩ := h3 u (by simp [hu])
      exact ⟨y, by simp [hy], h4⟩

/-- Two entries of a dictionary do not match the same entry. -/
theorem distinct_match {d : List (Val × Val)} (hk : ∀ p ∈ d, p.1.scalar = true)
    (hd : d.Pairwise fun x y => ¬ Equal x.1 y.1) :
    d.Pairwise fun x y => ∀ z : Val × Val, (x.1.pyEq z.1 = true ∧ x.2.pyEq z.2 = true) →
      (y.1.pyEq z.1 = true ∧ y.2.pyEq z.2 = true) → False := by
  induction d with
  | nil => exact .nil
  | cons x d ih =>
    obtain ⟨hx, hd⟩ := List.pairwise_cons.1 hd
    refine List.pairwise_cons.2 ⟨fun y hy z h1 h2 => hx y hy ?_, ih (fun p hp => hk p (by simp [hp])) hd⟩
    have hsx := hk x (by simp)
    have hsy := hk y (by simp [hy])
    rw [← equal_scalar hsx, pyEq_congr (pyEq_swap hsy h2.1).2 hsx]
    exact h1.1

theorem sizeOf_item {xs : List Val} {x : Val} {i : Nat} (h : xs[i]? = some x) : sizeOf x < sizeOf xs :=
  List.sizeOf_lt_of_mem (List.mem_of_getElem? h)

theorem pyEq_iff_aux : ∀ (n : Nat) (a b : Val), sizeOf a ≤ n → Proper a → Proper b → (a.pyEq b = true ↔ Equal a b)
  | 0, a, b, hn, _, _ => by cases a <;> simp at hn
  | n + 1, a, b, hn, ha, hb => by
    by_cases hs : a.scalar = true
    · exact equal_scalar hs
    have other : (∀ xs, a ≠ .list xs) ∨ (∀ xs, b ≠ .list xs) → (∀ xs, a ≠ .tuple xs) ∨ (∀ xs, b ≠ .tuple xs) →
        (∀ d, a ≠ .dict d) ∨ (∀ d, b ≠ .dict d) → (∀ i, a ≠ .form i) ∨ (∀ i, b ≠ .form i) →
        (a.pyEq b = true ↔ Equal a b) := by
      intro h1 h2 h3 h4
      constructor
      · intro he
        cases a <;> first | exact (hs rfl).elim | skip
        all_goals cases b <;> first | (simp [Val.pyEq] at he; done) | skip
        · exact (h1.elim (fun h => h _ rfl) (fun h => h _ rfl)).elim
        · exact (h2.elim (fun h => h _ rfl) (fun h => h _ rfl)).elim
        · exact (h3.elim (fun h => h _ rfl) (fun h => h _ rfl)).elim
        · exact (h4.elim (fun h => h _ rfl) (fun h => h _ rfl)).elim
      · intro he
        cases he with
        | list => exact (h1.elim (fun h => h _ rfl) (fun h => h _ rfl)).elim
        | tuple => exact (h2.elim (fun h => h _ rfl) (fun h => h _ rfl)).elim
        | dict => exact (h3.elim (fun h => h _ rfl) (fun h => h _ rfl)).elim
        | form => exact (h4.elim (fun h => h _ rfl) (fun h => h _ rfl)).elim
        | number h => cases h <;> exact (hs rfl).elim
        | _ => exact (hs rfl).elim
    have seq : ∀ {xs ys : List Val}, sizeOf xs ≤ n → (∀ x ∈ xs, Proper x) → (∀ x ∈ ys, Proper x) →
        (Val.pyEqList xs ys = true ↔ xs.length = ys.length ∧
          ∀ (i : Nat) x y, xs[i]? = some x → ys[i]? = some y → Equal x y) := by
      intro xs ys hsz hxs hys
      rw [pyEqList_iff]
      have step : ∀ (i : Nat) x y, xs[i]? = some x → ys[i]? = some y → (x.pyEq y = true ↔ Equal x y) := fun i x y hx hy =>
        pyEq_iff_aux n x y (by have := sizeOf_item hx; omega) (hxs x (List.mem_of_getElem? hx))
          (hys y (List.mem_of_getElem? hy))
      exact ⟨fun h => ⟨h.1, fun i x y hx hy => (step i x y hx hy).1 (h.2 i x y hx hy)⟩,
        fun h => ⟨h.1, fun i x y hx hy => (step i x y hx hy).2 (h.2 i x y hx hy)⟩⟩
    cases a with
    | list xs =>
      cases b with
      | list ys =>
        have hxs : ∀ x ∈ xs, Proper x := by cases ha with | scalar h => cases h | list h => exact h
        have hys : ∀ x ∈ ys, Proper x := by cases hb with | scalar h => cases h | list h => exact h
        rw [Val.pyEq, seq (by simp at hn; omega) hxs hys]
        exact ⟨fun h => .list h.1 h.2, fun h => by
          cases h with
          | number h => cases h
          | list h1 h2 => exact ⟨h1, h2⟩⟩
      | _ => exact other (.inr (by intro _ h; cases h)) (.inl (by intro _ h; cases h)) (.inl (by intro _ h; cases h))
              (.inl (by intro _ h; cases h))
    | tuple xs =>
      cases b with
      | tuple ys =>
        have hxs : ∀ x ∈ xs, Proper x := by cases ha with | scalar h => cases h | tuple h => exact h
        have hys : ∀ x ∈ ys, Proper x := by cases hb with | scalar h => cases h | tuple h => exact h
        rw [Val.pyEq, seq (by simp at hn; omega) hxs hys]
        exact ⟨fun h => .tuple h.1 h.2, fun h => by
          cases h with
          | number h => cases h
          | tuple h1 h2 => exact ⟨h1, h2⟩⟩
      | _ => exact other (.inl (by intro _ h; cases h)) (.inr (by intro _ h; cases h)) (.inl (by intro _ h; cases h))
              (.inl (by intro _ h; cases h))
    | form i =>
      cases b with
      | form j =>
        rw [Val.pyEq, beq_iff_eq]
        exact ⟨fun h => h ▸ .form i, fun h => by
          cases h with
          | number h => cases h
          | form => rfl⟩
      | _ => exact other (.inl (by intro _ h; cases h)) (.inl (by intro _ h; cases h)) (.inl (by intro _ h; cases h))
              (.inr (by intro _ h; cases h))
    | dict d =>
      cases b with
      | dict d' =>
        obtain ⟨hk, hv, hd⟩ : (∀ p ∈ d, p.1.scalar = true) ∧ (∀ p ∈ d, Proper p.2) ∧
            d.Pairwise fun x y => ¬ Equal x.1 y.1 := by
          cases ha with | scalar h => cases h | dict h1 h2 h3 => exact ⟨h1, h2, h3⟩
        obtain ⟨hk', hv', hd'⟩ : (∀ p ∈ d', p.1.scalar = true) ∧ (∀ p ∈ d', Proper p.2) ∧
            d'.Pairwise fun x y => ¬ Equal x.1 y.1 := by
          cases hb with | scalar h => cases h | dict h1 h2 h3 => exact ⟨h1, h2, h3⟩
        have hsz : ∀ p ∈ d, sizeOf p.2 ≤ n := by
          intro p hp
          have h1 := List.sizeOf_lt_of_mem hp
          have h2 : sizeOf p.2 < sizeOf p := by cases p; simp; omega
          simp at hn
          omega
        have step : ∀ p ∈ d, ∀ p' ∈ d', (p.1.pyEq p'.1 = true ↔ Equal p.1 p'.1) ∧ (p.2.pyEq p'.2 = true ↔ Equal p.2 p'.2) :=
          fun p hp p' hp' => ⟨equal_scalar (hk p hp), pyEq_iff_aux n _ _ (hsz p hp) (hv p hp) (hv' p' hp')⟩
        rw [Val.pyEq, Bool.and_eq_true, pyEqDict_iff, beq_iff_eq]
        constructor
        · rintro ⟨hl, hi⟩
          have back := (matching (R := fun p p' : Val × Val => p.1.pyEq p'.1 = true ∧ p.2.pyEq p'.2 = true)
            (distinct_match hk hd) hi).2 (by omega)
          classical
          refine .dict (fun p => if h : p ∈ d then (hi p h).choose else p) (fun p => if h : p ∈ d' then (back p h).choose else p)
            ?_ ?_ ?_ ?_ ?_ ?_
          · intro p hp; rw [dif_pos hp]; exact (hi p hp).choose_spec.1
          · intro p hp; rw [dif_pos hp]
            have := (hi p hp).choose_spec
            exact (step p hp _ this.1).1.1 this.2.1
          · intro p hp; rw [dif_pos hp]
            have := (hi p hp).choose_spec
            exact (step p hp _ this.1).2.1 this.2.2
          · intro p hp; rw [dif_pos hp]; exact (back p hp).choose_spec.1
          · intro p hp; rw [dif_pos hp]
            have := (back p hp).choose_spec
            exact (step _ this.1 p hp).1.1 this.2.1
          · intro p hp; rw [dif_pos hp]
            have := (back p hp).choose_spec
            exact (step _ this.1 p hp).2.1 this.2.2
        · intro h
          cases h with
          | number h => cases h
          | dict there back ht htk htv hb hbk hbv =>
            have hi : ∀ p ∈ d, ∃ p' ∈ d', p.1.pyEq p'.1 = true ∧ p.2.pyEq p'.2 = true := fun p hp =>
              ⟨_, ht p hp, (step p hp _ (ht p hp)).1.2 (htk p hp), (step p hp _ (ht p hp)).2.2 (htv p hp)⟩
            refine ⟨?_, hi⟩
            have h1 := (matching (R := fun p p' : Val × Val => p.1.pyEq p'.1 = true ∧ p.2.pyEq p'.2 = true)
              (distinct_match hk hd) hi).1
            have hi' : ∀ p ∈ d', ∃ p' ∈ d, Equal p'.1 p.1 := fun p hp => ⟨_, hb p hp, hbk p hp⟩
            have hdm : d'.Pairwise fun x y => ∀ z : Val × Val, (z ∈ d ∧ Equal z.1 x.1) → (z ∈ d ∧ Equal z.1 y.1) → False := by
              refine hd'.imp_of_mem ?_
              intro x y hx hy hne z h2 h3
              apply hne
              have hsz := hk z h2.1
              have hsx := hk' x hx
              rw [← equal_scalar hsx]
              have h4 := (equal_scalar hsz).2 h2.2
              have h5 := (equal_scalar hsz).2 h3.2
              rw [pyEq_congr h5 hsx]
              exact (pyEq_swap hsz h4).2
            have h2 := (matching (R := fun p p' : Val × Val => p' ∈ d ∧ Equal p'.1 p.1) hdm
              (fun p hp => ⟨_, hb p hp, hb p hp, hbk p hp⟩ : ∀ x ∈ d', ∃ z ∈ d, z ∈ d ∧ Equal z.1 x.1)).1
            omega
      | _ => exact other (.inl (by intro _ h; cases h)) (.inl (by intro _ h; cases h)) (.inr (by intro _ h; cases h))
              (.inl (by intro _ h; cases h))
    | _ => exact (hs rfl).elim

/-- `==` of the model is the equality of Python values. -/
theorem pyEq_iff {a b : Val} (ha : Proper a) (hb : Proper b) : a.pyEq b = true ↔ Equal a b :=
  pyEq_iff_aux _ a b (Nat.le_refl _) ha hb

/-! ## C94 -/

/-- C94. `v in xs`. -/
theorem C94_member {v : Val} {xs : List Val} (hv : Proper v) (hx : ∀ x ∈ xs, Proper x) :
    v.inList xs = true ↔ ∃ x ∈ xs, Equal v x := by
  unfold Val.inList
  rw [List.any_eq_true]
  exact ⟨fun ⟨x, h, he⟩ => ⟨x, h, (pyEq_iff hv (hx x h)).1 he⟩, fun ⟨x, h, he⟩ => ⟨x, h, (pyEq_iff hv (hx x h)).2 he⟩⟩

/-- C94. Equality is symmetric. -/
theorem C94_symm {a b : Val} (h : Equal a b) : Equal b a := by
  induction h with
  | number ha hb hx => exact .number hb ha hx
  | none => exact .none
  | str s => exact .str s
  | list hl _ ih => exact .list hl.symm fun i x y hx hy => ih i y x hy hx
  | tuple hl _ ih => exact .tuple hl.symm fun i x y hx hy => ih i y x hy hx
  | dict there back ht _ _ hb _ _ ih1 ih2 ih3 ih4 => exact .dict back there hb ih3 ih4 ht ih1 ih2
  | const c => exact .const c
  | ext t n => exact .ext t n
  | func c => exact .func c
  | obj i => exact .obj i
  | form i => exact .form i

/-- C94. Equality is transitive. -/
theorem C94_trans {a b c : Val} (h : Equal a b) : Equal b c → Equal a c := by
  induction h generalizing c with
  | @number a b x ha hb hx =>
    intro h
    cases h with
    | @number _ _ y hb' hc hy =>
      rw [denotes_iff] at hb hb'
      rw [hb] at hb'
      cases hb'
      exact .number ha hc hx
    | _ => cases hb
  | none => exact id
  | str s => exact id
  | @list xs ys hl _ ih =>
    intro h
    cases h with
    | number h => cases h
    | @list _ zs hl' h' =>
      refine .list (hl.trans hl') fun i x z hx hz => ?_
      obtain ⟨y, hy⟩ : ∃ y, ys[i]? = some y := by
        have : i < zs.length := (List.getElem?_eq_some_iff.1 hz).1
        exact ⟨_, List.getElem?_eq_getElem (by omega)⟩
      exact ih i x y hx hy (h' i y z hy hz)
  | @tuple xs ys hl _ ih =>
    intro h
    cases h with
    | number h => cases h
    | @tuple _ zs hl' h' =>
      refine .tuple (hl.trans hl') fun i x z hx hz => ?_
      obtain ⟨y, hy⟩ : ∃ y, ys[i]? = some y := by
        have : i < zs.length := (List.getElem?_eq_some_iff.1 hz).1
        exact ⟨_, List.getElem?_eq_getElem (by omega)⟩
      exact ih i x y hx hy (h' i y z hy hz)
  | dict there back ht _ _ hb _ _ ih1 ih2 ih3 ih4 =>
    intro h
    cases h with
    | number h => cases h
    | dict there' back' ht' htk' htv' hb' hbk' hbv' =>
      exact .dict (there' ∘ there) (back ∘ back') (fun p hp => ht' _ (ht p hp)) (fun p hp => ih1 p hp (htk' _ (ht p hp)))
        (fun p hp => ih2 p hp (htv' _ (ht p hp))) (fun p hp => hb _ (hb' p hp))
        (fun p hp => ih3 _ (hb' p hp) (hbk' p hp)) (fun p hp => ih4 _ (hb' p hp) (hbv' p hp))
  | const c => exact id
  | ext t n => exact id
  | func c => exact id
  | obj i => exact id
  | form i => exact id

variable {P : Type} {I : PathOps P} {L : Lib} {W : LawfulPath I} {C : Classes} {rec : Rec P}
  {f : Field} {s : St P} {r : Nat} {q : P} {text : String} {b : ErrBuf} {w : Val} {vs : List Val}

/-- C94. `ignore(*vs)` ignores a value that is equal to one of `vs`. -/
theorem C94_ignored (sp : Spot I W f s r q text b) (hf : HookFree f) (hk : f.kind.Primitive)
    (ha : f.core.attachParent = false) (ht : f.core.translations = []) (h : Finds I f q w)
    (hp : Proper w) (hv : ∀ v ∈ vs, Proper v) (hw : ∃ v ∈ vs, Equal w v) :
    AsAbsent (mapFieldF I L C rec (f.ignore vs) .NONE) f s text r :=
  C65_ignored sp hf hk ha ht h (hw.imp fun v h => ⟨h.1, (pyEq_iff hp (hv v h.1)).2 h.2⟩)

/-- C94. `ignore(*vs)` on a plain field keeps a value that is equal to none of them. -/
theorem C94_kept (sp : Spot I W f s r q text b) (hf : HookFree f) (hk : f.kind = .base)
    (ha : f.core.attachParent = false) (ht : f.core.translations = []) (hi : f.core.ignores = []) (h : Finds I f q w)
    (hp : Proper w) (hv : ∀ v ∈ vs, Proper v) (hn : w ≠ .none) (hw : ∀ v ∈ vs, ¬ Equal w v) :
    Accepts (mapFieldF I L C rec (f.ignore vs) .NONE) s w := by
  refine (C65_kept sp hf ⟨.auto, by rw [hk]; rfl⟩ ha ht h ?_).1 (by rw [hk]; exact hn) (by rw [hk]; trivial)
  rw [hi]
  intro v hm
  rw [Bool.eq_false_iff, ne_eq, pyEq_iff hp (hv v hm)]
  exact hw v hm

/-! ## Examples -/

namespace Demo

/-- `{'x': 1, 'y': [2]}` -/
def someDict : Val := .dict [(.str "x", .int 1), (.str "y", .list [.int 2])]
/-- `{'y': [2.0], 'x': True}` -/
def sameDict : Val := .dict [(.str "y", .list [.float (.fin 2)]), (.str "x", .bool true)]
/-- `{'x': 1, 'y': [2], 'z': 3}` -/
def moreDict : Val := .dict [(.str "x", .int 1), (.str "y", .list [.int 2]), (.str "z", .int 3)]

theorem proper_str_dict {d : List (Val × Val)} (hk : ∀ p ∈ d, p.1.scalar = true) (hv : ∀ p ∈ d, Proper p.2)
    (hd : d.Pairwise fun x y => x.1.pyEq y.1 = false) : Proper (.dict d) := by
  refine .dict hk hv (hd.imp_of_mem fun {x y} hx _ h he => ?_)
  rw [(equal_scalar (hk x hx)).2 he] at h
  cases h

theorem proper_numbers {xs : List Val} (h : ∀ x ∈ xs, x.scalar = true) : Proper (.list xs) := .list fun x hx => .scalar (h x hx)

theorem proper_some : Proper someDict := by
  refine proper_str_dict (by decide +kernel) ?_ (by decide +kernel)
  intro p hp
  rcases List.mem_cons.1 hp with rfl | hp
  · exact .scalar rfl
  · rcases List.mem_singleton.1 hp with rfl
    exact proper_numbers (by decide +kernel)

theorem proper_same : Proper sameDict := by
  refine proper_str_dict (by decide +kernel) ?_ (by decide +kernel)
  intro p hp
  rcases List.mem_cons.1 hp with rfl | hp
  · exact proper_numbers (by decide +kernel)
  · rcases List.mem_singleton.1 hp with rfl
    exact .scalar rfl

theorem proper_more : Proper moreDict := by
  refine proper_str_dict (by decide +kernel) ?_ (by decide +kernel)
  intro p hp
  rcases List.mem_cons.1 hp with rfl | hp
  · exact .scalar rfl
  · rcases List.mem_cons.1 hp with rfl | hp
    · exact proper_numbers (by decide +kernel)
    · rcases List.mem_singleton.1 hp with rfl
      exact .scalar rfl

theorem equal_some : Equal sameDict someDict := (pyEq_iff proper_same proper_some).1 (by decide +kernel)
theorem unequal_more : ¬ Equal moreDict someDict := by
  rw [← pyEq_iff proper_more proper_some]
  decide +kernel
theorem unequal_some : ¬ Equal someDict moreDict := by
  rw [← pyEq_iff proper_some proper_more]
  decide +kernel

theorem finds_dict {d : List (Val × Val)} : Finds (SPath.ops lib) (field "a" .base)
    (placeOf (.dict [(.str "a", .dict d)]) "a") (.dict d) :=
  .value rfl ⟨rfl, rfl⟩ rfl rfl

/-- `Field().ignore({'x': 1, 'y': [2]})` at `{'a': {'y': [2.0], 'x': True}}`: missing. -/
example (rec : Rec SPath) : Adds (mapFieldF (SPath.ops lib) lib classes rec ((field "a" .base).ignore [someDict]) .NONE)
    (given lib sameDict) .NOT_SET ⟨.missing, "a", some "a", some 0⟩ :=
  (C94_ignored (f := field "a" .base) (at_a lib _ _ rfl (by intro _ h; cases h)) (free _ _ (by intro _ _ _ _ _ h; cases h))
    ⟨_, rfl⟩ rfl rfl finds_dict proper_same (fun v hv => by rw [List.mem_singleton.1 hv]; exact proper_some)
    ⟨_, List.mem_singleton.2 rfl, equal_some⟩).missing (.inl rfl) rfl

/-- The same field at `{'a': {'x': 1, 'y': [2], 'z': 3}}`. -/
example (rec : Rec SPath) : Accepts (mapFieldF (SPath.ops lib) lib classes rec ((field "a" .base).ignore [someDict]) .NONE)
    (given lib moreDict) moreDict :=
  C94_kept (f := field "a" .base) (at_a lib _ _ rfl (by intro _ h; cases h)) (free _ _ (by intro _ _ _ _ _ h; cases h))
    rfl rfl rfl rfl finds_dict proper_more (fun v hv => by rw [List.mem_singleton.1 hv]; exact proper_some)
    (by intro h; cases h) (fun v hv => by rw [List.mem_singleton.1 hv]; exact unequal_more)

/-- `Field().ignore({'x': 1, 'y': [2], 'z': 3})` at `{'a': {'x': 1, 'y': [2]}}`. -/
example (rec : Rec SPath) : Accepts (mapFieldF (SPath.ops lib) lib classes rec ((field "a" .base).ignore [moreDict]) .NONE)
    (given lib someDict) someDict :=
  C94_kept (f := field "a" .base) (at_a lib _ _ rfl (by intro _ h; cases h)) (free _ _ (by intro _ _ _ _ _ h; cases h))
    rfl rfl rfl rfl finds_dict proper_some (fun v hv => by rw [List.mem_singleton.1 hv]; exact proper_more)
    (by intro h; cases h) (fun v hv => by rw [List.mem_singleton.1 hv]; exact unequal_some)

end Demo
end Pilo
