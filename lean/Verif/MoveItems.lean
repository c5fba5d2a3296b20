import Verif.MoveForm

/-!
# The items of a container are mapped apart from each other

Steps run one after the other at the same path, and each of them alone.
-/

namespace Pilo

/-- The lists have the same length and items that belong together. -/
inductive Each {α β : Type} (r : α → β → Prop) : List α → List β → Prop where
  | nil : Each r [] []
  | cons {a : α} {b : β} {as : List α} {bs : List β} (h : r a b) (hs : Each r as bs) : Each r (a :: as) (b :: bs)

theorem Each.mono {α β : Type} {r r' : α → β → Prop} {as : List α} {bs : List β} (h : Each r as bs)
    (hi : ∀ a ∈ as, ∀ b, r a b → r' a b) : Each r' as bs := by
  induction h with
  | nil => exact .nil
  | cons h _ ih => exact .cons (hi _ (by simp) _ h) (ih fun a ha => hi a (by simp [ha]))

namespace Move
variable {P : Type} {I : PathOps P} {L : Lib} {C : Classes} {S : Inert I} {α κ : Type}

/-- `w`, among the forms `gs`, is the value `v`, among the forms `fs`, with the new forms in it the same but for their
identities; `act g` is to have other forms in place of the forms. -/
def CopyOf (act : (Nat → Nat) → α → α) (base : Nat) (v w : α) (fs gs : List FormObj) : Prop :=
  ∃ g : Nat → Nat, (∀ i j, g i = g j → i = j) ∧ (∀ i, i < base → g i = i) ∧ (∀ i, base ≤ i → base ≤ g i) ∧ w = act g v ∧
    ∀ i o, base ≤ i → fs[i]? = some o → (gs[g i]?).map FormObj.core = some (o.cls, Val.mvDict g o.items)

theorem CopyOf.later {act : (Nat → Nat) → α → α} {base : Nat} {v w : α} {fs gs hs : List FormObj}
    (h : CopyOf act base v w fs gs)
    (hc : ∀ i, i < gs.length → (hs[i]?).map FormObj.core = (gs[i]?).map FormObj.core) : CopyOf act base v w fs hs := by
  obtain ⟨g, h1, h0, h2, h3, h4⟩ := h
  refine ⟨g, h1, h0, h2, h3, fun i o hi ho => ?_⟩
  have h5 := h4 i o hi ho
  have hlt : g i < gs.length := by
    apply Decidable.byContradiction
    intro hn
    rw [List.getElem?_eq_none (by omega)] at h5
    cases h5
  rw [hc (g i) hlt]
  exact h5

/-- A step that does the same whatever forms there are. -/
structure Job (S : Inert I) (W : LawfulPath I) (act : (Nat → Nat) → α → α) (t : T P α) : Prop where
  run : ∀ R, Run S R (fun a b => b = act R.g a) t t
  keeps : TKeeps W (fun _ => False) t

/-- The steps one after the other. -/
def seqT : List (T P α) → T P (List α)
  | [] => T.pure []
  | t :: ts => do
    let a ← t
    let as ← seqT ts
    T.pure (a :: as)

variable {W : LawfulPath I} {Z : Pin I} {p0 : P} {act : (Nat → Nat) → α → α}

/-- An environment all forms of which are old. -/
structure OldEnv (base : Nat) (env : Env) : Prop where
  form : ∃ a, env.form = some a ∧ a < base
  parent : ∀ i, env.parent = some (.form i) → i < base

theorem swap_same {base off a i : Nat} (hi : i < base) : swap base off a a i = i := by
  unfold swap
  rw [if_neg (Nat.not_le.2 hi)]
  repeat' split
  all_goals omega

/-- One step, from `τ` and from `σ`. -/
theorem job (G : Ground S W Z p0) {t : T P α} (ht : Job S W act t) {base : Nat} {env : Env} (he : OldEnv base env)
    {τ σ : TSt P} {es es' : List Err} (hτ : Here p0 es τ) (hσ : Here p0 es' σ) (lτ : τ.forms.length = base)
    (lσ : base ≤ σ.forms.length) :
    Res (fun v w => CopyOf act base v w (t env τ).2.forms (t env σ).2.forms) (t env τ).1 (t env σ).1 ∧
    ∃ ds ds', Errs ds ds' ∧ Here p0 (es ++ ds) (t env τ).2 ∧ Here p0 (es' ++ ds') (t env σ).2 ∧
      base ≤ (t env σ).2.forms.length ∧
      ∀ i, i < σ.forms.length → ((t env σ).2.forms[i]?).map FormObj.core = (σ.forms[i]?).map FormObj.core := by
  obtain ⟨r, hr⟩ := hτ.path
  obtain ⟨r', hr'⟩ := hσ.path
  obtain ⟨a, hfa, ha⟩ := he.form
  let R : Ren := ren (base := base) (off := σ.forms.length - base) ha ha
  have hold : ∀ i, i < base → R.g i = i := fun i hi => swap_same hi
  have hforms : Forms R τ.forms σ.forms := by
    have ho : R.off = σ.forms.length - base := rfl
    refine ⟨by rw [lτ, ho]; omega, by rw [lτ]; exact Nat.le_refl _, ?_⟩
    intro i hi
    have hi : base ≤ i := hi
    rw [List.getElem?_eq_none (by rw [ho]; omega), List.getElem?_eq_none (by omega)]
    rfl
  have henv : EnvRel R env env := by
    refine ⟨rfl, by rw [hfa, Option.map_some, hold a ha], ?_, rfl, rfl, rfl, rfl, by rw [hfa]; rfl⟩
    cases hp : env.parent with
    | none => rfl
    | some x =>
      cases x with
      | field => rfl
      | form i =>
        show _ = some (Parent.form (R.g i))
        rw [hold i (he.parent i hp)]
  have hrun := ht.run R Z 0 env env τ σ henv
    ⟨⟨r, r', p0, hr, hr', G.q, G.at0⟩, ⟨_, _, hτ.errs, hσ.errs⟩, hforms⟩
  have hkeep := ht.keeps env σ (by intro r q h; rw [hr'] at h; cases h; exact G.wf)
  rcases h1 : t env τ with ⟨u, τ'⟩
  rcases h2 : t env σ with ⟨w, σ'⟩
  rw [h1, h2] at hrun
  rw [h2] at hkeep
  obtain ⟨ds, ds', hd, hi1, hi2⟩ := hrun.grew
  obtain ⟨q, q', p, hp1, hp2, hq, hz⟩ := hrun.rel.path
  have hpp := G.same p hz
  subst hpp
  obtain ⟨es1, es1', he1, he2⟩ := hrun.rel.errs
  dsimp only at hp1 hp2 he1 he2 hi1 hi2 ⊢
  refine ⟨?_, ds, ds', hd, ⟨⟨q, hp1⟩, ?_⟩, ⟨⟨q', hp2⟩, ?_⟩, Nat.le_trans lσ hkeep.flen, fun i hi => hkeep.forms i hi fun h => h⟩
  · have hres := hrun.res
    cases u with
    | error x =>
      cases w with
      | ok _ => exact hres.elim
      | error _ => exact hres
    | ok v =>
      cases w with
      | error _ => exact hres.elim
      | ok w =>
        refine ⟨R.g, R.inj, hold, ?_, hres, ?_⟩
        · intro i hi
          rw [R.new i hi]
          exact Nat.le_trans hi (Nat.le_add_right _ _)
        · intro i o hi ho
          have hF : Forms R τ'.forms σ'.forms := hrun.rel.forms
          rw [hF.get (i := i) hi, ho]
          rfl
  · rw [he1]
    simp only [items, he1, hτ.errs, Option.elim] at hi1
    rw [hi1]
  · rw [he2]
    simp only [items, he2, hσ.errs, Option.elim] at hi2
    rw [hi2]

/-- Steps one after the other from `σ`, and each of them alone from `τ`. -/
theorem jobs (G : Ground S W Z p0) {base : Nat} {env : Env} (he : OldEnv base env) {τ : TSt P} {es : List Err}
    (hτ : Here p0 es τ) (lτ : τ.forms.length = base) (t : κ → T P α) : ∀ (ks : List κ) (σ : TSt P) (es' : List Err),
    (∀ k ∈ ks, Job S W act (t k)) → Here p0 es' σ → base ≤ σ.forms.length →
    let y := seqT (ks.map t) env σ
    (∀ adds : κ → List Err, (∀ k ∈ ks, ∃ v, (t k env τ).1 = .ok v) → (∀ k ∈ ks, items (t k env τ).2 = es ++ adds k) →
      ∃ ws ds, y.1 = .ok ws ∧ Errs (ks.flatMap adds) ds ∧ Here p0 (es' ++ ds) y.2 ∧
        (∀ i, i < σ.forms.length → (y.2.forms[i]?).map FormObj.core = (σ.forms[i]?).map FormObj.core) ∧
        Each (fun k w => ∀ v, (t k env τ).1 = .ok v → CopyOf act base v w (t k env τ).2.forms y.2.forms) ks ws) ∧
    (∀ pre k post z, ks = pre ++ k :: post → (∀ j ∈ pre, ∃ v, (t j env τ).1 = .ok v) →
      (t k env τ).1 = .error z → ∃ z', y.1 = .error z' ∧ Twin.bare z' = Twin.bare z) := by
  intro ks
  induction ks with
  | nil =>
    intro σ es' _ hσ hl y
    refine ⟨fun adds _ _ => ⟨[], [], rfl, rfl, by rw [List.append_nil]; exact hσ, fun _ _ => rfl, .nil⟩, ?_⟩
    intro pre x post z h
    cases pre <;> cases h
  | cons k ks ih =>
    intro σ es' hj hσ hl y
    obtain ⟨hres, ds, ds', hd, hA, hB, hl', hcore⟩ := job G (hj k (by simp)) he hτ hσ lτ hl
    have ey : y = (t k >>= fun a => seqT (ks.map t) >>= fun as => T.pure (a :: as)) env σ := rfl
    clear_value y
    rcases h1 : t k env σ with ⟨r, σ'⟩
    rw [h1] at hres hB hl' hcore
    dsimp only at hres hB hl' hcore
    cases r with
    | error z' =>
      rw [T.bind_error h1] at ey
      cases hz : (t k env τ).1 with
      | ok u => rw [hz] at hres; exact hres.elim
      | error z =>
        rw [hz] at hres
        refine ⟨fun adds h _ => ?_, ?_⟩
        · obtain ⟨v, hv⟩ := h k (by simp)
          rw [hz] at hv
          cases hv
        · intro pre w post z2 h hpre hw
          cases pre with
          | nil =>
            cases h
            rw [hz] at hw
            cases hw
            exact ⟨z', by rw [ey], hres.symm⟩
          | cons w' pre =>
            cases h
            obtain ⟨v, hv⟩ := hpre k (by simp)
            rw [hz] at hv
            cases hv
    | ok w =>
      rw [T.bind_ok h1] at ey
      obtain ⟨v, hz⟩ : ∃ v, (t k env τ).1 = .ok v := by
        cases hz : (t k env τ).1 with
        | ok v => exact ⟨v, rfl⟩
        | error z => rw [hz] at hres; exact hres.elim
      rw [hz] at hres
      obtain ⟨ih1, ih2⟩ := ih σ' (es' ++ ds') (fun j h => hj j (by simp [h])) hB hl'
      rcases h2 : seqT (ks.map t) env σ' with ⟨r2, σ2⟩
      rw [h2] at ih1 ih2
      dsimp only at ih1 ih2
      refine ⟨fun adds h hadds => ?_, ?_⟩
      · obtain ⟨ws, d2, j1, j2, j3, j4, j5⟩ := ih1 adds (fun j hj => h j (by simp [hj])) fun j hj => hadds j (by simp [hj])
        subst j1
        rw [T.bind_ok h2] at ey
        have hik : ds = adds k := by
          have := hadds k (by simp)
          unfold items at this
          rw [hA.errs] at this
          exact List.append_cancel_left this
        have hlen : σ.forms.length ≤ σ'.forms.length := by
          have := ((hj k (by simp)).keeps env σ (by
            obtain ⟨r', hr'⟩ := hσ.path
            intro r q h; rw [hr'] at h; cases h; exact G.wf)).flen
          rw [h1] at this
          exact this
        refine ⟨w :: ws, ds' ++ d2, by rw [ey]; rfl, ?_, ?_, ?_, ?_⟩
        · rw [List.flatMap_cons, ← hik]
          exact hd.append j2
        · rw [← List.append_assoc, ey]
          exact j3
        · intro i hi
          rw [ey]
          show (σ2.forms[i]?).map FormObj.core = _
          rw [j4 i (by omega)]
          exact hcore i hi
        · rw [ey]
          refine .cons (fun v' hv' => ?_) j5
          rw [hz] at hv'
          cases hv'
          exact CopyOf.later hres j4
      · intro pre j post z2 h hpre hw
        cases pre with
        | nil =>
          cases h
          rw [hz] at hw
          cases hw
        | cons w' pre =>
          cases h
          obtain ⟨z', h3, h4⟩ := ih2 pre j post z2 rfl (fun v hv => hpre v (by simp [hv])) hw
          subst h3
          rw [T.bind_error h2] at ey
          exact ⟨z', by rw [ey], h4⟩

end Move
end Pilo
