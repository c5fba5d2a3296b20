import Verif.Sub
import Verif.Props.Anywhere

/-!
# C50: mapping is compositional
-/

namespace Pilo

/-! ### Simple paths among all paths -/

section
variable {L : Lib}

/-- Simple paths that read alike, as paths of any kind. -/
def Path.embed (Z : PathTwin (SPath.ops L) (SPath.lawful L)) : PathTwin (Path.ops L) (Path.lawful L) where
  Q d p q := ∃ a b, p = .base (.simple a) ∧ q = .base (.simple b) ∧ Z.Q d a b
  Txt := Z.Txt
  exact := Z.exact
  txt_eq := Z.txt_eq
  lax := Z.lax
  txt_refl := Z.txt_refl
  honest := .inr Path.honest
  wf := by rintro d _ _ ⟨a, b, rfl, rfl, h⟩; exact Z.wf h
  value := by rintro d _ _ ⟨a, b, rfl, rfl, h⟩; exact ⟨(Z.value h).1, _, _, rfl, rfl, (Z.value h).2⟩
  exists_ := by rintro d _ _ ⟨a, b, rfl, rfl, h⟩; exact ⟨(Z.exists_ h).1, _, _, rfl, rfl, (Z.exists_ h).2⟩
  isNull := by rintro d _ _ ⟨a, b, rfl, rfl, h⟩; exact ⟨(Z.isNull h).1, _, _, rfl, rfl, (Z.isNull h).2⟩
  mapping := by
    rintro d _ _ ⟨a, b, rfl, rfl, h⟩
    obtain ⟨h1, h2⟩ := Z.mapping h
    have e : ∀ x : SPath, (Path.ops L).mapping (.base (.simple x)) =
        (((SPath.ops L).mapping x).1, .base (.simple ((SPath.ops L).mapping x).2)) := by
      intro x
      simp only [Path.ops, SPath.ops, Path.read, BPath.mapping, BPath.read]
      rcases SPath.mapping L x with ⟨r, y⟩
      cases r <;> rfl
    rw [e, e]
    exact ⟨h1, _, _, rfl, rfl, h2⟩
  sequence := by rintro d _ _ ⟨a, b, rfl, rfl, h⟩; exact ⟨(Z.sequence h).1, _, _, rfl, rfl, (Z.sequence h).2⟩
  primitive := by rintro d _ _ ty ⟨a, b, rfl, rfl, h⟩; exact ⟨(Z.primitive h).1, _, _, rfl, rfl, (Z.primitive h).2⟩
  hasSrc := by rintro d _ _ ⟨a, b, rfl, rfl, h⟩; rfl
  joinPath := by rintro d _ _ ⟨a, b, rfl, rfl, h⟩; rfl
  render := by rintro d _ _ ⟨a, b, rfl, rfl, h⟩; exact Z.render h
  append := by
    rintro d _ _ k hk ⟨a, b, rfl, rfl, h⟩
    rcases Z.append hk h with ⟨e, h1, -⟩ | ⟨p', q', h1, h2, h3⟩
    · cases h1
    · cases h1; cases h2
      exact .inr ⟨_, _, rfl, rfl, _, _, rfl, rfl, h3⟩
  pop := by
    rintro d _ _ ⟨a, b, rfl, rfl, h⟩
    obtain ⟨p', q', h1, h2, h3⟩ := Z.pop h
    have e : ∀ x y : SPath, (SPath.ops L).pop x = .ok y →
        (Path.ops L).pop (.base (.simple x)) = .ok (.base (.simple y)) := by
      intro x y h
      have h : SPath.pop x = .ok y := h
      simp only [Path.ops, BPath.pop, h]
    exact ⟨_, _, e _ _ h1, e _ _ h2, _, _, rfl, rfl, h3⟩
  Dead p := ∃ a, p = .base (.simple a) ∧ Z.Dead a
  dead_exists := by
    rintro _ ⟨a, rfl, h⟩
    have h : SPath.exists_ L a = _ := Z.dead_exists h
    simp only [Path.ops, Path.read, BPath.exists_, BPath.read, h]
  dead_append := by
    rintro _ k ⟨a, rfl, h⟩
    obtain ⟨p', h1, h2, h3⟩ := Z.dead_append (k := k) h
    cases h1
    refine ⟨_, rfl, ⟨_, rfl, h2⟩, ?_⟩
    have h3 : SPath.pop _ = .ok a := h3
    simp only [Path.ops, BPath.append, BPath.pop, h3]
  raw := by
    rintro d _ _ k hk ⟨a, b, rfl, rfl, h⟩
    rcases Z.raw hk h with ⟨e, h1, -⟩ | ⟨p', q', h1, h2, h3⟩
    · cases h1
    · cases h1; cases h2
      refine .inr ⟨_, _, rfl, rfl, ?_⟩
      rcases h3 with h3 | ⟨h3, h4, h5, h6⟩
      · exact .inl ⟨_, _, rfl, rfl, h3⟩
      · have h5 : SPath.pop _ = .ok a := h5
        have h6 : SPath.pop _ = .ok b := h6
        refine .inr ⟨⟨_, rfl, h3⟩, ⟨_, rfl, h4⟩, ?_, ?_⟩
        · simp only [Path.ops, BPath.append, BPath.pop, h5]
        · simp only [Path.ops, BPath.append, BPath.pop, h6]

end

section
variable {P : Type} {I : PathOps P} {L : Lib} {C : Classes} {W : LawfulPath I}
open Twin Anywhere

/-- The hooks are functions of the value, and the identities of polymorphic fields are single values.  They are `Type` fields, which are strings
(`pilo/fields.py:1263,1454-1456`). -/
def Single (f : Field) : Prop := ValueHooks True f ∧ Twin.single f.kind

theorem Mono.single {f : Field} (h : Mono f) : Single f := by
  refine ⟨h.1, ?_⟩
  have := h.2
  revert this
  cases f.kind <;> intro h <;> first | trivial | exact h.elim

/-- `form.map()` of a `SubForm` at one path and `form.map(src)` from a source whose path reads alike. -/
theorem nested_root (Z : PathTwin I W) (n id : Nat) (reset : Bool) {u : Unmapped} (hpl : Plain C u)
    (hZl : ¬ Z.exact) (hCs : C.All Single) (hus : u.All Single)
    {env env' : Env} (he : ∃ a b c d, env' = { env with src := d, form := a, parent := b, field := c })
    (hs : env.src = some true) (hs' : ∃ x, env'.src = some x) {τ σ : TSt P} (hf : τ.forms = σ.forms)
    {r : Nat} {p q : P} (hp : τ.path = some (some (r, p))) (hq : Z.Q 0 p q) {b : ErrBuf} (hb : τ.errs = some b) :
    let A := Lex.formMap I C (Lex.mapField I L C n) id .none [] reset u false env τ
    let B := Lex.formMap I C (Lex.mapField I L C n) id (.source (.ok q)) [] reset u false env' σ
    Res Z (Errs Z) A.1 B.1 ∧ A.2.forms = B.2.forms ∧
      A.2.errs = some { b with items := b.items ++ (match A.1 with | .ok es => es | .error _ => []) } := by
  obtain ⟨x', hs'⟩ := hs'
  have htags : env'.tags = env.tags := by obtain ⟨a, b, c, d, rfl⟩ := he; rfl
  have hbody : ∀ tags, Run Z Eq (Lex.formMapBody I C (Lex.mapField I L C n) id tags u)
      (Lex.formMapBody I C (Lex.mapField I L C n) id tags u) := fun tags => by
    have hfit : ∀ g : Field, Single g → (Twin.closed W True True L C).Fit g := fun _ h => ⟨h.1, .inl ⟨trivial, fun _ => h.2⟩⟩
    exact Closed.formMapBody (K := Twin.closed W True True L C) trivial (hCs.imp hfit) (Closed.mapField (hCs.imp hfit) n) trivial
      tags (hus.imp hfit) Z fun _ => .inr ⟨trivial, hZl⟩
  intro A B
  obtain ⟨x, y, hxy⟩ := OnForms.formResetIf (P := P) (C := C) id (pickTags [] env.tags) reset
  have h1 := hxy env τ
  have h2 := hxy env' σ
  have eA : A = (Lex.formResetIf C id (pickTags [] env.tags) reset >>= fun _ => T.ctxGet Env.src "src" >>= fun cs =>
      Lex.formMapAt I C (Lex.mapField I L C n) id .none (pickTags [] env.tags) u false cs >>= fun es =>
      Lex.formFinish false es) env τ := rfl
  have eB : B = (Lex.formResetIf C id (pickTags [] env'.tags) reset >>= fun _ => T.ctxGet Env.src "src" >>= fun cs =>
      Lex.formMapAt I C (Lex.mapField I L C n) id (.source (.ok q)) (pickTags [] env'.tags) u false cs >>= fun es =>
      Lex.formFinish false es) env' σ := rfl
  rw [htags] at eB
  rw [hf] at h1
  cases hx : x σ.forms with
  | error e =>
    rw [hx] at h1 h2
    rw [T.bind_error h1] at eA
    rw [T.bind_error h2] at eB
    rw [eA, eB]
    exact ⟨.error (.refl _ _), rfl, by simp [hb]⟩
  | ok _ =>
    rw [hx] at h1 h2
    rw [T.bind_ok h1, T.bind_ok (show T.ctxGet Env.src "src" env _ = (.ok true, _) by unfold T.ctxGet; rw [hs])] at eA
    rw [T.bind_ok h2, T.bind_ok (show T.ctxGet Env.src "src" env' _ = (.ok x', _) by unfold T.ctxGet; rw [hs'])] at eB
    generalize hτ1 : ({ τ with forms := y σ.forms } : TSt P) = τ1 at eA
    generalize hσ1 : ({ σ with forms := y σ.forms } : TSt P) = σ1 at eB
    have hp1 : τ1.path = some (some (r, p)) := by rw [← hτ1]; exact hp
    have hb1 : τ1.errs = some b := by rw [← hτ1]; exact hb
    have hf1 : τ1.forms = σ1.forms := by rw [← hτ1, ← hσ1]
    clear hτ1 hσ1 h1 h2
    -- the bodies
    obtain ⟨h3, h4, hw⟩ := hbody (pickTags [] env.tags) 0 env
      { τ1 with errs := some { raising := false, items := [] } }
      { σ1 with path := some (some (σ1.npaths, q)), npaths := σ1.npaths + 1,
                errs := some { raising := false, items := [] } }
      ⟨by dsimp only; rw [hp1]; exact hq, ⟨rfl, (fun h => by cases h), .nil⟩, hf1⟩
    have h5 : Lex.formMapBody I C (Lex.mapField I L C n) id (pickTags [] env.tags) u { env' with src := some true }
        { σ1 with path := some (some (σ1.npaths, q)), npaths := σ1.npaths + 1,
                  errs := some { raising := false, items := [] } } = Lex.formMapBody I C (Lex.mapField I L C n) id
        (pickTags [] env.tags) u env _ := formMapBody_env hpl n id _ _ _ _ (by
          obtain ⟨a, b, c, d, rfl⟩ := he
          exact ⟨a, b, c, by rw [← hs]⟩)
    rw [← h5] at h3 h4 hw
    rcases hX : Lex.formMapBody I C (Lex.mapField I L C n) id (pickTags [] env.tags) u env
      { τ1 with errs := some { raising := false, items := [] } } with ⟨rx, τ2⟩
    rcases hY : Lex.formMapBody I C (Lex.mapField I L C n) id (pickTags [] env.tags) u { env' with src := some true }
        { σ1 with path := some (some (σ1.npaths, q)), npaths := σ1.npaths + 1,
                  errs := some { raising := false, items := [] } } with ⟨ry, σ2⟩
    rw [hX, hY] at h3 h4 hw
    dsimp only at h3 h4 hw
    have hX' : T.withErrs false (Lex.formMapBody I C (Lex.mapField I L C n) id (pickTags [] env.tags) u) env τ1 =
        match (generalizing := false) rx with
        | .ok a => (.ok (a, τ2.errs.elim [] ErrBuf.items), { τ2 with errs := τ1.errs })
        | .error e => (.error e, { τ2 with errs := τ1.errs }) := by
      unfold T.withErrs
      rw [hX]
      cases rx <;> rfl
    have hY' : ∃ σ3, T.withErrs false (T.withSource (.ok q) (Lex.formMapBody I C (Lex.mapField I L C n) id
          (pickTags [] env.tags) u)) env' σ1 =
        (match (generalizing := false) ry with
        | .ok a => (.ok (a, σ2.errs.elim [] ErrBuf.items), σ3)
        | .error e => (.error e, σ3)) ∧ σ3.forms = σ2.forms := by
      unfold T.withErrs T.withSource
      dsimp only
      rw [hY]
      cases ry <;> exact ⟨_, rfl, rfl⟩
    obtain ⟨σ3, hY', h6⟩ := hY'
    have eA2 : A = (T.withErrs false (Lex.formMapBody I C (Lex.mapField I L C n) id (pickTags [] env.tags) u) >>=
      fun y => T.extend y.2 >>= fun _ => T.pure y.2) env τ1 := by
      rw [eA]
      show (Lex.nestedMap I C _ id _ u false >>= fun es => T.pure es) env τ1 = _
      rcases h : Lex.nestedMap I C (Lex.mapField I L C n) id (pickTags [] env.tags) u false env τ1 with ⟨ra, τa⟩
      have h' := h
      unfold Lex.nestedMap at h'
      rw [← h] at h'
      cases ra with
      | ok a => rw [T.bind_ok h]; exact h.symm
      | error e => rw [T.bind_error h]; exact h.symm
    have eB2 : B = (T.withErrs false (T.withSource (.ok q) (Lex.formMapBody I C (Lex.mapField I L C n) id
        (pickTags [] env.tags) u)) >>= fun y => T.pure y.2) env' σ1 := by
      rw [eB]
      show (Lex.rootMap I C _ id _ _ u false >>= fun es => T.pure es) env' σ1 = _
      rcases h : Lex.rootMap I C (Lex.mapField I L C n) id (.source (.ok q)) (pickTags [] env.tags) u false env' σ1 with ⟨ra, τa⟩
      cases ra with
      | ok a => rw [T.bind_ok h]; exact h.symm
      | error e => rw [T.bind_error h]; exact h.symm
    cases h3 with
    | error hx =>
      rw [T.bind_error hX'] at eA2
      rw [T.bind_error hY'] at eB2
      rw [eA2, eB2]
      exact ⟨.error hx, h4.forms.trans h6.symm, by simp [hb1]⟩
    | ok ha =>
      rw [T.bind_ok hX'] at eA2
      rw [T.bind_ok hY'] at eB2
      have hE : T.extend (τ2.errs.elim [] ErrBuf.items) env { τ2 with errs := τ1.errs } =
          (.ok (), { τ2 with errs := some { b with items := b.items ++ τ2.errs.elim [] ErrBuf.items } }) := by
        unfold T.extend
        simp only [hb1]
      rw [T.bind_ok hE] at eA2
      rw [eA2, eB2]
      refine ⟨.ok ?_, h4.forms.trans h6.symm, rfl⟩
      rcases (hw (.inr trivial)).errs_cases with ⟨h3, h4⟩ | ⟨c, c', h3, h4, -, -, h5⟩
      · rw [h3, h4]; exact .nil
      · rw [h3, h4]; exact h5

/-- The result of a `SubForm` field, and the errors it adds, by what mapping the form gives. -/
def subOutcome (es : List Err) (id : Nat) : Val := if es.isEmpty then .form id else .ERROR

/-- A `SubForm` field at a path, and its form mapped from a source whose path reads alike. -/
theorem sub_run (Z : PathTwin I W) (hC : C.All (ValueHooks True)) (n : Nat) {f : Field} (hf : HookFree f)
    {cls : Nat} {reset : Bool} {u : Unmapped} (hk : f.kind = .subform cls reset u) (hu : u.All (ValueHooks True))
    (hun : Plain C u) (hZl : ¬ Z.exact) (hCs : C.All Single) (hus : u.All Single)
    (ht : f.core.translations = []) (hi : f.core.ignores = []) (ha : f.core.attachParent = false)
    {s s' : St P} {r : Nat} {q q0 : P} {text : String} {b : ErrBuf} (sp : Spot I W f s r q text b)
    (hsrc : noSrc f.core.src = false) (hpr : Present I q) (hq : Z.Q 0 (asked I q) q0) (hl' : Live s')
    (hforms : s.forms = s'.forms) (htags : lookup Frame.tags s'.stack = lookup Frame.tags s.stack)
    (hd : lookup Frame.ignoreDefault s'.stack = lookup Frame.ignoreDefault s.stack)
    (hm : lookup Frame.ignoreMissing s'.stack = lookup Frame.ignoreMissing s.stack) :
    let A := mapField I L C (n + 1) f .NONE s
    let B := (newForm cls >>= fun id => Form.map I L C n id (.source (.ok q0)) [] reset u false) s'
    A.2.forms = B.2.forms ∧ A.2.stack = s.stack ∧
    (∀ e, B.1 = .ok e → A.1 = .ok (subOutcome (B.2.errors e) s.forms.length) ∧
      ∃ es, curErrs A.2 = some { b with items := b.items ++ es } ∧ Errs Z es (B.2.errors e)) ∧
    (∀ x, B.1 = .error x → (x.isSourceError || x.isValueError) = true → A.1 = .ok .ERROR ∧
      curErrs A.2 = some { b with items := b.items ++
        [{ kind := .invalid x.str, path := text, field := f.name, pathRef := some r }] }) ∧
    (∀ x, B.1 = .error x → (x.isSourceError || x.isValueError) = false → A.1 = .error x ∧ curErrs A.2 = some b) := by
  intro A B
  have hfree : C.All LexNode := hC.imp fun _ h => h.lexNode
  have hwq := sp.wf
  -- the lexical run of the direct mapping
  have hB : RefEAt (newForm cls >>= fun id => Form.map I L C n id (.source (.ok q0)) [] reset u false)
      (T.newForm cls >>= fun id => Lex.formMap I C (Lex.mapField I L C n) id (.source (.ok q0)) [] reset u false)
      s'.env s'.view s' := by
    refine RefEAt.bindAt (Ref.newForm cls _ _ _ hl'.agree) fun id s1 τ1 _ _ ha1 _ => ?_
    exact RefE.formMap (I := I) hfree (Ref.mapField (I := I) (L := L) hfree n) id _ [] reset
      (hu.imp fun _ h => h.lexNode) false s'.env τ1 s1 ha1
  have hA := (Ref.mapField (I := I) (L := L) hfree (n + 1)) f .NONE (by
    obtain ⟨core, kind⟩ := f
    dsimp only [Field.kind] at hk
    subst hk
    exact .mk hf.lexNode (.subform (hu.imp fun _ h => h.lexNode)))
  obtain ⟨a1, a2, a3, -, a5⟩ := hA.run sp.live
  -- the two forms
  have hsub := nested_root (L := L) Z n s.forms.length reset hun hZl hCs hus (env := f.innerEnv s.env) (env' := s'.env)
    ⟨s'.env.form, s'.env.parent, s'.env.field, s'.env.src, by
      have h1 : ∃ x y z, f.innerEnv s.env = { s.env with src := x, parent := y, field := z } := by
        unfold Field.innerEnv
        rw [hk]
        dsimp only
        split <;> exact ⟨_, _, _, rfl⟩
      obtain ⟨x, y, z, h1⟩ := h1
      rw [h1]
      unfold St.env
      rw [htags, hd, hm]⟩
    (by
      unfold Field.innerEnv
      rw [hk]
      dsimp only
      rw [hsrc]
      unfold noSrc at hsrc
      rw [(Bool.or_eq_false_iff.1 hsrc).1]
      rfl) hl'.src
    (τ := { s.view with path := some (some (r, asked I q)), forms := s.forms ++ [{ cls := cls, items := [] }] })
    (σ := { s'.view with forms := s.forms ++ [{ cls := cls, items := [] }] }) rfl rfl hq sp.errs
  have hkeep := (TKeeps.subParse (I := I) (W := W) (ok := fun _ => True) hC
      (TKeeps.mapField (I := I) (L := L) hC n) cls reset hu
      (f.innerEnv s.env) { s.view with path := some (some (r, asked I q)) } (by
        intro r' p' h
        cases h
        exact (asked_same hwq).wf)).path
  have eB : (T.newForm cls >>= fun id => Lex.formMap I C (Lex.mapField I L C n) id (.source (.ok q0)) [] reset u false)
      s'.env s'.view = Lex.formMap I C (Lex.mapField I L C n) s.forms.length (.source (.ok q0)) [] reset u false s'.env
        { s'.view with forms := s.forms ++ [{ cls := cls, items := [] }] } := by
    rw [T.bind_ok (show T.newForm cls s'.env s'.view = _ from rfl), hforms]
    rfl
  rcases hX : Lex.formMap I C (Lex.mapField I L C n) s.forms.length .none [] reset u false (f.innerEnv s.env)
    { s.view with path := some (some (r, asked I q)), forms := s.forms ++ [{ cls := cls, items := [] }] } with ⟨ra, τa⟩
  rw [hX] at hsub
  rw [← eB] at hsub
  obtain ⟨h1, h2, h3⟩ := hsub
  dsimp only at h1 h2 h3
  have hparse : Lex.kindParse I L C (Lex.mapField I L C n) f (f.innerEnv s.env)
      { s.view with path := some (some (r, asked I q)) } = (match (generalizing := false) ra with
        | .ok es => (.ok (subOutcome es s.forms.length), τa)
        | .error e => (.error e, τa)) := by
    unfold Lex.kindParse
    rw [hk]
    dsimp only
    unfold Lex.subParse
    rw [T.bind_ok (show T.newForm cls _ { s.view with path := some (some (r, asked I q)) } = (.ok s.forms.length, _) from rfl)]
    cases ra with
    | ok es => exact T.bind_ok hX
    | error e => exact T.bind_error hX
  have hτa : ∃ q2, τa.path = some (some (r, q2)) ∧ Same I W.WF W.shape (asked I q) q2 := by
    have : (Lex.subParse I C (Lex.mapField I L C n) cls reset u (f.innerEnv s.env)
        { s.view with path := some (some (r, asked I q)) }).2 = τa := by
      unfold Lex.kindParse at hparse
      rw [hk] at hparse
      dsimp only at hparse
      rw [hparse]
      cases ra <;> rfl
    rw [this] at hkeep
    exact hkeep
  obtain ⟨q2, hp2, hs2⟩ := hτa
  have hsq := Same.trans W (asked_same hwq) hs2
  have hcomp := fieldCompute_present (L := L) (C := C) (trec := Lex.mapField I L C n) (env := f.innerEnv s.env)
    (τ := { s.view with path := some (some (r, q)) }) hf rfl hpr
  unfold T.tryCatch at hcomp
  rw [hparse] at hcomp
  obtain ⟨p, hp, hpl⟩ := sp.place
  have hwp := curPathObj_wf sp.inv hp
  have finish : ∀ {res : Except Exc Val} {τ2 : TSt P}, Lex.fieldStart I L C (Lex.mapField I L C n) f (f.innerEnv s.env)
      { s.view with path := some (some (r, q)) } = (res, τ2) → τ2.path = some (some (r, q2)) →
      A.1 = res ∧ curErrs A.2 = τ2.errs ∧ A.2.forms = τ2.forms ∧ A.2.stack = s.stack := by
    intro res τ2 hrun hpath
    obtain ⟨p', hfin⟩ := lexMap_run (W := W) (τ := s.view) hf.resolve ha hwp hp hpl hrun hpath hsq
    have hfin' : Lex.mapField I L C (n + 1) f .NONE s.env s.view = _ := hfin
    rw [hfin'] at a1 a2 a3
    exact ⟨a1, a2, a3, a5⟩
  have hBf : B.2.forms = _ := hB.agree.forms
  cases ra with
  | error x =>
    dsimp only at hcomp h3
    rw [List.append_nil] at h3
    generalize hy : ((T.newForm cls >>= fun id => Lex.formMap I C (Lex.mapField I L C n) id (.source (.ok q0)) []
      reset u false) s'.env s'.view).1 = y at h1
    cases h1 with
    | error h =>
    rename_i y
    obtain ⟨hstr, hval, hso⟩ := h.str
    have hBx : B.1 = .error y := hB.of_error hy
    cases hc : x.isSourceError || x.isValueError with
    | true =>
      simp only [hc, if_true] at hcomp
      rw [failWith_run (text := text) (nm := f.name) _ hp2 (by rw [hsq.render hwq, sp.text]) h3 sp.collect (innerEnv_field f s.env)] at hcomp
      obtain ⟨f1, f2, f3, f4⟩ := finish (fieldStart_ERROR hf hcomp) hp2
      refine ⟨f3.trans (h2.trans hBf.symm), f4, ?_, ?_, ?_⟩
      · intro e he; rw [hBx] at he; cases he
      · intro y hy _; rw [hBx] at hy; cases hy; exact ⟨f1, by rw [← hstr]; exact f2⟩
      · intro y hy hc'; rw [hBx] at hy; cases hy; rw [← hval, ← hso, hc] at hc'; cases hc'
    | false =>
      simp only [hc, Bool.false_eq_true, if_false] at hcomp
      obtain ⟨f1, f2, f3, f4⟩ := finish (res := .error x) (τ2 := τa) (by
        rw [hf.fieldStart]
        exact T.bind_error hcomp) hp2
      refine ⟨f3.trans (h2.trans hBf.symm), f4, ?_, ?_, ?_⟩
      · intro e he; rw [hBx] at he; cases he
      · intro y hy hc'; rw [hBx] at hy; cases hy; rw [← hval, ← hso, hc] at hc'; cases hc'
      · intro y hy _; rw [hBx] at hy; cases hy
        exact ⟨by rw [f1, h.other (Bool.or_eq_false_iff.1 hc).2], f2.trans h3⟩
  | ok es =>
    dsimp only at hcomp h3
    generalize hy : ((T.newForm cls >>= fun id => Lex.formMap I C (Lex.mapField I L C n) id (.source (.ok q0)) []
      reset u false) s'.env s'.view).1 = y at h1
    cases h1 with
    | ok h =>
    rename_i es'
    obtain ⟨e, hBe, hBes⟩ := hB.of_ok hy
    have hrun : Lex.fieldStart I L C (Lex.mapField I L C n) f (f.innerEnv s.env)
        { s.view with path := some (some (r, q)) } = (.ok (subOutcome es s.forms.length), τa) := by
      cases es with
      | cons a as => exact fieldStart_ERROR hf hcomp
      | nil =>
        rw [fieldStart_value hf hcomp rfl]
        show Lex.fieldCheck I L C _ f (.form s.forms.length) _ τa = _
        rw [fieldCheck_plain hf ht rfl (by rw [hi]; rfl)]
        unfold Lex.kindValidate
        rw [hk]
        rfl
    obtain ⟨f1, f2, f3, f4⟩ := finish hrun hp2
    refine ⟨f3.trans (h2.trans hBf.symm), f4, ?_, ?_, ?_⟩
    · intro e' he
      have he' : e' = e := by
        have h7 : B.1 = .ok e := hBe
        rw [h7] at he; cases he; rfl
      subst he'
      have hBes : B.2.errors e' = es' := hBes
      rw [hBes]
      refine ⟨?_, es, f2.trans h3, h⟩
      rw [f1]
      unfold subOutcome
      rw [h.isEmpty]
    · intro y hy; have h7 : B.1 = .ok e := hBe; rw [h7] at hy; cases hy
    · intro y hy; have h7 : B.1 = .ok e := hBe; rw [h7] at hy; cases hy

end

/-! ### The property -/

section
variable {L : Lib} {C : Classes}

/-- `q` starts in the part `v` of the document of `p`, found at the keys of `p`: the same kind of source, on `v`.
For native data (`SubCfg`), nothing is aliased and what is ignored below `v` is what `p` ignores there.  A part of a
configuration is a section, and its source is `ConfigSource(config, section, defaults=defaults.get(section))`. -/
inductive PartOf (L : Lib) : SPath → Val → SPath → Prop
  | dflt {a b : DefaultCfg} {st : PathSt Val} {v : Val} : SubCfg st.keys a b →
    PartOf L (.dflt a st) v (.dflt b { root := v, parts := [] })
  | json {strict : Bool} {l l' : Option String} {st : PathSt Val} {v : Val} :
    PartOf L (.json strict l st) v (.json strict l' { root := v, parts := [] })
  | config {a b : ConfigCfg} {st : PathSt CfgVal} {v : Val} {s : String} : SameConfig a b → b.sectionName = some s → s ≠ "" →
    (SPath.valueCfg L a st).1 = .ok (.sect s b.defaults) →
    PartOf L (.config a st) v (.config b { root := b.rootVal, parts := [] })

/-- The location shown in front of the keys (`pilo/source/default.py:46-51`, `json.py:17-22`, `configparser.py:22-29`). -/
def SPath.location : SPath → Option String
  | .dflt a _ => a.location
  | .json _ l _ => l
  | .config a _ => a.front

/-- The same errors, with the keys `K` in front of their paths. -/
structure Prefixed (L : Lib) (K : List Val) (loc loc' : Option String) (es es' : List Err) : Prop where
  same : es.map (fun e => (e.kind, e.field)) = es'.map (fun e => (e.kind, e.field))
  path : ∀ (i : Nat) (a b : Err), es[i]? = some a → es'[i]? = some b → ∃ ks,
    withLocation loc (PathSt.keysText L (K ++ ks)) = .ok a.path ∧ withLocation loc' (PathSt.keysText L ks) = .ok b.path

theorem SPath.isNull_root {p q : SPath} {v : Val} (hv : (p.value L).1 = .ok v) (h : PartOf L p v q) :
    q.isNull L = (.ok v.isNull, q) := by
  cases h with
  | dflt _ =>
    simp only [SPath.isNull, SPath.withValue, valueDflt, PathSt.value, List.reverse_nil, PathSt.scan, PathSt.fill]
  | json =>
    simp only [SPath.isNull, SPath.withValue, valueJson, PathSt.value, List.reverse_nil, PathSt.scan, PathSt.fill]
  | @config a b st v s _ h1 h2 h3 =>
    have hr : b.rootVal = .sect s b.defaults := by unfold ConfigCfg.rootVal; rw [h1]; simp [h2]
    have hv' : v = CfgVal.toVal (.sect s b.defaults) := by
      simp only [SPath.value, SPath.withValue] at hv
      rcases hx : valueCfg L a st with ⟨x, y⟩
      rw [hx] at hv h3
      dsimp only at h3
      subst h3
      cases hv
      rfl
    subst hv'
    simp only [SPath.isNull, SPath.withValue, valueCfg, PathSt.value, List.reverse_nil, PathSt.scan, PathSt.fill, hr]

theorem SPath.exists_of_value {p q : SPath} {v : Val} (hv : (p.value L).1 = .ok v) (hq : PartOf L p v q) :
    (p.exists_ L).1 = .ok (!v.isNONE) := by
  cases p with
  | dflt a st =>
    simp only [SPath.value, SPath.exists_, SPath.withValue] at hv ⊢
    generalize valueDflt L a st = w at hv ⊢
    obtain ⟨x, y⟩ := w
    cases x with
    | error e => cases hv
    | ok x => cases hv; rfl
  | json s l st =>
    simp only [SPath.value, SPath.exists_, SPath.withValue] at hv ⊢
    generalize valueJson st = w at hv ⊢
    obtain ⟨x, y⟩ := w
    cases x with
    | error e => cases hv
    | ok x => cases hv; rfl
  | config a st =>
    cases hq with
    | config _ _ _ h3 =>
      simp only [SPath.value, SPath.exists_, SPath.withValue] at hv ⊢
      generalize valueCfg L a st = w at hv h3 ⊢
      obtain ⟨x, y⟩ := w
      dsimp only at h3
      subst h3
      cases hv
      rfl

theorem Prefixed.of_errs {Z : PathTwin (SPath.ops L) (SPath.lawful L)} {K : List Val} {loc loc' : Option String}
    (hZ : ∀ a b, Z.Txt a b → ∃ ks, withLocation loc (PathSt.keysText L (K ++ ks)) = .ok a ∧
      withLocation loc' (PathSt.keysText L ks) = .ok b) {es es' : List Err}
    (h : Twin.Errs (Path.embed Z) es es') : Prefixed L K loc loc' es es' := by
  induction h with
  | nil => exact ⟨rfl, by intro i a b h; simp at h⟩
  | @cons a b as bs h _ ih =>
    refine ⟨by simp [h.1, h.2.1, ih.same], ?_⟩
    intro i x y hx hy
    cases i with
    | zero =>
      simp at hx hy
      subst hx; subst hy
      exact hZ _ _ h.2.2
    | succ i => exact ih.path i x y (by simpa using hx) (by simpa using hy)

/-- C50.  A context in which the current path is `p`, and a `SubForm` field whose key leads from there to the
value `v`, neither absent nor null.  Mapping the field leaves the same forms as making a form of its class and
mapping it from a source on `v` alone, in any context with the same forms, tags and `ignore_*` variables:

* if that collects no errors, the field gives the form; otherwise it gives `ERROR` and adds the same errors
  with the keys to `v` in front of their paths;
* if that raises (say because `v` is not a mapping), the field reports one error for a value or source error,
  and lets any other exception through.

`PolymorphicSubForm` fields are included.  An identity that was left out of its form is looked for in an empty source
(`pilo/fields.py:636-644`); an error found there has a path of that source, in both mappings, but it is never part of
what either collects, because without the identity an `AttributeError` ends both.

What is missing: the document is native data, JSON or a configuration (not a union or mount), and the `unmapped` option
of the field does not introduce fields into classes with polymorphic ones (`Anywhere.Plain`, see
`C51_counterexample`). -/
theorem C50_compositional_partial (hC : C.All Single) (n : Nat) {f : Field} (hf : HookFree f)
    {cls : Nat} {reset : Bool} {u : Unmapped} (hk : f.kind = .subform cls reset u) (hu : u.All Single)
    (hun : Anywhere.Plain C u)
    (ht : f.core.translations = []) (hi : f.core.ignores = []) (ha : f.core.attachParent = false)
    {s s' : St Path} {r : Nat} {p q : SPath} {b : ErrBuf} {v : Val}
    (hinv : Inv (Path.lawful L) s) (hl : Live s) (hl' : Live s')
    (hp : curPathObj s = some (some (r, .base (.simple p)))) (herrs : curErrs s = some b) (hcol : b.raising = false)
    (hA : ∀ k ∈ (p.append f.core.src).keys, (k.isIntLike || k.isStr) = true)
    (hv : ((p.append f.core.src).value L).1 = .ok v) (hex : v.isNONE = false) (hnn : v.isNull = false)
    (hq : PartOf L (p.append f.core.src) v q)
    (hforms : s.forms = s'.forms) (htags : lookup Frame.tags s'.stack = lookup Frame.tags s.stack)
    (hd : lookup Frame.ignoreDefault s'.stack = lookup Frame.ignoreDefault s.stack)
    (hm : lookup Frame.ignoreMissing s'.stack = lookup Frame.ignoreMissing s.stack) :
    let I := Path.ops L
    let K := (p.append f.core.src).keys
    let A := mapField I L C (n + 1) f .NONE s
    let B := (newForm cls >>= fun id => Form.map I L C n id (.source (.ok (.base (.simple q)))) [] reset u false) s'
    A.2.forms = B.2.forms ∧ A.2.stack = s.stack ∧
    (∀ e, B.1 = .ok e → A.1 = .ok (if (B.2.errors e).isEmpty then .form s.forms.length else .ERROR) ∧
      ∃ es, curErrs A.2 = some { b with items := b.items ++ es } ∧
        Prefixed L K p.location q.location es (B.2.errors e)) ∧
    (∀ x, B.1 = .error x → (x.isSourceError || x.isValueError) = true → A.1 = .ok .ERROR ∧ ∃ text,
      withLocation p.location (PathSt.keysText L K) = .ok text ∧
      curErrs A.2 = some { b with items := b.items ++
        [{ kind := .invalid x.str, path := text, field := f.name, pathRef := some r }] }) ∧
    (∀ x, B.1 = .error x → (x.isSourceError || x.isValueError) = false → A.1 = .error x ∧ curErrs A.2 = some b) := by
  intro I K A B
  have hwp := curPathObj_wf hinv hp
  have htidy : p.Tidy := hwp
  have hkeys : K = p.keys ++ [f.core.src] := ((SPath.lawful L).append_keys (p := p) htidy rfl).1
  have htidy' : (p.append f.core.src).Tidy := ((SPath.lawful L).append_keys (p := p) htidy rfl).2
  have hK : K ≠ [] := by rw [hkeys]; simp
  have hsrcA : (f.core.src.isIntLike || f.core.src.isStr) = true := hA _ (by
    show f.core.src ∈ K
    rw [hkeys]; simp)
  have hnull : f.core.src.isNull = false := by
    cases h : f.core.src <;> rw [h] at hsrcA <;> first | rfl | (cases hsrcA)
  have hnone : f.core.src.isNONE = false := by
    cases h : f.core.src <;> rw [h] at hsrcA <;> first | rfl | (cases hsrcA)
  have hns : noSrc f.core.src = false := by unfold noSrc; rw [hnull, hnone]; rfl
  have hloc : (p.append f.core.src).location = p.location := by cases p <;> rfl
  -- the part
  have hst := SPath.Sub.start (L := L) htidy' hv hex hK hA
  have hstart : SPath.Sub K p.location q.location 0 ((p.append f.core.src).exists_ L).2 q := by
    cases p with
    | dflt a st =>
      cases hq with
      | dflt h => exact hst _ h
    | json s l st =>
      cases hq with
      | json => exact hst _
    | config a st =>
      cases hq with
      | @config _ b _ _ s h0 h1 h2 h3 =>
        have hr : b.rootVal = .sect s b.defaults := by unfold ConfigCfg.rootVal; rw [h1]; simp [h2]
        rw [hr]
        exact hst b s _ h0 h3
  generalize hZ : SPath.subTwin L K hK hA p.location q.location = Z
  have hZQ : ∀ d a b, Z.Q d a b = SPath.Sub K p.location q.location d a b := by subst hZ; intros; rfl
  have hZx : ¬ Z.exact := by subst hZ; exact id
  have hZT : ∀ a b, Z.Txt a b → ∃ ks, withLocation p.location (PathSt.keysText L (K ++ ks)) = .ok a ∧
      withLocation q.location (PathSt.keysText L ks) = .ok b := by subst hZ; intro a b h; exact h
  have hasked : Z.Q 0 (((p.append f.core.src).exists_ L).2.isNull L).2 q := by
    have h1 := (Z.isNull (d := 0) (p := ((p.append f.core.src).exists_ L).2) (q := q) (by rw [hZQ]; exact hstart)).2
    have h2 : ((SPath.ops L).isNull q).2 = q := congrArg Prod.snd (SPath.isNull_root (L := L) hv hq)
    rw [h2] at h1
    exact h1
  have hpr : Present I (.base (.simple (p.append f.core.src))) := by
    refine ⟨?_, ?_⟩
    · show ((p.append f.core.src).exists_ L).1 = .ok true
      rw [SPath.exists_of_value hv hq, hex]
      rfl
    · have h1 := (Z.isNull (d := 0) (p := ((p.append f.core.src).exists_ L).2) (q := q) (by rw [hZQ]; exact hstart)).1
      have h2 : ((SPath.ops L).isNull q).1 = .ok v.isNull := congrArg Prod.fst (SPath.isNull_root (L := L) hv hq)
      rw [h2, hnn] at h1
      exact h1
  obtain ⟨text, htext⟩ := PathSt.keysText_ok L hA p.location
  have sp : Spot I (Path.lawful L) f s r (.base (.simple (p.append f.core.src))) text b := {
    inv := hinv, live := hl, errs := herrs, collect := hcol
    place := ⟨_, hp, by
      unfold Field.place
      rw [hk]
      dsimp only
      rw [hns]
      rfl⟩
    text := by
      have h1 := (SPath.lawful L).render_text htidy'
      refine h1.trans ?_
      cases p with
      | dflt a st => exact htext
      | json _ _ _ => exact htext
      | config a st =>
        have := render_config L a (st.append f.core.src)
        have h2 := PathSt.render_text (p := st.append f.core.src) L htidy'
        rw [h2] at this
        exact h1.symm.trans (this.trans htext) }
  obtain ⟨h1, h2, h3, h4, h5⟩ := sub_run (L := L) (Path.embed Z) (hC.imp fun _ h => h.1) n hf hk
    (hu.imp fun _ h => h.1) hun hZx hC hu ht hi ha sp hns hpr
    (q0 := .base (.simple q)) ⟨_, _, rfl, rfl, hasked⟩ hl' hforms htags hd hm
  refine ⟨h1, h2, fun e he => ?_, fun x hx hc => ?_, h5⟩
  · obtain ⟨h6, es, h7, h8⟩ := h3 e he
    exact ⟨h6, es, h7, .of_errs hZT h8⟩
  · obtain ⟨h6, h7⟩ := h4 x hx hc
    exact ⟨h6, text, htext, h7⟩

/-- C50 for native data: the form mapped from the dictionary itself, `cls().map(v)`. -/
theorem C50_data_partial (hC : C.All Single) (n : Nat) {f : Field} (hf : HookFree f)
    {cls : Nat} {reset : Bool} {u : Unmapped} (hk : f.kind = .subform cls reset u) (hu : u.All Single)
    (hun : Anywhere.Plain C u)
    (ht : f.core.translations = []) (hi : f.core.ignores = []) (ha : f.core.attachParent = false)
    {s s' : St Path} {r : Nat} {a : DefaultCfg} {st : PathSt Val} {b : ErrBuf} {kvs : List (Val × Val)}
    (hinv : Inv (Path.lawful L) s) (hl : Live s) (hl' : Live s')
    (hp : curPathObj s = some (some (r, .base (.simple (.dflt a st))))) (herrs : curErrs s = some b)
    (hcol : b.raising = false) (hig : a.ignores = [])
    (hA : ∀ k ∈ (st.append f.core.src).keys, (k.isIntLike || k.isStr) = true)
    (hv : ((SPath.dflt a (st.append f.core.src)).value L).1 = .ok (.dict kvs))
    (hforms : s.forms = s'.forms) (htags : lookup Frame.tags s'.stack = lookup Frame.tags s.stack)
    (hd : lookup Frame.ignoreDefault s'.stack = lookup Frame.ignoreDefault s.stack)
    (hm : lookup Frame.ignoreMissing s'.stack = lookup Frame.ignoreMissing s.stack) :
    let I := Path.ops L
    let K := (st.append f.core.src).keys
    let A := mapField I L C (n + 1) f .NONE s
    let B := (newForm cls >>= fun id => Form.map I L C n id (.data (.dict kvs)) [] reset u false) s'
    A.2.forms = B.2.forms ∧ A.2.stack = s.stack ∧
    (∀ e, B.1 = .ok e → A.1 = .ok (if (B.2.errors e).isEmpty then .form s.forms.length else .ERROR) ∧
      ∃ es, curErrs A.2 = some { b with items := b.items ++ es } ∧
        Prefixed L K a.location none es (B.2.errors e)) ∧
    (∀ x, B.1 = .error x → (x.isSourceError || x.isValueError) = true → A.1 = .ok .ERROR ∧ ∃ text,
      withLocation a.location (PathSt.keysText L K) = .ok text ∧
      curErrs A.2 = some { b with items := b.items ++
        [{ kind := .invalid x.str, path := text, field := f.name, pathRef := some r }] }) ∧
    (∀ x, B.1 = .error x → (x.isSourceError || x.isValueError) = false → A.1 = .error x ∧ curErrs A.2 = some b) :=
  C50_compositional_partial (L := L) hC n hf hk hu hun ht hi ha hinv hl hl' hp herrs hcol hA hv rfl rfl
    (.dflt (b := {}) ⟨rfl, fun ls _ => by
      have : (a : DefaultCfg).ignore = fun _ => false := by
        funext ks; unfold DefaultCfg.ignore; rw [hig]; rfl
      rw [this]; rfl⟩) hforms htags hd hm

end
end Pilo
