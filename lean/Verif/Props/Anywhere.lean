import Verif.Twin
import Verif.Props.Modes

/-!
# C51: mapping from an explicit source does not depend on the surrounding context
-/

namespace Pilo
variable {P : Type} {I : PathOps P}

namespace Anywhere
variable {α β : Type}

/-- The computation does not depend on `ctx.form`. -/
def FormFree (t : T P α) : Prop := ∀ env x τ, t { env with form := x } τ = t env τ

theorem FormFree.bind {t : T P α} {f : α → T P β} (ht : FormFree t) (hf : ∀ a, FormFree (f a)) :
    FormFree (t >>= f) := by
  intro env x τ
  rcases h : t env τ with ⟨r, τ'⟩
  have h' := (ht env x τ).trans h
  cases r with
  | error e => rw [T.bind_error h, T.bind_error h']
  | ok a => rw [T.bind_ok h, T.bind_ok h']; exact hf a env x τ'

theorem FormFree.const {t : T P α} (h : ∀ env env' τ, t env τ = t env' τ) : FormFree t := fun _ _ τ => h _ _ τ

theorem FormFree.tryCatch {t : T P α} {h : Exc → T P α} (ht : FormFree t) (hh : ∀ e, FormFree (h e)) :
    FormFree (T.tryCatch t h) := by
  intro env x τ
  unfold T.tryCatch
  rw [ht env x τ]
  rcases t env τ with ⟨r, τ'⟩
  cases r with
  | ok a => rfl
  | error e => exact hh e env x τ'

theorem FormFree.withErrs {b : Bool} {t : T P α} (ht : FormFree t) : FormFree (T.withErrs b t) := by
  intro env x τ
  unfold T.withErrs
  rw [ht env x _]

theorem FormFree.withSource {mk : Except Exc P} {t : T P α} (ht : FormFree t) : FormFree (T.withSource mk t) := by
  intro env x τ
  unfold T.withSource
  cases mk with
  | error e => rfl
  | ok p => dsimp only; rw [← ht { env with src := some true } x _]

theorem FormFree.withKey {k : Val} {t : T P α} (ht : FormFree t) : FormFree (T.withKey I k t) := by
  intro env x τ
  unfold T.withKey
  rw [show T.onPath (pathAppend I k) { env with form := x } τ = T.onPath (pathAppend I k) env τ from rfl]
  rcases T.onPath (pathAppend I k) env τ with ⟨r, τ1⟩
  cases r with
  | error e => rfl
  | ok _ =>
    dsimp only
    rw [← ht { env with src := some (!k.isNull) } x τ1]
    rfl

theorem FormFree.report (k : ErrKind) : FormFree (T.report I k) :=
  .bind (.const fun _ _ _ => rfl) fun _ => .bind (fun _ _ _ => rfl) fun _ => .bind (.const fun _ _ _ => rfl) fun _ =>
    .const fun _ _ _ => rfl

/-- Mapping fields that are not polymorphic, and whose hooks do not ask for the form, does not depend on `ctx.form`. -/
def formFree (I : PathOps P) (L : Lib) (C : Classes) : Closed I L C where
  U t := FormFree t
  ok k := Modes.notPoly k
  okString := trivial
  okBase := trivial
  fok _ := True
  okDict _ _ _ _ := trivial
  okFilter _ _ _ _ _ _ := trivial
  pure _ := .const fun _ _ _ => rfl
  raise _ := .const fun _ _ _ => rfl
  bind h hf := .bind h hf
  ctxGet proj n h := by
    intro env x τ
    unfold T.ctxGet
    rw [h]
  ctxGet? proj h := by
    intro env x τ
    unfold T.ctxGet?
    rw [h]
  value := .const fun _ _ _ => rfl
  exists_ := .const fun _ _ _ => rfl
  isNull := .const fun _ _ _ => rfl
  mapping := .const fun _ _ _ => rfl
  sequence := .const fun _ _ _ => rfl
  primitive _ := .const fun _ _ _ => rfl
  hasSrc := .const fun _ _ _ => rfl
  report k := .report k
  seqTry := .tryCatch (.bind (.const fun _ _ _ => rfl) fun _ => .const fun _ _ _ => rfl) fun e =>
    .bind (.const fun _ _ _ => rfl) fun _ => .const fun _ _ _ => by
      split
      · rfl
      · split <;> rfl
  compute h := .tryCatch h fun e => by
    split
    · exact .bind (.report _) fun _ => .const fun _ _ _ => rfl
    · exact .const fun _ _ _ => rfl
  withEnv g t _ hg h := by
    intro env x τ
    unfold T.withEnv
    obtain ⟨y, hy⟩ := hg env x
    rw [hy]
    exact h _ _ _
  withKey _ h := .withKey h
  rawKey _ _ h := .withKey h
  rawStart _ _ h := .withKey h
  nested _ h hk := .bind (.withErrs h) fun _ => .bind (.const fun _ _ _ => rfl) fun _ => hk _
  root _ h hk := .bind (.withErrs (.withSource h)) fun _ => hk _
  formItems _ _ := .const fun _ _ _ => rfl
  formCls _ _ := .const fun _ _ _ => rfl
  formModify _ _ _ := .const fun _ _ _ => rfl
  formParent _ _ := .const fun _ _ _ => rfl
  newForm _ _ _ h := .bind (.const fun _ _ _ => rfl) fun b => h b trivial
  poly h := h.elim

section
variable {L : Lib} {C : Classes}

/-- A field that does not attach a parent does not depend on `ctx.parent`. -/
theorem mapField_parent (n : Nat) {f : Field} (hf : f.core.attachParent = false) (v : Val) (env : Env)
    (x : Option Parent) (τ : TSt P) :
    Lex.mapField I L C n f v { env with parent := x } τ = Lex.mapField I L C n f v env τ := by
  cases n with
  | zero => rfl
  | succ n =>
    show Lex.mapFieldF I L C (Lex.mapField I L C n) f v { env with parent := x } τ =
      Lex.mapFieldF I L C (Lex.mapField I L C n) f v env τ
    unfold Lex.mapFieldF
    rw [hf]
    rfl

/-- Not polymorphic, with hooks that are functions of the value and attached to a target. -/
def Shy (f : Field) : Prop := ValueHooks False f ∧ Modes.notPoly f.kind

/-- The unmapped keys of a form for which the surrounding context does not matter. -/
def Plain (C : Classes) (u : Unmapped) : Prop :=
  u = .str .none ∨ u = .str .ignore ∨ u = .str .bad ∨ (C.All Shy ∧ u.All Shy)

theorem applyUnmapped_env {u : Unmapped} (hu : Plain C u) (n id : Nat) (env env' : Env) (τ : TSt P)
    (h : ∃ a b c, env' = { env with form := a, parent := b, field := c }) :
    Lex.applyUnmapped (Lex.mapField I L C n) id u env' τ = Lex.applyUnmapped (Lex.mapField I L C n) id u env τ := by
  obtain ⟨a, b, c, rfl⟩ := h
  rcases hu with rfl | rfl | rfl | ⟨hC, hu⟩
  · rfl
  · rfl
  · rfl
  · have hgo : ∀ kf vf : Field, kf.All Shy → vf.All Shy →
        Lex.unmappedGo (Lex.mapField I L C n) id kf vf { env with form := a, parent := b, field := c } τ =
        Lex.unmappedGo (Lex.mapField I L C n) id kf vf env τ := by
      intro kf vf hk hv
      have h1 : Lex.mapField I L C n (unmappedField id kf vf) .NONE { env with form := a, parent := b, field := c } τ =
          Lex.mapField I L C n (unmappedField id kf vf) .NONE env τ := by
        rw [Modes.FieldFree.mapField n _ _ { env with form := a, parent := b } c τ,
          mapField_parent n rfl _ { env with form := a } b τ]
        exact (Closed.mapField (K := formFree I L C) (hC.imp fun _ h => h) n).2 _ _
          (Closed.unmappedField_fit (K := formFree I L C) trivial (hk.imp fun _ h => h) (hv.imp fun _ h => h)) env a τ
      unfold Lex.unmappedGo
      rcases h2 : Lex.mapField I L C n (unmappedField id kf vf) .NONE env τ with ⟨r, τ'⟩
      rw [h2] at h1
      cases r with
      | error e => rw [T.bind_error h1, T.bind_error h2]
      | ok w =>
        rw [T.bind_ok h1, T.bind_ok h2]
        split <;> rfl
    cases hu with
    | @str u =>
      cases u with
      | none => rfl
      | ignore => rfl
      | bad => rfl
      | capture =>
        exact hgo _ _ ((Closed.captureKey_fit (K := formFree I L C)).imp fun _ h => h) ((Closed.captureValue_fit (K := formFree I L C)).imp fun _ h => h)
    | value hv => exact hgo _ _ ((Closed.captureKey_fit (K := formFree I L C)).imp fun _ h => h) hv
    | pair hk hv => exact hgo _ _ hk hv

/-- `Form._map` depends on the tags and the `ignore_*` variables of the context only. -/
theorem formMapBody_env {u : Unmapped} (hu : Plain C u) (n id : Nat) (tags : List String) (env env' : Env) (τ : TSt P)
    (h : ∃ a b c, env' = { env with form := a, parent := b, field := c }) :
    Lex.formMapBody I C (Lex.mapField I L C n) id tags u env' τ =
      Lex.formMapBody I C (Lex.mapField I L C n) id tags u env τ := by
  have h0 := h
  obtain ⟨a, b, c, rfl⟩ := h
  have step : ∀ {α β : Type} {t : T P α} {f : α → T P β} {env env' : Env} {τ : TSt P}, t env' τ = t env τ →
      (∀ a τ, f a env' τ = f a env τ) → (t >>= f) env' τ = (t >>= f) env τ := by
    intro α β t f env env' τ h1 h2
    rcases h3 : t env τ with ⟨r, τ'⟩
    rw [h3] at h1
    cases r with
    | error e => rw [T.bind_error h1, T.bind_error h3]
    | ok w => rw [T.bind_ok h1, T.bind_ok h3]; exact h2 _ _
  unfold Lex.formMapBody
  refine step rfl fun _ τ => step rfl fun cls τ => step ?_ fun _ τ => applyUnmapped_env hu n id _ _ _ h0
  exact Modes.FieldFree.mapFields (fun f v => .mapField n f v) id tags (C cls).fields
    { env with form := some id, parent := some (.form id) } c τ

end
end Anywhere

section
variable {L : Lib} {C : Classes} {W : LawfulPath I}
open Twin

/-- Depends on and changes the forms only. -/
def Anywhere.OnForms {α : Type} (t : T P α) : Prop :=
  ∃ (x : List FormObj → Except Exc α) (y : List FormObj → List FormObj), ∀ env τ,
    t env τ = (x τ.forms, { τ with forms := y τ.forms })

namespace Anywhere

theorem OnForms.pure {α : Type} (a : α) : OnForms (T.pure a : T P α) := ⟨fun _ => .ok a, id, fun _ _ => rfl⟩
theorem OnForms.raise {α : Type} (e : Exc) : OnForms (T.raise e : T P α) := ⟨fun _ => .error e, id, fun _ _ => rfl⟩

theorem OnForms.bind {α β : Type} {t : T P α} {f : α → T P β} (ht : OnForms t) (hf : ∀ a, OnForms (f a)) :
    OnForms (t >>= f) := by
  obtain ⟨x, y, h⟩ := ht
  refine ⟨fun fs => match x fs with
    | .ok a => (hf a).choose (y fs)
    | .error e => .error e, fun fs => match x fs with
    | .ok a => (hf a).choose_spec.choose (y fs)
    | .error _ => y fs, fun env τ => ?_⟩
  have h1 := h env τ
  cases hx : x τ.forms with
  | error e => rw [hx] at h1; rw [T.bind_error h1]; simp only [hx]
  | ok a =>
    rw [hx] at h1
    rw [T.bind_ok h1, (hf a).choose_spec.choose_spec]
    simp only [hx]

theorem OnForms.formCls (id : Nat) : OnForms (T.formCls id : T P Nat) :=
  ⟨fun fs => match fs[id]? with
    | some o => .ok o.cls
    | none => .error (.other "ReferenceError" "dangling form"), _root_.id, fun _ τ => by
      unfold T.formCls
      dsimp only
      split <;> simp [*]⟩

theorem OnForms.formResetIf (id : Nat) (tags : List String) (reset : Bool) :
    OnForms (Lex.formResetIf C id tags reset : T P Unit) := by
  unfold Lex.formResetIf
  split
  · refine .bind (.formCls id) fun cls => ?_
    induction (C cls).fields with
    | nil => exact .pure _
    | cons f fs ih =>
      unfold Lex.formReset
      refine .bind ?_ fun _ => ih
      split
      · exact ⟨fun _ => .ok (), fun fs => fs.modify id fun o => { o with items := dictDel o.items f.key },
          fun _ _ => rfl⟩
      · exact .pure _
  · exact .pure _

theorem OnForms.rootSource (id : Nat) (src : SrcArg P) : OnForms (Lex.rootSource I C id src) := by
  unfold Lex.rootSource
  split
  · exact .pure _
  · exact .pure _
  · exact .pure _
  · exact .bind (.formCls _) fun _ => .pure _
  · exact .bind (.formCls _) fun _ => .pure _
  · exact .raise _

/-- Two runs that agree on results and forms. -/
def Same2 (W : LawfulPath I) {α : Type} (R : α → α → Prop) (r1 r2 : Except Exc α × TSt P) : Prop :=
  Res (.same W) R r1.1 r2.1 ∧ r1.2.forms = r2.2.forms

theorem Same2.bind {α β : Type} {R : α → α → Prop} {S : β → β → Prop} {t u : T P α} {f g : α → T P β}
    {env env' : Env} {τ σ : TSt P} (h : Same2 W R (t env τ) (u env' σ))
    (hf : ∀ a b τ' σ', R a b → t env τ = (.ok a, τ') → u env' σ = (.ok b, σ') → τ'.forms = σ'.forms →
      Same2 W S (f a env τ') (g b env' σ')) :
    Same2 W S ((t >>= f) env τ) ((u >>= g) env' σ) := by
  rcases ht : t env τ with ⟨x, τ'⟩
  rcases hu : u env' σ with ⟨y, σ'⟩
  rw [ht, hu] at h
  obtain ⟨h1, h2⟩ := h
  cases h1 with
  | error hx => rw [T.bind_error ht, T.bind_error hu]; exact ⟨.error hx, h2⟩
  | ok ha => rw [T.bind_ok ht, T.bind_ok hu]; exact hf _ _ _ _ ha ht hu h2

theorem OnForms.same {α : Type} {t : T P α} (h : OnForms t) {env env' : Env} {τ σ : TSt P} (hf : τ.forms = σ.forms) :
    Same2 W Eq (t env τ) (t env' σ) := by
  obtain ⟨x, y, h⟩ := h
  rw [h, h, hf]
  exact ⟨.of_eq rfl, rfl⟩

theorem root_env {b : Bool} {mk : Except Exc P} (hmk : ∀ p, mk = .ok p → W.WF p) {t : T P Unit}
    (h : Run (.same W) Eq t t) {env env' : Env}
    (he : ∀ τ, t { env' with src := some true } τ = t { env with src := some true } τ)
    {τ σ : TSt P} (hf : τ.forms = σ.forms) :
    Same2 W (fun x y => Errs (.same W) x.2 y.2) (T.withErrs b (T.withSource mk t) env τ)
      (T.withErrs b (T.withSource mk t) env' σ) := by
  cases mk with
  | error e => exact ⟨.error (.refl _ _), hf⟩
  | ok p =>
    obtain ⟨h1, -, h2⟩ := h 0 { env with src := some true }
      { τ with path := some (some (τ.npaths, p)), npaths := τ.npaths + 1, errs := some { raising := b, items := [] } }
      { σ with path := some (some (σ.npaths, p)), npaths := σ.npaths + 1, errs := some { raising := b, items := [] } }
      ⟨⟨rfl, hmk p rfl, Nat.zero_le _⟩, ⟨rfl, fun _ => trivial, .nil⟩, hf⟩
    replace h2 := h2 (.inl trivial)
    rw [← he { σ with path := _, npaths := _, errs := _ }] at h1 h2
    unfold T.withErrs T.withSource
    dsimp only
    generalize t { env with src := some true } _ = x at h1 h2 ⊢
    generalize t { env' with src := some true } _ = y at h1 h2 ⊢
    obtain ⟨x, τ'⟩ := x
    obtain ⟨y, σ'⟩ := y
    dsimp only at h1 h2
    cases h1 with
    | error hx => exact ⟨.error hx, h2.forms⟩
    | ok ha =>
      refine ⟨.ok ?_, h2.forms⟩
      dsimp only
      rcases h2.errs_cases with ⟨h3, h4⟩ | ⟨c, c', h3, h4, -, -, h5⟩
      · rw [h3, h4]; exact .nil
      · rw [h3, h4]; exact h5

/-- The two runs of `form.map`, lexically. -/
theorem formMap_env (hC : C.All (ValueHooks True)) (n id : Nat) {src : SrcArg P} (hsrc : SrcOK W src)
    (hne : src.isNone = false) (tags : List String) (reset : Bool) {u : Unmapped} (hu : u.All (ValueHooks True))
    (hp : Plain C u) (raising : Bool) {env env' : Env}
    (he : ∃ a b c d, env' = { env with src := d, form := a, parent := b, field := c })
    (hs : ∃ x, env.src = some x) (hs' : ∃ x, env'.src = some x) {τ σ : TSt P} (hf : τ.forms = σ.forms) :
    Same2 W (Errs (.same W)) (Lex.formMap I C (Lex.mapField I L C n) id src tags reset u raising env τ)
      (Lex.formMap I C (Lex.mapField I L C n) id src tags reset u raising env' σ) := by
  obtain ⟨x, hs⟩ := hs
  obtain ⟨x', hs'⟩ := hs'
  have htags : env'.tags = env.tags := by obtain ⟨a, b, c, d, rfl⟩ := he; rfl
  have hbody : ∀ tags, Run (.same W) Eq (Lex.formMapBody I C (Lex.mapField I L C n) id tags u)
      (Lex.formMapBody I C (Lex.mapField I L C n) id tags u) := fun tags =>
    Closed.formMapBody (K := Twin.closed W True False L C) trivial (hC.imp fun _ h => ⟨h, .inl ⟨trivial, False.elim⟩⟩)
      (Closed.mapField (hC.imp fun _ h => ⟨h, .inl ⟨trivial, False.elim⟩⟩) n) trivial tags
      (hu.imp fun _ h => ⟨h, .inl ⟨trivial, False.elim⟩⟩) (.same W) fun _ => .inl trivial
  unfold Lex.formMap
  rw [T.bind_ok (show T.ctxGet? Env.tags env τ = (.ok env.tags, τ) from rfl),
    T.bind_ok (show T.ctxGet? Env.tags env' σ = (.ok env'.tags, σ) from rfl), htags]
  refine Same2.bind (OnForms.same (.formResetIf _ _ _) hf) fun _ _ τ1 σ1 _ _ _ hf1 => ?_
  rw [T.bind_ok (show T.ctxGet Env.src "src" env τ1 = (.ok x, τ1) by unfold T.ctxGet; rw [hs]),
    T.bind_ok (show T.ctxGet Env.src "src" env' σ1 = (.ok x', σ1) by unfold T.ctxGet; rw [hs'])]
  refine Same2.bind (R := Errs (.same W)) ?_ fun es es' τ2 σ2 hes _ _ hf2 => ?_
  · unfold Lex.formMapAt
    rw [hne]
    show Same2 W _ (Lex.rootMap I C _ id src _ u raising env τ1) (Lex.rootMap I C _ id src _ u raising env' σ1)
    unfold Lex.rootMap
    have hwf := rootSource_wf (W := W) (ok := fun _ => True) (id := id) (C := C) hsrc
    refine Same2.bind (OnForms.same (.rootSource _ _) hf1) fun mk mk' τ2 σ2 hmk h1 h2 hf2 => ?_
    subst hmk
    refine Same2.bind (root_env ?_ (hbody _) ?_ hf2) fun y y' τ3 σ3 hy _ _ hf3 => ?_
    · intro p hp
      subst hp
      -- the source is well formed whatever the current path
      obtain ⟨x, y, hxy⟩ := OnForms.rootSource (I := I) (C := C) id src
      have h3 := (hwf env { τ1 with path := none } (by intro r p h; cases h)).2
      rw [hxy] at h1 h3
      exact h3 (.ok p) (by have := congrArg Prod.fst h1; exact this) p rfl
    · intro τ
      refine formMapBody_env hp n id _ _ _ τ ?_
      obtain ⟨a, b, c, d, rfl⟩ := he
      exact ⟨a, b, c, rfl⟩
    · exact ⟨.ok hy, hf3⟩
  · unfold Lex.formFinish
    rw [hes.isEmpty]
    split
    · split
      · exact ⟨.ok hes, hf2⟩
      · refine ⟨.error ?_, hf2⟩
        simp only [X, Twin.bare]
        rw [hes.bare trivial]
    · exact ⟨.ok hes, hf2⟩

end Anywhere

/-- C51.  Two contexts with the same forms (any stacks, paths and error lists; inside another mapping or not)
whose tags and `ignore_*` variables agree.  Mapping a form of a class whose hooks are functions of the value from an explicit source gives
the same errors, the same exception if any (errors compared without the identity of the path object they
refer to), and leaves the same forms.

What is missing: `Plain` excludes unmapped fields that are, or contain, a `PolymorphicSubForm`; for these the
claim is false (`C51_counterexample`). -/
theorem C51_anywhere_partial (hC : C.All (ValueHooks True)) (n id : Nat) {src : SrcArg P} (hsrc : SrcOK W src)
    (hne : src.isNone = false) (tags : List String) (reset : Bool) {u : Unmapped} (hu : u.All (ValueHooks True))
    (hp : Anywhere.Plain C u) (raising : Bool) {s1 s2 : St P} (hl1 : Live s1) (hl2 : Live s2)
    (hf : s1.forms = s2.forms) (ht : lookup Frame.tags s2.stack = lookup Frame.tags s1.stack)
    (hd : lookup Frame.ignoreDefault s2.stack = lookup Frame.ignoreDefault s1.stack)
    (hm : lookup Frame.ignoreMissing s2.stack = lookup Frame.ignoreMissing s1.stack) :
    let r1 := Form.map I L C n id src tags reset u raising s1
    let r2 := Form.map I L C n id src tags reset u raising s2
    (∀ e1, r1.1 = .ok e1 → ∃ e2, r2.1 = .ok e2 ∧
      (r1.2.errors e1).map bareErr = (r2.2.errors e2).map bareErr) ∧
    (∀ x1, r1.1 = .error x1 → ∃ x2, r2.1 = .error x2 ∧ bare x1 = bare x2) ∧
    r1.2.forms = r2.2.forms := by
  intro r1 r2
  have hfree : C.All LexNode := hC.imp fun _ h => h.lexNode
  have hrec := Ref.mapField (I := I) (L := L) hfree n
  have h1 := RefE.formMap (I := I) hfree hrec id src tags reset (hu.imp fun _ h => h.lexNode) raising
    s1.env s1.view s1 hl1.agree
  have h2 := RefE.formMap (I := I) hfree hrec id src tags reset (hu.imp fun _ h => h.lexNode) raising
    s2.env s2.view s2 hl2.agree
  obtain ⟨hr, hforms⟩ := Anywhere.formMap_env (I := I) (W := W) (L := L) hC n id hsrc hne tags reset hu hp raising
    (env := s1.env) (env' := s2.env) ⟨s2.env.form, s2.env.parent, s2.env.field, s2.env.src, by
      show s2.env = _
      unfold St.env
      rw [ht, hd, hm]⟩ hl1.src hl2.src (τ := s1.view) (σ := s2.view) hf
  refine ⟨fun e1 he => ?_, fun x1 hx => ?_, h1.agree.forms.trans (hforms.trans h2.agree.forms.symm)⟩
  · have h3 := h1.to_ok he
    rw [h3] at hr
    generalize hy : (Lex.formMap I C (Lex.mapField I L C n) id src tags reset u raising s2.env s2.view).1 = y at hr
    cases hr with
    | ok h =>
      obtain ⟨e2, h4, h5⟩ := h2.of_ok hy
      exact ⟨e2, h4, h5 ▸ h.bare trivial⟩
  · have h3 : (Lex.formMap I C (Lex.mapField I L C n) id src tags reset u raising s1.env s1.view).1 = .error x1 := by
      have h4 := h1.res
      rw [show (formMap I C (mapField I L C n) id src tags reset u raising s1).1 = .error x1 from hx] at h4
      generalize (Lex.formMap I C (Lex.mapField I L C n) id src tags reset u raising s1.env s1.view).1 = y at h4 ⊢
      cases y with
      | ok _ => exact h4.elim
      | error y => exact congrArg _ h4.symm
    rw [h3] at hr
    generalize hy : (Lex.formMap I C (Lex.mapField I L C n) id src tags reset u raising s2.env s2.view).1 = y at hr
    cases hr with
    | error h =>
      exact ⟨_, h2.of_error hy, h⟩

end
end Pilo
