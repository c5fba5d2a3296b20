import Verif.Says
import Verif.Leaf

/-!
# Fields of single values that report an error have no value

`Hush W t bad`: if `t` adds errors to the current list, its result is a value that `bad` describes, or errors are
raised and it ends with an exception.  For a field of a single value whose hooks are functions of the value, `bad` says the result is one of
the constants `NONE`, `ERROR` and `NOT_SET`.
-/

namespace Pilo

section
variable {P : Type} {I : PathOps P} (W : LawfulPath I)

/-- The current path has these keys and this shape. -/
def At (sh : W.Shape) (ks : List Val) (τ : TSt P) : Prop :=
  ∃ r p, τ.path = some (some (r, p)) ∧ W.WF p ∧ I.keys p = ks ∧ W.shape p = sh

/-- The errors go with a result that says so. -/
def Owned {α : Type} (bad : α → Prop) (raising : Bool) : Except Exc α → Prop
  | .ok a => bad a
  | .error _ => raising = true

def Hush {α : Type} (t : T P α) (bad : α → Prop) : Prop :=
  ∀ sh ks env τ b, At W sh ks τ → τ.errs = some b →
    ∃ es, (t env τ).2.errs = some { b with items := b.items ++ es } ∧ At W sh ks (t env τ).2 ∧
      (es = [] ∨ Owned bad b.raising (t env τ).1)

/-- No errors at all. -/
abbrev Mute {α : Type} (t : T P α) : Prop := Hush W t fun _ => False

variable {W} {α β : Type} {bad : α → Prop} {bad' : β → Prop}

theorem report_raises {k : ErrKind} {env : Env} {τ : TSt P} {b : ErrBuf} (hb : τ.errs = some b)
    (hr : b.raising = true) : ∃ e τ', T.report I k env τ = (.error e, τ') := by
  have h0 : (T.errsBound : T P Unit) env τ = (.ok (), τ) := by unfold T.errsBound; rw [hb]
  unfold T.report
  rw [T.bind_ok h0]
  cases hf : env.field with
  | none =>
    have h1 : (T.ctxGet Env.field "field" : T P _) env τ = (.error (noCtxAttr "field"), τ) := by
      unfold T.ctxGet; rw [hf]
    rw [T.bind_error h1]
    exact ⟨_, _, rfl⟩
  | some n =>
    have h1 : (T.ctxGet Env.field "field" : T P _) env τ = (.ok n, τ) := by
      unfold T.ctxGet; rw [hf]
    rw [T.bind_ok h1]
    have h2 : (T.pathText I env τ).2 = τ := by
      unfold T.pathText
      rcases τ.path with _ | _ | ⟨r, p⟩
      · rfl
      · rfl
      · cases h : I.render p <;> simp only [h]
    rcases h3 : T.pathText I env τ with ⟨x, τ1⟩
    rw [h3] at h2
    have h2 : τ1 = τ := h2
    subst h2
    cases x with
    | error e => rw [T.bind_error h3]; exact ⟨_, _, rfl⟩
    | ok x =>
      rw [T.bind_ok h3]
      dsimp only
      unfold T.record
      simp only [hb, hr, if_true]
      exact ⟨_, _, rfl⟩

theorem Hush.quiet {t : T P α} (h : ∀ env τ, (t env τ).2.errs = τ.errs ∧ (t env τ).2.path = τ.path) :
    Hush W t bad := by
  rintro sh ks env τ b ⟨r, p, hp, ha⟩ hb
  exact ⟨[], by rw [(h env τ).1, hb]; simp, ⟨r, p, by rw [(h env τ).2, hp], ha⟩, .inl rfl⟩

theorem Hush.state {t : T P α} (h : ∀ env τ, (t env τ).2 = τ) : Hush W t bad :=
  .quiet fun env τ => by rw [h]; exact ⟨rfl, rfl⟩

theorem Hush.pure {a : α} : Hush W (T.pure a : T P α) bad := .state fun _ _ => rfl
theorem Hush.raise {e : Exc} : Hush W (T.raise e : T P α) bad := .state fun _ _ => rfl
theorem Hush.ofExcept {r : Except Exc α} : Hush W (T.ofExcept r : T P α) bad := .state fun _ _ => rfl
theorem Hush.ctxGet? {γ : Type} (proj : Env → Option γ) {bad : Option γ → Prop} :
    Hush W (T.ctxGet? proj : T P _) bad := .state fun _ _ => rfl
theorem Hush.ctxGet (proj : Env → Option α) (n : String) : Hush W (T.ctxGet proj n : T P _) bad :=
  .state fun env τ => by unfold T.ctxGet; cases proj env <;> rfl

/-- After a failure the result only says so. -/
theorem Hush.bind {t : T P α} {f : α → T P β} (h : Hush W t bad)
    (hq : ∀ a, bad a → ∃ x, f a = T.pure x ∧ bad' x) (hf : ∀ a, Hush W (f a) bad') :
    Hush W (t >>= f) bad' := by
  intro sh ks env τ b ha hb
  obtain ⟨es, h1, h2, h3⟩ := h sh ks env τ b ha hb
  rcases ht : t env τ with ⟨r, τ'⟩
  rw [ht] at h1 h2 h3
  cases r with
  | error e => rw [T.bind_error ht]; exact ⟨es, h1, h2, h3⟩
  | ok a =>
    rw [T.bind_ok ht]
    rcases h3 with rfl | h3
    · obtain ⟨es', g1, g2, g3⟩ := hf a sh ks env τ' b h2 (by rw [h1]; simp)
      exact ⟨es', g1, g2, g3⟩
    · obtain ⟨x, hx, hd⟩ := hq a h3
      rw [hx]
      exact ⟨es, h1, h2, .inr hd⟩

theorem Hush.seq {t : T P α} {f : α → T P β} (h : Mute W t) (hf : ∀ a, Hush W (f a) bad') :
    Hush W (t >>= f) bad' :=
  .bind h (fun _ h => h.elim) hf

theorem Hush.ite {c : Prop} [Decidable c] {t u : T P α} (ht : c → Hush W t bad) (hu : ¬c → Hush W u bad) :
    Hush W (if c then t else u) bad := by
  split
  · exact ht ‹_›
  · exact hu ‹_›

theorem Hush.report (k : ErrKind) : Hush W (T.report I k) fun _ => True := by
  intro sh ks env τ b ha hb
  obtain ⟨r, p, hp, hrest⟩ := ha
  have h0 : (T.errsBound : T P Unit) env τ = (.ok (), τ) := by unfold T.errsBound; rw [hb]
  unfold T.report
  rw [T.bind_ok h0]
  cases hf : env.field with
  | none =>
    have h1 : (T.ctxGet Env.field "field" : T P _) env τ = (.error (noCtxAttr "field"), τ) := by
      unfold T.ctxGet; rw [hf]
    rw [T.bind_error h1]
    exact ⟨[], by simp [hb], ⟨r, p, hp, hrest⟩, .inl rfl⟩
  | some n =>
    have h1 : (T.ctxGet Env.field "field" : T P _) env τ = (.ok n, τ) := by
      unfold T.ctxGet; rw [hf]
    rw [T.bind_ok h1]
    cases ht : I.render p with
    | error e =>
      have h2 : T.pathText I env τ = (.error e, τ) := by
        unfold T.pathText; rw [hp]; simp only [ht]
      rw [T.bind_error h2]
      exact ⟨[], by simp [hb], ⟨r, p, hp, hrest⟩, .inl rfl⟩
    | ok s =>
      have h2 : T.pathText I env τ = (.ok (s, some r), τ) := by
        unfold T.pathText; rw [hp]; simp only [ht]
      rw [T.bind_ok h2]
      dsimp only
      unfold T.record
      simp only [hb]
      refine ⟨[_], rfl, ⟨r, p, hp, hrest⟩, .inr ?_⟩
      cases hrs : b.raising <;> simp [Owned]

theorem Hush.afterReport {k : ErrKind} {x : α} (h : bad x) : Hush W (T.report I k >>= fun _ => T.pure x) bad :=
  .bind (.report k) (fun _ _ => ⟨x, rfl, h⟩) fun _ => .pure

/-- `except` clauses that record the exception and go on, or let it pass. -/
theorem Hush.catch {t : T P α} {c : Exc → Bool} {k : Exc → ErrKind} {x : α} (ht : Hush W t bad) (hx : bad x) :
    Hush W (T.tryCatch t fun e => if c e = true then (T.report I (k e) >>= fun _ => T.pure x) else T.raise e)
      bad := by
  intro sh ks env τ b ha hb
  obtain ⟨es, h1, h2, h3⟩ := ht sh ks env τ b ha hb
  unfold T.tryCatch
  rcases hr : t env τ with ⟨r, τ'⟩
  rw [hr] at h1 h2 h3
  cases r with
  | ok a => exact ⟨es, h1, h2, h3⟩
  | error e =>
    dsimp only
    split
    · obtain ⟨es', g1, g2, g3⟩ := Hush.afterReport (W := W) (k := k e) hx sh ks env τ' _ h2 h1
      refine ⟨es ++ es', by rw [g1]; simp, g2, ?_⟩
      rcases h3 with rfl | h3
      · exact g3
      · obtain ⟨e', τ2, he'⟩ := report_raises (I := I) (k := k e) (env := env) h1 h3
        rw [T.bind_error he']
        exact .inr h3
    · exact ⟨es, h1, h2, h3⟩

theorem Hush.onPath {f : P → Except Exc α × P} (h : ∀ p, W.WF p → Same I W.WF W.shape p (f p).2) :
    Hush W (T.onPath f) bad := by
  intro sh ks env τ b ha hb
  obtain ⟨r, p, hp, hw, hk, hs⟩ := ha
  rw [T.onPath_run hp]
  have := h p hw
  exact ⟨[], by simp [hb], ⟨r, _, rfl, this.wf, this.keys.trans hk, this.shape.trans hs⟩, .inl rfl⟩

theorem Hush.value {bad : Val → Prop} : Hush W (T.onPath I.value) bad := .onPath fun _ h => W.value_keys h
theorem Hush.exists_ {bad : Bool → Prop} : Hush W (T.onPath I.exists_) bad := .onPath fun _ h => W.exists_keys h
theorem Hush.isNull {bad : Bool → Prop} : Hush W (T.onPath I.isNull) bad := .onPath fun _ h => W.isNull_keys h
theorem Hush.primitive (ty : PTy) {bad : Val → Prop} : Hush W (T.onPath (I.primitive ty)) bad :=
  .onPath fun _ h => W.primitive_keys h

theorem Hush.withEnv {g : Env → Env} {t : T P α} (h : Hush W t bad) : Hush W (T.withEnv g t) bad := by
  intro sh ks env τ b ha hb
  exact h sh ks (g env) τ b ha hb

theorem Hush.withKey {k : Val} {t : T P α} (h : Hush W t bad) : Hush W (T.withKey I k t) bad := by
  intro sh ks env τ b ha hb
  obtain ⟨r, p, hp, hw, hk, hs⟩ := ha
  unfold T.withKey
  rw [T.onPath_run hp]
  unfold pathAppend
  cases hap : I.append p k with
  | error e => exact ⟨[], by simp [hb], ⟨r, p, rfl, hw, hk, hs⟩, .inl rfl⟩
  | ok q =>
    have hq := W.append_keys hw hap
    obtain ⟨es, h1, ⟨r', q', hp', hw', hk', hs'⟩, h3⟩ := h sh (ks ++ [k]) { env with src := some (!k.isNull) }
      { τ with path := some (some (r, q)) } b
      ⟨r, q, rfl, hq.2, by rw [hq.1, hk], by rw [W.append_shape hw hap, hs]⟩ hb
    dsimp only
    rcases hr : t { env with src := some (!k.isNull) } { τ with path := some (some (r, q)) } with ⟨x, τ1⟩
    rw [hr] at h1 hp' h3
    obtain ⟨q9, hpop, hk9, hw9, hs9⟩ := W.pop_keys hw' hk'
    dsimp only
    rw [T.onPath_run hp']
    unfold pathPop
    rw [hpop]
    exact ⟨es, h1, ⟨r', q9, rfl, hw9, hk9, hs9.trans hs'⟩, h3⟩

end

macro "hush_step" : tactic => `(tactic| with_reducible first
  | assumption
  | exact Hush.pure
  | exact Hush.raise
  | exact Hush.ofExcept
  | exact Hush.ctxGet _ _ | exact Hush.ctxGet? _
  | exact Hush.value | exact Hush.exists_ | exact Hush.isNull | exact Hush.primitive _
  | refine Hush.seq ?_ ?_
  | refine Hush.ite ?_ ?_
  | intro _
  | split
  | dsimp only)

macro "hushes" "[" ts:term,* "]" : tactic => do
  let ts := ts.getElems
  `(tactic| repeat' first $[| with_reducible apply $ts]* | hush_step)

section
variable {P : Type} {I : PathOps P} {W : LawfulPath I} {L : Lib} {C : Classes} {rec : TRec P}

theorem Hush.failWith (m : String) : Hush W (Lex.failWith I m) (·.isMark = true) := .afterReport rfl
theorem Hush.rejectWith (m : String) : Hush W (Lex.rejectWith I m) (· = false) := .afterReport rfl

theorem Hush.missingNotSet : Hush W (Lex.missingNotSet I) (·.isIgnore = true) := by
  unfold Lex.missingNotSet Lex.missing
  exact .seq (.ctxGet _ _) fun _ => .ite (fun _ => .pure) fun _ => .afterReport rfl

theorem Hush.stringValidate (f : Field) (cfg : StrCfg) (v : Val) :
    Hush W (Lex.stringValidate I L f cfg v) (· = false) := by
  unfold Lex.stringValidate
  hushes [Hush.rejectWith]

theorem Hush.rangeValidate (lo hi : Option Val) (a b : Val → Val → String) (v : Val) :
    Hush W (Lex.rangeValidate I L lo hi a b v) (· = false) := by
  unfold Lex.rangeValidate
  hushes [Hush.rejectWith]

theorem Hush.kindValidate {f : Field} (hk : f.kind.leaf = true) (v : Val) :
    Hush W (Lex.kindValidate I L f v) (· = false) := by
  unfold Lex.kindValidate Lex.numberValidate Lex.dateValidate
  refine .bind (bad := (· = false)) ?_ ?_ ?_
  · unfold Lex.baseValidate
    exact .ite (fun _ => .rejectWith _) fun _ => .pure
  · intro a ha
    subst ha
    exact ⟨false, rfl, rfl⟩
  · intro a
    refine .ite (fun _ => .pure) fun _ => .ite (fun _ => .pure) fun _ => ?_
    cases hkind : f.kind <;> first
      | (rw [hkind] at hk; cases hk; done)
      | exact .pure
      | exact .stringValidate _ _ _
      | exact .rangeValidate _ _ _ _ _

theorem Hush.decimalParse : Hush W (Lex.decimalParse I L) (·.isMark = true) := by
  unfold Lex.decimalParse
  hushes [Hush.failWith]

theorem Hush.dateParse (cfg : DateCfg) : Hush W (Lex.dateParse I L cfg) (·.isMark = true) := by
  unfold Lex.dateParse
  hushes [Hush.failWith]

theorem Hush.timeParse (cfg : DateCfg) : Hush W (Lex.timeParse I L cfg) (·.isMark = true) := by
  unfold Lex.timeParse
  hushes [Hush.failWith]

theorem Hush.datetimeParse (cfg : DateCfg) : Hush W (Lex.datetimeParse I L cfg) (·.isMark = true) := by
  unfold Lex.datetimeParse
  hushes [Hush.failWith]

theorem Hush.uuidParse : Hush W (Lex.uuidParse I L) (·.isMark = true) := by
  unfold Lex.uuidParse
  hushes [Hush.failWith]

theorem Hush.codeParse : Hush W (Lex.codeParse I L) (·.isMark = true) := by
  unfold Lex.codeParse
  hushes [Hush.failWith]

theorem Hush.kindParse {f : Field} (hk : f.kind.leaf = true) :
    Hush W (Lex.kindParse I L C rec f) (·.isMark = true) := by
  unfold Lex.kindParse
  cases hkind : f.kind <;> first
    | (rw [hkind] at hk; cases hk; done)
    | exact .decimalParse
    | exact .dateParse _
    | exact .timeParse _
    | exact .datetimeParse _
    | exact .codeParse
    | exact .uuidParse
    | exact .primitive _

theorem Hush.fieldDefault {f : Field} (hf : ValueHooks True f) :
    Hush W (Lex.fieldDefault I L C rec f) (·.isIgnore = true) := by
  unfold Lex.fieldDefault
  refine .seq (.ctxGet _ _) fun ig => .ite (fun _ => .missingNotSet) fun _ => ?_
  rcases hf.default with h | ⟨v, h⟩ <;> rw [h]
  · exact .missingNotSet
  · cases v with
    | const c => cases c <;> first | exact .missingNotSet | exact .pure
    | func id => exact .ofExcept
    | _ => exact .pure

theorem Hush.fieldCompute {f : Field} (hf : ValueHooks True f) (hk : f.kind.leaf = true) :
    Hush W (Lex.fieldCompute I L C rec f) (·.isMark = true) := by
  have h1 := Hush.kindParse (W := W) (L := L) (C := C) (rec := rec) hk
  unfold Lex.fieldCompute
  rw [hf.fieldParse]
  refine .seq .exists_ fun e => .ite (fun _ => .pure) fun _ => .seq .isNull fun n =>
    .ite (fun _ => .pure) fun _ => ?_
  exact Hush.catch (c := fun e => e.isSourceError || e.isValueError) (k := fun e => .invalid e.str) h1 rfl

theorem Hush.callHook1 {h : Hook (Val → Prog)} (hp : h.Wordless) (v : Val) : Mute W (Lex.callHook1 I L C rec h v) := by
  obtain ⟨g, hg⟩ := hp
  unfold Lex.callHook1 Lex.hookTarget
  refine .seq ?_ fun t => ?_
  · cases h.target with
    | none => exact .seq (.ctxGet _ _) fun _ => .pure
    | some t => exact .pure
  · rw [hg]
    cases g v with
    | ok w => exact .pure
    | error e => exact .raise

theorem Hush.mungeStep {f : Field} (hf : f.Wordless) (v : Val) : Mute W (Lex.mungeStep I L C rec f v) := by
  unfold Lex.mungeStep
  refine .seq .ofExcept fun v => .ite (fun _ => .pure) fun _ => ?_
  cases hm : f.core.munge with
  | none => exact .pure
  | some h => exact .callHook1 (hf.munge h hm) v

theorem Hush.filterStep {f : Field} (hf : f.Wordless) (v : Val) : Mute W (Lex.filterStep I L C rec f v) := by
  unfold Lex.filterStep
  refine .ite (fun _ => ?_) fun _ => .pure
  cases hm : f.core.filter with
  | none => exact .pure
  | some h => exact .seq (.callHook1 (hf.filter h hm) v) fun _ => .pure

theorem Hush.validateStep {f : Field} (hf : f.Wordless) (hk : f.kind.leaf = true) (v : Val) :
    Hush W (Lex.validateStep I L C rec f v) (· = false) := by
  unfold Lex.validateStep
  refine .bind (.kindValidate hk v) (fun ok hok => ⟨false, ?_, rfl⟩) fun b => .ite (fun _ => ?_) fun _ => .pure
  · rw [hok]; rfl
  · cases hm : f.core.validate with
    | none => exact .pure
    | some h => exact .seq (.callHook1 (hf.validate h hm) v) fun _ => .pure

theorem Hush.fieldCheck {f : Field} (hf : ValueHooks True f) (hk : f.kind.leaf = true ∧ f.Wordless) (v : Val) :
    Hush W (Lex.fieldCheck I L C rec f v) (·.isIgnore = true) := by
  have hd := Hush.fieldDefault (W := W) (L := L) (C := C) (rec := rec) hf
  unfold Lex.fieldCheck
  refine .seq (.mungeStep hk.2 v) fun w => ?_
  refine .ite (fun _ => hd) fun _ => .ite (fun _ => .pure) fun _ => .seq (.filterStep hk.2 w) fun keep =>
    .ite (fun _ => hd) fun _ => .bind (.validateStep hk.2 hk.1 w) (fun ok hok => ⟨.ERROR, ?_, rfl⟩) fun ok => .pure
  rw [hok]
  rfl

theorem Hush.fieldStart {f : Field} (hf : ValueHooks True f) (hk : f.kind.leaf = true ∧ f.Wordless) :
    Hush W (Lex.fieldStart I L C rec f) (·.isIgnore = true) := by
  have hd := Hush.fieldDefault (W := W) (L := L) (C := C) (rec := rec) hf
  rw [hf.fieldStart]
  refine .bind (.fieldCompute hf hk.1) ?_ ?_
  · intro v hv
    have h1 : v.isNONE = false := by
      cases v with
      | const c => cases c <;> first | rfl | (cases hv; done)
      | _ => rfl
    refine ⟨v, ?_, mark_ignore hv⟩
    rw [h1, mark_ignore hv]
    rfl
  · intro v
    exact .ite (fun _ => hd) fun _ => .ite (fun _ => .pure) fun _ => .fieldCheck hf hk v

theorem Hush.setParent (v : Val) : Mute W (Lex.setParent v : T P Unit) := by
  unfold Lex.setParent
  refine .seq (.ctxGet? _) fun par => ?_
  cases v <;> first | exact .pure | exact .raise | exact .quiet fun _ _ => ⟨rfl, rfl⟩

/-- A field of a single value, with hooks that are functions of the value. -/
theorem Hush.leaf {f : Field} (hf : ValueHooks True f) (hk : f.kind.leaf = true ∧ f.Wordless) (v : Val) :
    Hush W (Lex.mapFieldF I L C rec f v) (·.isIgnore = true) := by
  unfold Lex.mapFieldF Lex.fieldMapInner
  refine .bind (bad := (·.isIgnore = true)) (.withEnv ?_) ?_ fun w => ?_
  · split
    · unfold Lex.withResolve
      rw [hf.resolve]
      have hs := Hush.fieldStart (W := W) (L := L) (C := C) (rec := rec) hf hk
      cases hkind : f.kind <;> first
        | (have := hk.1; rw [hkind] at this; cases this; done)
        | exact .ite (fun _ => hs) fun _ => .withKey hs
    · exact .fieldCheck hf hk v
  · intro w hw
    refine ⟨w, ?_, hw⟩
    rw [hw]
    simp only [Bool.not_true, Bool.and_false, Bool.false_eq_true, if_false]
  · exact .ite (fun _ => .seq (.setParent w) fun _ => .pure) fun _ => .pure

end
end Pilo
