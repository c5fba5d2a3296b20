import Verif.Lax

/-!
# Following a run at another path, with what may be read next

`Lax` relates two runs by one relation between their paths.  For a union the paths are related in more than one way: a
key can be looked up only below a value that was read as a mapping or a sequence, and after a value was read as text or
number it can only be left again (`pilo/source/union.py:39-43,99-116`).  `Follow.Run A B R t u` says: from paths related by
`A`, when `t` ends normally and adds no error then so does `u`, with a result related by `R`, and the paths they leave are
related by `B`.  Used for C107.
-/

namespace Pilo
namespace Follow
open Lax
variable {P : Type} {I : PathOps P} {α β : Type} {A A' B B' D : P → P → Prop} {R : α → α → Prop} {S : β → β → Prop}

/-- Matching states: the paths as related, the same errors and forms. -/
structure Rel (A : P → P → Prop) (τ σ : TSt P) : Prop where
  path : (∀ r p, τ.path ≠ some (some (r, p))) ∧ τ.path = σ.path ∨
    ∃ r p r' q, τ.path = some (some (r, p)) ∧ σ.path = some (some (r', q)) ∧ A p q
  errs : σ.errs = τ.errs
  forms : τ.forms = σ.forms

/-- If the first run is good then so is the second one, with a matching result. -/
def Post (B : P → P → Prop) (R : α → α → Prop) (τ : TSt P) (r r' : Except Exc α × TSt P) : Prop :=
  ∀ a, Good τ r a → ∃ b, r'.1 = .ok b ∧ R a b ∧ Rel B r.2 r'.2

/-- The same for all matching states, below a key that is not `None`. -/
def Run (A B : P → P → Prop) (R : α → α → Prop) (t u : T P α) : Prop :=
  ∀ env τ σ, env.src = some true → Rel A τ σ → Post B R τ (t env τ) (u env σ)

theorem Rel.imp {τ σ : TSt P} (h : Rel A τ σ) (hi : ∀ p q, A p q → A' p q) : Rel A' τ σ :=
  ⟨h.path.imp id fun ⟨r, p, r', q, h1, h2, h3⟩ => ⟨r, p, r', q, h1, h2, hi p q h3⟩, h.errs, h.forms⟩

theorem Run.weaken {R' : α → α → Prop} {t u : T P α} (h : Run A B R t u) (hA : ∀ p q, A' p q → A p q)
    (hB : ∀ p q, B p q → B' p q) (hR : ∀ a b, R a b → R' a b) : Run A' B' R' t u := by
  intro env τ σ he hr a ha
  obtain ⟨b, h1, h2, h3⟩ := h env τ σ he (hr.imp hA) a ha
  exact ⟨b, h1, hR a b h2, h3.imp hB⟩

theorem Run.post {t u : T P α} (h : Run A B R t u) (hB : ∀ p q, B p q → B' p q) : Run A B' R t u :=
  h.weaken (fun _ _ h => h) hB fun _ _ h => h

theorem Run.pre {t u : T P α} (h : Run A B R t u) (hA : ∀ p q, A' p q → A p q) : Run A' B R t u :=
  h.weaken hA (fun _ _ h => h) fun _ _ h => h

theorem Run.bind {t u : T P α} {f g : α → T P β} (hA : Adding t) (h : Run A B R t u) (hfA : ∀ a, Adding (f a))
    (hf : ∀ a b, R a b → Run B D S (f a) (g b)) : Run A D S (t >>= f) (u >>= g) := by
  intro env τ σ hv hr c hc
  have h0 := hA env τ
  have h1 := h env τ σ hv hr
  rcases ht : t env τ with ⟨x, τ'⟩
  rcases hu : u env σ with ⟨y, σ'⟩
  rw [ht] at h0
  rw [ht, hu] at h1
  cases x with
  | error e => rw [T.bind_error ht] at hc; cases hc.1
  | ok a =>
    rw [T.bind_ok ht] at hc ⊢
    have he : τ'.errs = τ.errs := h0.between (hfA a env τ') hc.2
    obtain ⟨b, hb, hR, hrel⟩ := h1 a ⟨rfl, he⟩
    dsimp only at hb hrel
    subst hb
    rw [T.bind_ok hu]
    exact hf a b hR env τ' σ' hv hrel c ⟨hc.1, hc.2.trans he.symm⟩

theorem Run.pure {a b : α} (h : R a b) : Run A A R (T.pure a : T P α) (T.pure b) := by
  rintro env τ σ hv hr c ⟨hc, -⟩
  cases hc
  exact ⟨b, rfl, h, hr⟩

theorem Run.raise (e : Exc) (u : T P α) : Run A B R (T.raise e : T P α) u := by
  rintro env τ σ hv hr c ⟨hc, -⟩
  cases hc

theorem Run.ofExcept (r : Except Exc α) : Run A A Eq (T.ofExcept r : T P α) (T.ofExcept r) := by
  cases r with
  | ok a => exact .pure rfl
  | error e => exact .raise _ _

theorem Run.ite {c : Prop} [Decidable c] {t t' u u' : T P α} (ht : c → Run A B R t t') (hu : ¬c → Run A B R u u') :
    Run A B R (if c then t else u) (if c then t' else u') := by
  split
  · exact ht ‹_›
  · exact hu ‹_›

/-- Depends on the environment and the forms only. -/
theorem Run.state {t : T P α} (h : ∀ env, ∃ (x : List FormObj → Except Exc α) (y : List FormObj → List FormObj),
    ∀ τ, t env τ = (x τ.forms, { τ with forms := y τ.forms })) : Run A A Eq t t := by
  intro env τ σ hv hr a ha
  obtain ⟨x, y, hx⟩ := h env
  rw [hx] at ha ⊢
  rw [hx, ← hr.forms]
  exact ⟨a, ha.1, rfl, hr.path, hr.errs, rfl⟩

theorem Run.ctxGet (proj : Env → Option α) (n : String) : Run A A Eq (T.ctxGet proj n : T P _) (T.ctxGet proj n) :=
  .state fun env => by
    unfold T.ctxGet
    cases proj env with
    | none => exact ⟨fun _ => .error _, fun fs => fs, fun _ => rfl⟩
    | some a => exact ⟨fun _ => .ok a, fun fs => fs, fun _ => rfl⟩

/-- There is a source. -/
theorem Run.ctxSrc : Run A A (fun a b => a = true ∧ b = true) (T.ctxGet Env.src "src" : T P _) (T.ctxGet Env.src "src") := by
  intro env τ σ hv hr a ha
  have h : ∀ ρ : TSt P, (T.ctxGet Env.src "src" : T P _) env ρ = (.ok true, ρ) := fun ρ => by
    unfold T.ctxGet; rw [hv]
  rw [h] at ha ⊢
  rw [h]
  cases ha.1
  exact ⟨true, rfl, ⟨rfl, rfl⟩, hr⟩

theorem Run.ctxGet? (proj : Env → Option α) : Run A A Eq (T.ctxGet? proj : T P _) (T.ctxGet? proj) :=
  .state fun env => ⟨fun _ => .ok (proj env), fun fs => fs, fun _ => rfl⟩

theorem Run.formCls (id : Nat) : Run A A Eq (T.formCls id : T P _) (T.formCls id) :=
  .state fun _ => ⟨fun fs => match fs[id]? with
    | some o => .ok o.cls
    | none => .error (.other "ReferenceError" "dangling form"), fun fs => fs, fun τ => by
      unfold T.formCls
      dsimp only
      split <;> simp [*]⟩

theorem Run.formModify (id : Nat) (g : List (Val × Val) → List (Val × Val)) :
    Run A A Eq (T.formModify id g : T P Unit) (T.formModify id g) :=
  .state fun _ => ⟨fun _ => .ok (), _, fun _ => rfl⟩

theorem Run.formParent (id : Nat) (par : Option Parent) :
    Run A A Eq (T.formParent id par : T P Unit) (T.formParent id par) :=
  .state fun _ => ⟨fun _ => .ok (), _, fun _ => rfl⟩

theorem Run.newForm (cls : Nat) : Run A A Eq (T.newForm cls : T P Nat) (T.newForm cls) :=
  .state fun _ => ⟨fun fs => .ok fs.length, fun fs => fs ++ [{ cls := cls, items := [] }], fun _ => rfl⟩

theorem Rel.setPath {τ σ : TSt P} (h : Rel A τ σ) {r r' : Nat} {p q : P} (hq : B p q) :
    Rel B { τ with path := some (some (r, p)) } { σ with path := some (some (r', q)) } :=
  ⟨.inr ⟨r, p, r', q, rfl, rfl, hq⟩, h.errs, h.forms⟩

theorem onPath_nowhere {f : P → Except Exc α × P} {env : Env} {τ : TSt P} (h : ∀ r p, τ.path ≠ some (some (r, p))) :
    ∃ e, T.onPath f env τ = (.error e, τ) := by
  unfold T.onPath
  split
  · exact ⟨_, rfl⟩
  · exact ⟨_, rfl⟩
  · rename_i r p hp
    exact absurd hp (h r p)

theorem Run.read {f : P → Except Exc α × P}
    (h : ∀ {p q a}, A p q → (f p).1 = .ok a → ∃ b, (f q).1 = .ok b ∧ R a b ∧ B (f p).2 (f q).2) :
    Run A B R (T.onPath f) (T.onPath f) := by
  rintro env τ σ hv hr a ⟨ha, -⟩
  rcases hr.path with ⟨h1, -⟩ | ⟨r, p, r', q, h1, h2, hq⟩
  · obtain ⟨e, he⟩ := onPath_nowhere (f := f) (env := env) h1
    rw [he] at ha
    cases ha
  rw [T.onPath_run h1] at ha ⊢
  rw [T.onPath_run h2]
  obtain ⟨b, h3, h4, h5⟩ := h hq ha
  exact ⟨b, h3, h4, hr.setPath h5⟩

theorem Run.report (k : ErrKind) {u : T P Unit} {R : Unit → Unit → Prop} : Run A B R (T.report I k) u := by
  rintro env τ σ hv hr a ⟨ha, he⟩
  rcases hx : T.report I k env τ with ⟨x, τ'⟩
  rw [hx] at ha he
  replace ha : x = .ok a := ha
  subst ha
  exact absurd he (report_more hx)

/-- Reporting an error is not a good end. -/
theorem Run.failWith (m : String) {u : T P Val} {R : Val → Val → Prop} : Run A B R (Lex.failWith I m) u := by
  rintro env τ σ hv hr a ⟨ha, he⟩
  rcases hx : Lex.failWith I m env τ with ⟨x, τ'⟩
  rw [hx] at ha he
  replace ha : x = .ok a := ha
  subst ha
  exact absurd he (fails_report hx).2

/-- A handler that never ends well. -/
theorem Run.tryCatch {t u : T P α} {g h : Exc → T P α} (hA : Adding t) (ht : Run A B R t u)
    (hg : ∀ e env (τ : TSt P) a τ', g e env τ = (.ok a, τ') → More τ.errs τ'.errs ∧ τ'.errs ≠ τ.errs) :
    Run A B R (T.tryCatch t g) (T.tryCatch u h) := by
  intro env τ σ hv hr a ha
  have h0 := hA env τ
  have h1 := ht env τ σ hv hr
  unfold T.tryCatch at ha ⊢
  rcases hx : t env τ with ⟨x, τ'⟩
  rcases hy : u env σ with ⟨y, σ'⟩
  rw [hx] at ha h0
  rw [hx, hy] at h1
  cases x with
  | ok b =>
    obtain ⟨c, h2, h3, h4⟩ := h1 a ha
    dsimp only at h2
    subst h2
    exact ⟨c, rfl, h3, h4⟩
  | error e =>
    dsimp only at ha
    rcases hz : g e env τ' with ⟨z, τ2⟩
    rw [hz] at ha
    obtain ⟨h2, h3⟩ := ha
    dsimp only at h2 h3
    subst h2
    obtain ⟨h4, h5⟩ := hg e env τ' a τ2 hz
    exact absurd (h3.trans (h0.between h4 h3).symm) h5

theorem Run.compute {t u : T P Val} {R : Val → Val → Prop} (hA : Adding t) (h : Run A B R t u) : Run A B R
    (T.tryCatch t fun e => if e.isSourceError || e.isValueError then Lex.failWith I e.str else T.raise e)
    (T.tryCatch u fun e => if e.isSourceError || e.isValueError then Lex.failWith I e.str else T.raise e) := by
  refine .tryCatch hA h fun e env τ a τ' hg => ?_
  split at hg
  · exact fails_report hg
  · cases hg

theorem Run.withEnv (g : Env → Env) (hg : ∀ env, (g env).src = env.src) {t u : T P α} (h : Run A B R t u) :
    Run A B R (T.withEnv g t) (T.withEnv g u) :=
  fun env τ σ hv hr => h (g env) τ σ ((hg env).trans hv) hr

theorem Run.withKey {k : Val} (hk : k.isNull = false) {t u : T P α}
    (happ : ∀ {p q p'}, A p q → I.append p k = .ok p' → ∃ q', I.append q k = .ok q' ∧ A' p' q')
    (hpop : ∀ {p q p'}, B' p q → I.pop p = .ok p' → ∃ q', I.pop q = .ok q' ∧ B p' q')
    (h : Run A' B' R t u) : Run A B R (T.withKey I k t) (T.withKey I k u) := by
  intro env τ σ hv hr c hc
  unfold T.withKey at hc ⊢
  rcases hr.path with ⟨h1, -⟩ | ⟨r, p, r', q, h1, h2, hq⟩
  · obtain ⟨e, he⟩ := onPath_nowhere (f := pathAppend I k) (env := env) h1
    rw [he] at hc
    cases hc.1
  rw [T.onPath_run h1] at hc ⊢
  rw [T.onPath_run h2]
  cases hp : I.append p k with
  | error e => simp only [pathAppend, hp] at hc; cases hc.1
  | ok p' =>
    obtain ⟨q', hq1, hq2⟩ := happ hq hp
    simp only [pathAppend, hp, hq1] at hc ⊢
    have h3 := h { env with src := some (!k.isNull) } _ _ (by rw [hk]; rfl) (hr.setPath (r := r) (r' := r') hq2)
    rcases ht : t { env with src := some (!k.isNull) } { τ with path := some (some (r, p')) } with ⟨x, τ'⟩
    rcases hu : u { env with src := some (!k.isNull) } { σ with path := some (some (r', q')) } with ⟨y, σ'⟩
    rw [ht, hu] at h3
    rw [ht] at hc
    dsimp only at hc ⊢
    have h4 := onPath_errs (pathPop I) env τ'
    rcases hpop' : T.onPath (pathPop I) env τ' with ⟨z, τ3⟩
    rw [hpop'] at hc h4
    dsimp only at h4
    cases z with
    | error e => cases hc.1
    | ok w =>
      dsimp only at hc
      obtain ⟨hc1, hc2⟩ := hc
      dsimp only at hc1 hc2
      obtain ⟨b, h5, h6, h7⟩ := h3 c ⟨hc1, h4.symm.trans hc2⟩
      dsimp only at h5 h7
      subst h5
      rcases h7.path with ⟨g1, -⟩ | ⟨s, a, s', a', g1, g2, gq⟩
      · obtain ⟨e, he⟩ := onPath_nowhere (f := pathPop I) (env := env) g1
        rw [he] at hpop'
        cases hpop'
      rw [T.onPath_run g1] at hpop'
      rw [T.onPath_run g2]
      cases ha : I.pop a with
      | error e => simp only [pathPop, ha] at hpop'; cases hpop'
      | ok a2 =>
        obtain ⟨b2, g3, g4⟩ := hpop gq ha
        simp only [pathPop, ha] at hpop'
        cases hpop'
        simp only [pathPop, g3]
        exact ⟨b, rfl, h6, h7.setPath g4⟩

/-- Under a new error list. -/
theorem Run.nested {t u : T P Unit} {k k' : Bool → T P β} {b : Bool} (hA : Adding t) (h : Run A B Eq t u)
    (hkA : ∀ b, Adding (k b)) (hk : Run B D S (k true) (k' true)) :
    Run A D S (T.withErrs b t >>= fun x => T.extend x.2 >>= fun _ => k x.2.isEmpty)
      (T.withErrs b u >>= fun x => T.extend x.2 >>= fun _ => k' x.2.isEmpty) := by
  intro env τ σ hv hr c hc
  have h0 := hA env { τ with errs := some { raising := b, items := [] } }
  have h1 := h env { τ with errs := some { raising := b, items := [] } } { σ with errs := some { raising := b, items := [] } }
    hv ⟨hr.path, rfl, hr.forms⟩
  rcases ht : t env { τ with errs := some { raising := b, items := [] } } with ⟨x, τ'⟩
  rcases hu : u env { σ with errs := some { raising := b, items := [] } } with ⟨y, σ'⟩
  rw [ht] at h0
  rw [ht, hu] at h1
  cases x with
  | error e =>
    have e1 : T.withErrs b t env τ = (.error e, { τ' with errs := τ.errs }) := by unfold T.withErrs; rw [ht]
    rw [T.bind_error e1] at hc
    cases hc.1
  | ok a =>
    have e1 : T.withErrs b t env τ = (.ok (a, τ'.errs.elim [] ErrBuf.items), { τ' with errs := τ.errs }) := by
      unfold T.withErrs; rw [ht]
    rw [T.bind_ok e1] at hc ⊢
    dsimp only at hc h0
    obtain ⟨buf, he⟩ : ∃ buf, τ'.errs = some buf := by
      cases he : τ'.errs with
      | none => rw [he] at h0; exact h0.elim
      | some buf => exact ⟨buf, rfl⟩
    rw [he] at h0
    obtain ⟨hb1, es, hb2⟩ := h0
    dsimp only at hb1 hb2
    rw [List.nil_append] at hb2
    have e2 : ∀ (zs : List Err) (ρ : TSt P), (∃ e, (T.extend zs : T P Unit) env ρ = (.error e, ρ) ∧ ρ.errs = none) ∨
        ∃ b, ρ.errs = some b ∧ (T.extend zs : T P Unit) env ρ = (.ok (), { ρ with errs := some { b with items := b.items ++ zs } }) := by
      intro zs ρ
      unfold T.extend
      cases ρ.errs with
      | none => exact .inl ⟨_, rfl, rfl⟩
      | some b => exact .inr ⟨b, rfl, rfl⟩
    rcases e2 (τ'.errs.elim [] ErrBuf.items) { τ' with errs := τ.errs } with ⟨e, e3, -⟩ | ⟨b0, hb0, e3⟩
    · rw [T.bind_error e3] at hc; cases hc.1
    rw [T.bind_ok e3] at hc ⊢
    dsimp only at hb0 hc ⊢
    have hm : More τ.errs (some { b0 with items := b0.items ++ τ'.errs.elim [] ErrBuf.items }) := by
      rw [hb0]; exact ⟨rfl, _, rfl⟩
    have hsame := hm.between (hkA _ env { τ' with errs := _ }) hc.2
    have hnil : es = [] := by
      rw [hb0, he] at hsame
      have := congrArg (fun o : Option ErrBuf => (o.elim [] ErrBuf.items).length) hsame
      simp [hb2] at this
      exact this
    subst hnil
    have hbuf : buf = { raising := b, items := [] } := by cases buf; simp_all
    obtain ⟨b', h2, -, h4⟩ := h1 a ⟨rfl, by rw [he, hbuf]⟩
    dsimp only at h2 h4
    subst h2
    have hes : σ'.errs = some buf := h4.errs.trans he
    have e4 : T.withErrs b u env σ = (.ok (b', σ'.errs.elim [] ErrBuf.items), { σ' with errs := σ.errs }) := by
      unfold T.withErrs; rw [hu]
    rw [T.bind_ok e4]
    dsimp only
    rcases e2 (σ'.errs.elim [] ErrBuf.items) { σ' with errs := σ.errs } with ⟨e, -, e5⟩ | ⟨b1, hb1', e5⟩
    · dsimp only at e5
      rw [hr.errs, hb0] at e5; cases e5
    rw [T.bind_ok e5]
    dsimp only at hb1'
    have hbb : b1 = b0 := by rw [hr.errs, hb0] at hb1'; cases hb1'; rfl
    subst hbb
    rw [he] at hc ⊢
    rw [hes]
    simp only [hbuf, Option.elim, List.append_nil, List.isEmpty_nil] at hc ⊢
    exact hk env { τ' with errs := some b1 } { σ' with errs := some b1 } hv ⟨h4.path, rfl, h4.forms⟩ c
      ⟨hc.1, hc.2.trans hb0⟩

/-- At a source related to the other one, under a new error list. -/
theorem Run.start {b : Bool} {p q : P} (hq : A p q) {t u : T P α} (h : Run A B R t u) {env : Env} {τ σ : TSt P}
    {a : α} (hf : τ.forms = σ.forms) {τ' : TSt P} (ht : T.withErrs b (T.withSource (.ok p) t) env τ = (.ok (a, []), τ'))
    (hA : Adding t) :
    ∃ a' σ', T.withErrs b (T.withSource (.ok q) u) env σ = (.ok (a', []), σ') ∧ R a a' ∧ τ'.forms = σ'.forms := by
  unfold T.withErrs T.withSource at ht ⊢
  dsimp only at ht ⊢
  have h0 := hA { env with src := some true }
    { τ with path := some (some (τ.npaths, p)), npaths := τ.npaths + 1, errs := some { raising := b, items := [] } }
  have h1 := h { env with src := some true }
    { τ with path := some (some (τ.npaths, p)), npaths := τ.npaths + 1, errs := some { raising := b, items := [] } }
    { σ with path := some (some (σ.npaths, q)), npaths := σ.npaths + 1, errs := some { raising := b, items := [] } } rfl
    ⟨.inr ⟨_, p, _, q, rfl, rfl, hq⟩, rfl, hf⟩
  generalize t { env with src := some true } _ = x at h0 h1 ht
  generalize u { env with src := some true } _ = y at h1 ⊢
  obtain ⟨x, τ1⟩ := x
  obtain ⟨y, σ1⟩ := y
  cases x with
  | error e => cases ht
  | ok c =>
    dsimp only at ht h0
    have hc : c = a ∧ τ1.errs.elim [] ErrBuf.items = [] ∧ τ'.forms = τ1.forms := by
      obtain ⟨h2, h3⟩ := Prod.mk.inj ht
      obtain ⟨h4, h5⟩ := Prod.mk.inj (Except.ok.inj h2)
      exact ⟨h4, h5, h3 ▸ rfl⟩
    obtain ⟨rfl, he, hf'⟩ := hc
    rcases hb : τ1.errs with _ | buf
    · rw [hb] at h0; exact h0.elim
    rw [hb] at h0 he
    have hbuf : buf = { raising := b, items := [] } := by
      have he : buf.items = [] := he
      have h0 : buf.raising = b := h0.1
      cases buf; simp_all
    obtain ⟨b', h2, h3, h4⟩ := h1 c ⟨rfl, by rw [hb, hbuf]⟩
    dsimp only at h2 h4
    subst h2
    refine ⟨b', { σ1 with path := σ.path, errs := σ.errs }, ?_, h3, hf'.trans h4.forms⟩
    dsimp only
    rw [h4.errs, hb, hbuf]
    rfl

/-! ### Computations that leave the path alone

For these the relation between the paths does not matter.  They are the same at `shut I`, where nothing can be read, and
there every relation is a `PathLax`. -/

/-- The same texts of paths, but nothing can be read and no key appended. -/
def shut (I : PathOps P) : PathOps P where
  keys _ := []
  render := I.render
  append _ _ := .error (.other "Shut" "")
  pop _ := .error (.other "Shut" "")
  value p := (.error (.other "Shut" ""), p)
  exists_ p := (.error (.other "Shut" ""), p)
  isNull p := (.error (.other "Shut" ""), p)
  mapping p := (.error (.other "Shut" ""), p)
  sequence p := (.error (.other "Shut" ""), p)
  primitive _ p := (.error (.other "Shut" ""), p)
  hasSrc _ := true
  joinPath _ := none
  native := I.native

def shutLawful (I : PathOps P) : LawfulPath (shut I) where
  WF _ := True
  Shape := P
  shape p := p
  text p _ := I.render p
  render_text _ := rfl
  append_shape _ h := by cases h
  append_back _ _ h := by simp [shut] at h
  append_keys _ h := by cases h
  pop_keys _ h := by simp [shut] at h
  value_keys _ := ⟨rfl, trivial, rfl⟩
  exists_keys _ := ⟨rfl, trivial, rfl⟩
  isNull_keys _ := ⟨rfl, trivial, rfl⟩
  mapping_keys _ := ⟨rfl, trivial, rfl⟩
  sequence_keys _ := ⟨rfl, trivial, rfl⟩
  primitive_keys _ := ⟨rfl, trivial, rfl⟩
  joinPath_wf _ h := by cases h
  native_wf := trivial
  native_keys := rfl

/-- Any relation at all. -/
def shutLax (I : PathOps P) (A : P → P → Prop) : PathLax (shut I) (shutLawful I) where
  Q d p q := A p q ∧ d = 0
  wf _ := trivial
  value _ h := by cases h
  exists_ _ h := by cases h
  isNull _ h := by cases h
  mapping _ h := by cases h
  sequence h := ⟨rfl, h⟩
  primitive _ h := by cases h
  hasSrc _ := rfl
  joinPath _ := rfl
  append _ h := by cases h
  pop _ h := by cases h

theorem Run.ofShut {t : T P α} (h : Lax.Run (shutLax I A) Eq t t) : Run A A Eq t t := by
  intro env τ σ hv hr a ha
  have hp : Lax.Rel (shutLax I A) 0 τ σ := by
    refine ⟨?_, hr.errs, hr.forms⟩
    rcases hr.path with ⟨h1, h2⟩ | ⟨r, p, r', q, h1, h2, h3⟩
    · rw [← h2]
      rcases hτ : τ.path with _ | _ | ⟨r, p⟩
      · trivial
      · trivial
      · exact absurd hτ (h1 r p)
    · rw [h1, h2]; exact ⟨h3, rfl⟩
  obtain ⟨b, g1, g2, g3⟩ := h 0 env τ σ hp a ha
  refine ⟨b, g1, g2, ?_, g3.errs, g3.forms⟩
  rcases g3.paths with ⟨k1, k2⟩ | ⟨k1, k2⟩ | ⟨r, p, r', q, k1, k2, k3⟩
  · exact .inl ⟨fun r p h => (by rw [k1] at h; cases h), k1.trans k2.symm⟩
  · exact .inl ⟨fun r p h => (by rw [k1] at h; cases h), k1.trans k2.symm⟩
  · exact .inr ⟨r, p, r', q, k1, k2, k3.1⟩

variable {L : Lib} {C : Classes} {rec : TRec P}

theorem fieldDefault_shut {f : Field} (hf : ValueHooks True f) :
    Lex.fieldDefault I L C rec f = Lex.fieldDefault (shut I) L C rec f := by
  unfold Lex.fieldDefault
  rcases hf.default with h | ⟨v, h⟩ <;> rw [h]
  · rfl
  · cases v with
    | const c => cases c <;> rfl
    | _ => rfl

theorem fieldCheck_shut {f : Field} (hf : ValueHooks True f) (v : Val) :
    Lex.fieldCheck I L C rec f v = Lex.fieldCheck (shut I) L C rec f v := by
  have hc : ∀ h : Hook (Val → Prog), h.Pure True → Lex.callHook1 I L C rec h = Lex.callHook1 (shut I) L C rec h := by
    rintro h ⟨-, g, hg⟩
    funext v
    unfold Lex.callHook1
    congr 1
    funext t
    rw [hg]
    induction (g v).1 with
    | nil => cases (g v).2 <;> rfl
    | cons m ms ih =>
      show T.bind _ (fun _ => Lex.evalProg I L C rec (Prog.saying ms (g v).2)) =
        T.bind _ (fun _ => Lex.evalProg (shut I) L C rec (Prog.saying ms (g v).2))
      rw [ih]
      rfl
  have h1 : Lex.mungeStep I L C rec f = Lex.mungeStep (shut I) L C rec f := by
    funext v
    unfold Lex.mungeStep
    cases hm : f.core.munge with
    | none => rfl
    | some h => simp only [hc h (hf.munge h hm)]
  have h2 : Lex.filterStep I L C rec f = Lex.filterStep (shut I) L C rec f := by
    funext v
    unfold Lex.filterStep
    cases hm : f.core.filter with
    | none => rfl
    | some h => simp only [hc h (hf.filter h hm)]
  have h3 : Lex.validateStep I L C rec f = Lex.validateStep (shut I) L C rec f := by
    funext v
    unfold Lex.validateStep
    cases hm : f.core.validate with
    | none => rfl
    | some h => simp only [hc h (hf.validate h hm)]; rfl
  unfold Lex.fieldCheck
  rw [fieldDefault_shut hf, h1, h2, h3]

theorem Run.fieldDefault {f : Field} (hf : ValueHooks True f) :
    Run A A Eq (Lex.fieldDefault I L C rec f) (Lex.fieldDefault I L C rec f) := by
  rw [fieldDefault_shut hf]
  exact .ofShut ((Closed.fieldDefault (K := Lax.closed (shutLawful I) L C) hf).2.2 _)

theorem Run.fieldCheck {f : Field} (hf : ValueHooks True f) (v : Val) :
    Run A A Eq (Lex.fieldCheck I L C rec f v) (Lex.fieldCheck I L C rec f v) := by
  rw [fieldCheck_shut hf]
  exact .ofShut ((Closed.fieldCheck (K := Lax.closed (shutLawful I) L C) hf v).2.2 _)

end Follow
end Pilo
