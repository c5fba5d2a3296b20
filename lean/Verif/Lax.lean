import Verif.Twin

/-!
# What one source accepts, the other accepts alike

`Twin` relates runs at paths that read alike.  Here the second path may read more than the first: `PathLax` says that
whatever the first path reads the second one reads too, and `Lax` that a computation which ends normally at the first
path, without adding an error, does the same at the second one.  Used for strict and lenient JSON (C95).
-/

namespace Pilo
variable {P : Type} {I : PathOps P}

/-- A relation between paths: what is read at the first is read at the second.  The number is how many keys may be
taken off. -/
structure PathLax (I : PathOps P) (W : LawfulPath I) where
  Q : Nat → P → P → Prop
  wf : ∀ {d p q}, Q d p q → W.WF p
  value : ∀ {d p q a}, Q d p q → (I.value p).1 = .ok a → (I.value q).1 = .ok a ∧ Q d (I.value p).2 (I.value q).2
  exists_ : ∀ {d p q a}, Q d p q → (I.exists_ p).1 = .ok a →
    (I.exists_ q).1 = .ok a ∧ Q d (I.exists_ p).2 (I.exists_ q).2
  isNull : ∀ {d p q a}, Q d p q → (I.isNull p).1 = .ok a → (I.isNull q).1 = .ok a ∧ Q d (I.isNull p).2 (I.isNull q).2
  mapping : ∀ {d p q a}, Q d p q → (I.mapping p).1 = .ok a →
    (I.mapping q).1 = .ok a ∧ Q d (I.mapping p).2 (I.mapping q).2
  sequence : ∀ {d p q}, Q d p q → (I.sequence q).1 = (I.sequence p).1 ∧ Q d (I.sequence p).2 (I.sequence q).2
  primitive : ∀ {d p q ty a}, Q d p q → (I.primitive ty p).1 = .ok a →
    (I.primitive ty q).1 = .ok a ∧ Q d (I.primitive ty p).2 (I.primitive ty q).2
  hasSrc : ∀ {d p q}, Q d p q → I.hasSrc q = I.hasSrc p
  joinPath : ∀ {d p q}, Q d p q → I.joinPath q = I.joinPath p
  append : ∀ {d p q k p'}, Q d p q → I.append p k = .ok p' → ∃ q', I.append q k = .ok q' ∧ Q (d + 1) p' q'
  pop : ∀ {d p q p'}, Q (d + 1) p q → I.pop p = .ok p' → ∃ q', I.pop q = .ok q' ∧ Q d p' q'

/-- The same path. -/
def PathLax.same (W : LawfulPath I) : PathLax I W where
  Q d p q := p = q ∧ W.WF p ∧ d ≤ (I.keys p).length
  wf h := h.2.1
  value := by
    rintro d p q a ⟨rfl, h, hd⟩ ha
    have hs := W.value_keys h
    exact ⟨ha, rfl, hs.wf, hs.keys ▸ hd⟩
  exists_ := by
    rintro d p q a ⟨rfl, h, hd⟩ ha
    have hs := W.exists_keys h
    exact ⟨ha, rfl, hs.wf, hs.keys ▸ hd⟩
  isNull := by
    rintro d p q a ⟨rfl, h, hd⟩ ha
    have hs := W.isNull_keys h
    exact ⟨ha, rfl, hs.wf, hs.keys ▸ hd⟩
  mapping := by
    rintro d p q a ⟨rfl, h, hd⟩ ha
    have hs := W.mapping_keys h
    exact ⟨ha, rfl, hs.wf, hs.keys ▸ hd⟩
  sequence := by
    rintro d p q ⟨rfl, h, hd⟩
    have hs := W.sequence_keys h
    exact ⟨rfl, rfl, hs.wf, hs.keys ▸ hd⟩
  primitive := by
    rintro d p q ty a ⟨rfl, h, hd⟩ ha
    have hs := W.primitive_keys (ty := ty) h
    exact ⟨ha, rfl, hs.wf, hs.keys ▸ hd⟩
  hasSrc := by rintro d p q ⟨rfl, -⟩; rfl
  joinPath := by rintro d p q ⟨rfl, -⟩; rfl
  append := by
    rintro d p q k p' ⟨rfl, h, hd⟩ ha
    obtain ⟨h1, h2⟩ := W.append_keys h ha
    exact ⟨p', ha, rfl, h2, by rw [h1]; simp; exact hd⟩
  pop := by
    rintro d p q p' ⟨rfl, h, hd⟩ hp
    rcases List.eq_nil_or_concat (I.keys p) with h0 | ⟨ks, k, hk⟩
    · rw [h0] at hd; simp at hd
    · rw [List.concat_eq_append] at hk
      obtain ⟨q, h1, h2, h3, -⟩ := W.pop_keys h hk
      rw [hp] at h1
      cases h1
      refine ⟨p', hp, rfl, h3, ?_⟩
      rw [hk] at hd
      rw [h2]
      simpa using hd

namespace Lax
open Twin
variable {W : LawfulPath I} {Y : PathLax I W} {α β : Type} {R : α → α → Prop} {S : β → β → Prop}

/-- Errors are only added. -/
def More (x y : Option ErrBuf) : Prop :=
  match x, y with
  | none, none => True
  | some b, some c => c.raising = b.raising ∧ ∃ es, c.items = b.items ++ es
  | _, _ => False

theorem More.refl (x : Option ErrBuf) : More x x := by
  cases x with
  | none => trivial
  | some b => exact ⟨rfl, [], (List.append_nil _).symm⟩

theorem More.trans {x y z : Option ErrBuf} (h : More x y) (h' : More y z) : More x z := by
  rcases x with _ | b <;> rcases y with _ | c <;> rcases z with _ | e <;> try first | exact h.elim | exact h'.elim
  · trivial
  · obtain ⟨h1, es, h2⟩ := h
    obtain ⟨h3, es', h4⟩ := h'
    exact ⟨h3.trans h1, es ++ es', by rw [h4, h2, List.append_assoc]⟩

/-- If nothing was added in the end then nothing was added in between. -/
theorem More.between {x y z : Option ErrBuf} (h : More x y) (h' : More y z) (hz : z = x) : y = x := by
  subst hz
  rcases y with _ | c <;> rcases z with _ | e <;> try first | exact h.elim | exact h'.elim
  · rfl
  · obtain ⟨h1, es, h2⟩ := h
    obtain ⟨h3, es', h4⟩ := h'
    have : es = [] := by
      have := congrArg List.length h4
      rw [h2] at this
      simp only [List.length_append] at this
      exact List.eq_nil_of_length_eq_zero (by omega)
    rw [this, List.append_nil] at h2
    cases c; cases e
    simp_all

/-- The computation only adds errors. -/
def Adding (t : T P α) : Prop := ∀ env τ, More τ.errs (t env τ).2.errs

theorem Adding.bind {t : T P α} {f : α → T P β} (h : Adding t) (hf : ∀ a, Adding (f a)) : Adding (t >>= f) := by
  intro env τ
  have h1 := h env τ
  rcases ht : t env τ with ⟨x, τ'⟩
  rw [ht] at h1
  cases x with
  | error e => rw [T.bind_error ht]; exact h1
  | ok a => rw [T.bind_ok ht]; exact h1.trans (hf a env τ')

theorem Adding.same {t : T P α} (h : ∀ env τ, (t env τ).2.errs = τ.errs) : Adding t :=
  fun env τ => by rw [h env τ]; exact .refl _

theorem Adding.pure (a : α) : Adding (T.pure a : T P α) := .same fun _ _ => rfl

theorem Adding.raise (e : Exc) : Adding (T.raise e : T P α) := .same fun _ _ => rfl

theorem onPath_errs (f : P → Except Exc α × P) (env : Env) (τ : TSt P) : (T.onPath f env τ).2.errs = τ.errs := by
  unfold T.onPath
  split <;> rfl

theorem Adding.onPath (f : P → Except Exc α × P) : Adding (T.onPath f) := .same fun env τ => onPath_errs f env τ

theorem Adding.ctxGet (proj : Env → Option α) (n : String) : Adding (T.ctxGet proj n : T P α) :=
  .same fun env τ => by unfold T.ctxGet; split <;> rfl

theorem Adding.pathText : Adding (T.pathText I) :=
  .same fun env τ => by
    unfold T.pathText
    split
    · rfl
    · rfl
    · split <;> rfl

theorem Adding.errsBound : Adding (T.errsBound : T P Unit) :=
  .same fun env τ => by unfold T.errsBound; split <;> rfl

theorem Adding.record (e : Err) : Adding (T.record e : T P Unit) := by
  intro env τ
  unfold T.record
  split
  · rename_i h; rw [h]; trivial
  · rename_i b h; rw [h]; exact ⟨rfl, [e], rfl⟩

theorem Adding.extend (es : List Err) : Adding (T.extend es : T P Unit) := by
  intro env τ
  unfold T.extend
  split
  · rename_i h; rw [h]; trivial
  · rename_i b h; rw [h]; exact ⟨rfl, es, rfl⟩

theorem Adding.report (k : ErrKind) : Adding (T.report I k) :=
  .bind .errsBound fun _ => .bind (.ctxGet _ _) fun _ => .bind .pathText fun _ => .record _

theorem Adding.tryCatch {t : T P α} {g : Exc → T P α} (h : Adding t) (hg : ∀ e, Adding (g e)) :
    Adding (T.tryCatch t g) := by
  intro env τ
  have h1 := h env τ
  unfold T.tryCatch
  rcases ht : t env τ with ⟨x, τ'⟩
  rw [ht] at h1
  cases x with
  | ok a => exact h1
  | error e => exact h1.trans (hg e env τ')

theorem Adding.ite {c : Prop} [Decidable c] {t u : T P α} (ht : Adding t) (hu : Adding u) : Adding (if c then t else u) := by
  split
  · exact ht
  · exact hu

theorem Adding.withEnv (g : Env → Env) {t : T P α} (h : Adding t) : Adding (T.withEnv g t) := fun env τ => h (g env) τ

theorem Adding.withKey {k : Val} {t : T P α} (h : Adding t) : Adding (T.withKey I k t) := by
  intro env τ
  unfold T.withKey
  have h1 := onPath_errs (pathAppend I k) env τ
  rcases hx : T.onPath (pathAppend I k) env τ with ⟨x, τ1⟩
  rw [hx] at h1
  replace h1 : τ1.errs = τ.errs := h1
  cases x with
  | error e => show More τ.errs τ1.errs; rw [h1]; exact .refl _
  | ok a =>
    dsimp only
    have h2 := h { env with src := some (!k.isNull) } τ1
    rcases hy : t { env with src := some (!k.isNull) } τ1 with ⟨y, τ2⟩
    rw [hy] at h2
    have h3 := onPath_errs (pathPop I) env τ2
    rcases hz : T.onPath (pathPop I) env τ2 with ⟨z, τ3⟩
    rw [hz] at h3
    replace h3 : τ3.errs = τ2.errs := h3
    rw [← h1]
    replace h2 : More τ1.errs τ2.errs := h2
    rw [← h3] at h2
    cases z with
    | error e => exact h2
    | ok a => exact h2

theorem Adding.withErrs (b : Bool) (t : T P α) : Adding (T.withErrs b t) :=
  .same fun env τ => by
    unfold T.withErrs
    split <;> rfl

theorem Adding.withSource {mk : Except Exc P} {t : T P α} (h : Adding t) : Adding (T.withSource mk t) := by
  intro env τ
  unfold T.withSource
  cases mk with
  | error e => exact .refl _
  | ok p => exact h { env with src := some true } { τ with path := some (some (τ.npaths, p)), npaths := τ.npaths + 1 }

theorem Adding.formCls (id : Nat) : Adding (T.formCls id : T P Nat) :=
  .same fun env τ => by unfold T.formCls; split <;> rfl

/-- Reporting an error that is not raised is adding one. -/
theorem report_more {k : ErrKind} {env : Env} {τ τ' : TSt P} {x : Unit} (h : T.report I k env τ = (.ok x, τ')) :
    τ'.errs ≠ τ.errs := by
  unfold T.report at h
  have e1 : (∃ e, (T.errsBound : T P Unit) env τ = (.error e, τ)) ∨ (T.errsBound : T P Unit) env τ = (.ok (), τ) := by
    unfold T.errsBound
    split
    · exact .inl ⟨_, rfl⟩
    · exact .inr rfl
  rcases e1 with ⟨e, e1⟩ | e1
  · rw [T.bind_error e1] at h; cases h
  rw [T.bind_ok e1] at h
  have e2 : (∃ e, (T.ctxGet Env.field "field" : T P _) env τ = (.error e, τ)) ∨
      ∃ a, (T.ctxGet Env.field "field" : T P _) env τ = (.ok a, τ) := by
    unfold T.ctxGet
    split
    · exact .inr ⟨_, rfl⟩
    · exact .inl ⟨_, rfl⟩
  rcases e2 with ⟨e, e2⟩ | ⟨fld, e2⟩
  · rw [T.bind_error e2] at h; cases h
  rw [T.bind_ok e2] at h
  have e3 : (∃ e, T.pathText I env τ = (.error e, τ)) ∨ ∃ a, T.pathText I env τ = (.ok a, τ) := by
    unfold T.pathText
    split
    · exact .inl ⟨_, rfl⟩
    · exact .inr ⟨_, rfl⟩
    · split
      · exact .inr ⟨_, rfl⟩
      · exact .inl ⟨_, rfl⟩
  rcases e3 with ⟨e, e3⟩ | ⟨txt, e3⟩
  · rw [T.bind_error e3] at h; cases h
  rw [T.bind_ok e3] at h
  obtain ⟨text, pr⟩ := txt
  dsimp only at h
  unfold T.record at h
  split at h
  · cases h
  · rename_i b hb
    have h' := congrArg (fun r : Except Exc Unit × TSt P => r.2.errs) h
    dsimp only at h'
    rw [← h', hb]
    intro hc
    have := congrArg (fun o : Option ErrBuf => (o.elim [] ErrBuf.items).length) hc
    simp at this

/-- Matching states: the paths as related, the same errors and forms. -/
structure Rel (Y : PathLax I W) (d : Nat) (τ σ : TSt P) : Prop where
  path : match τ.path, σ.path with
    | none, none => True
    | some none, some none => True
    | some (some (_, p)), some (some (_, q)) => Y.Q d p q
    | _, _ => False
  errs : σ.errs = τ.errs
  forms : τ.forms = σ.forms

/-- The outcome of the first run is good: a normal end and no new error. -/
def Good (τ : TSt P) (r : Except Exc α × TSt P) (a : α) : Prop := r.1 = .ok a ∧ r.2.errs = τ.errs

/-- If the first run is good then so is the second one, with a matching result. -/
def Post (Y : PathLax I W) (R : α → α → Prop) (d : Nat) (τ : TSt P) (r r' : Except Exc α × TSt P) : Prop :=
  ∀ a, Good τ r a → ∃ b, r'.1 = .ok b ∧ R a b ∧ Rel Y d r.2 r'.2

/-- The same for all matching states. -/
def Run (Y : PathLax I W) (R : α → α → Prop) (t u : T P α) : Prop :=
  ∀ d env τ σ, Rel Y d τ σ → Post Y R d τ (t env τ) (u env σ)

theorem Run.bind {t u : T P α} {f g : α → T P β} (hA : Adding t) (h : Run Y R t u) (hfA : ∀ a, Adding (f a))
    (hf : ∀ a b, R a b → Run Y S (f a) (g b)) : Run Y S (t >>= f) (u >>= g) := by
  intro d env τ σ hr c hc
  have h0 := hA env τ
  have h1 := h d env τ σ hr
  rcases ht : t env τ with ⟨x, τ'⟩
  rcases hu : u env σ with ⟨y, σ'⟩
  rw [ht] at h0
  rw [ht, hu] at h1
  cases x with
  | error e => rw [T.bind_error ht] at hc; cases hc.1
  | ok a =>
    rw [T.bind_ok ht] at hc ⊢
    have he : τ'.errs = τ.errs := h0.between (hfA a env τ') hc.2
    obtain ⟨b, hb, hR, hrel⟩ := h1 a ⟨rfl, he⟩
    dsimp only at hb hrel
    subst hb
    rw [T.bind_ok hu]
    exact hf a b hR d env τ' σ' hrel c ⟨hc.1, hc.2.trans he.symm⟩

theorem Run.pure {a b : α} (h : R a b) : Run Y R (T.pure a : T P α) (T.pure b) := by
  rintro d env τ σ hr c ⟨hc, -⟩
  cases hc
  exact ⟨b, rfl, h, hr⟩

theorem Run.raise (e e' : Exc) : Run Y R (T.raise e : T P α) (T.raise e') := by
  rintro d env τ σ hr c ⟨hc, -⟩
  cases hc

theorem Run.imp {R' : α → α → Prop} {t u : T P α} (h : Run Y R t u) (hi : ∀ a b, R a b → R' a b) : Run Y R' t u := by
  intro d env τ σ hr a ha
  obtain ⟨b, h1, h2, h3⟩ := h d env τ σ hr a ha
  exact ⟨b, h1, hi _ _ h2, h3⟩

/-- Depends on the environment and the forms only. -/
theorem Run.state {t : T P α} (h : ∀ env, ∃ (x : List FormObj → Except Exc α) (y : List FormObj → List FormObj),
    ∀ τ, t env τ = (x τ.forms, { τ with forms := y τ.forms })) : Run Y Eq t t := by
  intro d env τ σ hr a ha
  obtain ⟨x, y, hx⟩ := h env
  rw [hx] at ha ⊢
  rw [hx, ← hr.forms]
  exact ⟨a, ha.1, rfl, hr.path, hr.errs, rfl⟩

theorem Run.ctxGet (proj : Env → Option α) (n : String) : Run Y Eq (T.ctxGet proj n : T P _) (T.ctxGet proj n) :=
  .state fun env => by
    unfold T.ctxGet
    cases proj env with
    | none => exact ⟨fun _ => .error _, fun fs => fs, fun _ => rfl⟩
    | some a => exact ⟨fun _ => .ok a, fun fs => fs, fun _ => rfl⟩

theorem Run.ctxGet? (proj : Env → Option α) : Run Y Eq (T.ctxGet? proj : T P _) (T.ctxGet? proj) :=
  .state fun env => ⟨fun _ => .ok (proj env), fun fs => fs, fun _ => rfl⟩

theorem Run.formItems (id : Nat) : Run Y Eq (T.formItems id : T P _) (T.formItems id) :=
  .state fun _ => ⟨fun fs => .ok ((fs[id]?).elim [] FormObj.items), fun fs => fs, fun _ => rfl⟩

theorem Run.formCls (id : Nat) : Run Y Eq (T.formCls id : T P _) (T.formCls id) :=
  .state fun _ => ⟨fun fs => match fs[id]? with
    | some o => .ok o.cls
    | none => .error (.other "ReferenceError" "dangling form"), fun fs => fs, fun τ => by
      unfold T.formCls
      dsimp only
      split <;> simp [*]⟩

theorem Run.formModify (id : Nat) (g : List (Val × Val) → List (Val × Val)) :
    Run Y Eq (T.formModify id g : T P Unit) (T.formModify id g) :=
  .state fun _ => ⟨fun _ => .ok (), _, fun _ => rfl⟩

theorem Run.formParent (id : Nat) (par : Option Parent) :
    Run Y Eq (T.formParent id par : T P Unit) (T.formParent id par) :=
  .state fun _ => ⟨fun _ => .ok (), _, fun _ => rfl⟩

theorem Run.newForm (cls : Nat) : Run Y Eq (T.newForm cls : T P Nat) (T.newForm cls) :=
  .state fun _ => ⟨fun fs => .ok fs.length, fun fs => fs ++ [{ cls := cls, items := [] }], fun _ => rfl⟩

theorem Rel.paths {d : Nat} {τ σ : TSt P} (h : Rel Y d τ σ) :
    (τ.path = none ∧ σ.path = none) ∨ (τ.path = some none ∧ σ.path = some none) ∨
    ∃ r p r' q, τ.path = some (some (r, p)) ∧ σ.path = some (some (r', q)) ∧ Y.Q d p q := by
  have hp := h.path
  generalize τ.path = a at hp ⊢
  generalize σ.path = b at hp ⊢
  rcases a with _ | _ | ⟨r, p⟩ <;> rcases b with _ | _ | ⟨r', q⟩ <;> first
    | exact hp.elim
    | exact .inl ⟨rfl, rfl⟩
    | exact .inr (.inl ⟨rfl, rfl⟩)
    | exact .inr (.inr ⟨r, p, r', q, rfl, rfl, hp⟩)

theorem Rel.setPath {d d' : Nat} {τ σ : TSt P} (h : Rel Y d τ σ) {r r' : Nat} {p q : P} (hq : Y.Q d' p q) :
    Rel Y d' { τ with path := some (some (r, p)) } { σ with path := some (some (r', q)) } :=
  ⟨hq, h.errs, h.forms⟩

theorem Run.read {f : P → Except Exc α × P}
    (h : ∀ {d p q a}, Y.Q d p q → (f p).1 = .ok a → (f q).1 = .ok a ∧ Y.Q d (f p).2 (f q).2) :
    Run Y Eq (T.onPath f) (T.onPath f) := by
  rintro d env τ σ hr a ⟨ha, -⟩
  rcases hr.paths with ⟨h1, h2⟩ | ⟨h1, h2⟩ | ⟨r, p, r', q, h1, h2, hq⟩
  · unfold T.onPath at ha; rw [h1] at ha; cases ha
  · unfold T.onPath at ha; rw [h1] at ha; cases ha
  · rw [T.onPath_run h1] at ha ⊢
    rw [T.onPath_run h2]
    obtain ⟨h3, h4⟩ := h hq ha
    exact ⟨a, h3, rfl, hr.setPath h4⟩

theorem Run.hasSrc : Run Y Eq (T.onPath fun p => (.ok (I.hasSrc p), p)) (T.onPath fun p => (.ok (I.hasSrc p), p)) :=
  .read fun h ha => ⟨by rw [Y.hasSrc h]; exact ha, h⟩

theorem Run.report (k : ErrKind) : Run Y Eq (T.report I k) (T.report I k) := by
  rintro d env τ σ hr a ⟨ha, he⟩
  rcases hx : T.report I k env τ with ⟨x, τ'⟩
  rw [hx] at ha he
  replace ha : x = .ok a := ha
  subst ha
  exact absurd he (report_more hx)

theorem Run.seqTry : Run Y Eq (Lex.seqTry I) (Lex.seqTry I) := by
  intro d env τ σ hr a ha
  have key : ∃ x τ' σ', T.onPath I.sequence env τ = (x, τ') ∧ T.onPath I.sequence env σ = (x, σ') ∧ Rel Y d τ' σ' ∧
      τ'.errs = τ.errs := by
    rcases hr.paths with ⟨h1, h2⟩ | ⟨h1, h2⟩ | ⟨r, p, r', q, h1, h2, hq⟩
    · unfold T.onPath; rw [h1, h2]; exact ⟨_, _, _, rfl, rfl, hr, rfl⟩
    · unfold T.onPath; rw [h1, h2]; exact ⟨_, _, _, rfl, rfl, hr, rfl⟩
    · rw [T.onPath_run h1, T.onPath_run h2]
      obtain ⟨h3, h4⟩ := Y.sequence hq
      rw [h3]
      exact ⟨_, _, _, rfl, rfl, hr.setPath h4, rfl⟩
  obtain ⟨x, τ', σ', h1, h2, h3, h4⟩ := key
  unfold Lex.seqTry T.tryCatch at ha ⊢
  cases x with
  | ok n =>
    rw [T.bind_ok h1] at ha ⊢
    rw [T.bind_ok h2]
    cases ha.1
    exact ⟨_, rfl, rfl, h3⟩
  | error e =>
    rw [T.bind_error h1] at ha ⊢
    rw [T.bind_error h2]
    dsimp only at ha ⊢
    have hrun : Run Y Eq (T.onPath (fun p => (.ok (I.hasSrc p), p)) >>= fun hs => if !hs then
        T.raise (.attributeError "'MountPath' object has no attribute 'src'")
        else if e.isSourceError then T.pure (.error e) else T.raise e : T P (Except Exc Nat))
        (T.onPath (fun p => (.ok (I.hasSrc p), p)) >>= fun hs => if !hs then
        T.raise (.attributeError "'MountPath' object has no attribute 'src'")
        else if e.isSourceError then T.pure (.error e) else T.raise e) := by
      refine .bind (.onPath _) .hasSrc (fun hs => .ite (.raise _) (.ite (.pure _) (.raise _))) fun hs _ h => ?_
      subst h
      split
      · exact .raise _ _
      · split
        · exact .pure rfl
        · exact .raise _ _
    exact hrun d env τ' σ' h3 a ⟨ha.1, ha.2.trans h4.symm⟩

theorem Run.ite {c : Prop} [Decidable c] {t t' u u' : T P α} (ht : c → Run Y R t t') (hu : ¬c → Run Y R u u') :
    Run Y R (if c then t else u) (if c then t' else u') := by
  split
  · exact ht ‹_›
  · exact hu ‹_›

/-- A handler that never ends well. -/
theorem Run.tryCatch {t u : T P α} {g h : Exc → T P α} (hA : Adding t) (ht : Run Y R t u)
    (hg : ∀ e env (τ : TSt P) a τ', g e env τ = (.ok a, τ') → More τ.errs τ'.errs ∧ τ'.errs ≠ τ.errs) :
    Run Y R (T.tryCatch t g) (T.tryCatch u h) := by
  intro d env τ σ hr a ha
  have h0 := hA env τ
  have h1 := ht d env τ σ hr
  unfold T.tryCatch at ha ⊢
  rcases hx : t env τ with ⟨x, τ'⟩
  rcases hy : u env σ with ⟨y, σ'⟩
  rw [hx] at ha h0
  rw [hx, hy] at h1
  cases x with
  | ok b =>
    obtain ⟨c, h2, h3, h4⟩ := h1 a ha
    dsimp only at h2
    subst h2
    exact ⟨c, rfl, h3, h4⟩
  | error e =>
    dsimp only at ha
    rcases hz : g e env τ' with ⟨z, τ2⟩
    rw [hz] at ha
    obtain ⟨h2, h3⟩ := ha
    dsimp only at h2 h3
    subst h2
    obtain ⟨h4, h5⟩ := hg e env τ' a τ2 hz
    exact absurd (h3.trans (h0.between h4 h3).symm) h5

theorem fails_report {k : ErrKind} {c : α} {env : Env} {τ τ' : TSt P} {a : α}
    (h : (T.report I k >>= fun _ => T.pure c) env τ = (.ok a, τ')) : More τ.errs τ'.errs ∧ τ'.errs ≠ τ.errs := by
  rcases hx : T.report I k env τ with ⟨x, τ1⟩
  cases x with
  | error e => rw [T.bind_error hx] at h; cases h
  | ok b =>
    rw [T.bind_ok hx] at h
    cases h
    have := Adding.report (I := I) k env τ
    rw [hx] at this
    exact ⟨this, report_more hx⟩

theorem Run.compute {t : T P Val} (hA : Adding t) (h : Run Y Eq t t) : Run Y Eq
    (T.tryCatch t fun e => if e.isSourceError || e.isValueError then Lex.failWith I e.str else T.raise e)
    (T.tryCatch t fun e => if e.isSourceError || e.isValueError then Lex.failWith I e.str else T.raise e) := by
  refine .tryCatch hA h fun e env τ a τ' hg => ?_
  split at hg
  · exact fails_report hg
  · cases hg

theorem Adding.failWith (m : String) : Adding (Lex.failWith I m) := .bind (.report _) fun _ => .pure _

theorem Adding.compute {t : T P Val} (hA : Adding t) : Adding
    (T.tryCatch t fun e => if e.isSourceError || e.isValueError then Lex.failWith I e.str else T.raise e) :=
  .tryCatch hA fun _ => .ite (.failWith _) (.raise _)

theorem Run.withEnv (g : Env → Env) {t u : T P α} (h : Run Y R t u) : Run Y R (T.withEnv g t) (T.withEnv g u) :=
  fun d env τ σ hr => h d (g env) τ σ hr

theorem Run.withKey {k : Val} {t u : T P α} (h : Run Y R t u) : Run Y R (T.withKey I k t) (T.withKey I k u) := by
  intro d env τ σ hr c hc
  rcases hr.paths with ⟨h1, h2⟩ | ⟨h1, h2⟩ | ⟨r, p, r', q, h1, h2, hq⟩
  · unfold T.withKey T.onPath at hc; rw [h1] at hc; cases hc.1
  · unfold T.withKey T.onPath at hc; rw [h1] at hc; cases hc.1
  · unfold T.withKey at hc ⊢
    rw [T.onPath_run h1] at hc ⊢
    rw [T.onPath_run h2]
    cases hp : I.append p k with
    | error e => simp only [pathAppend, hp] at hc; cases hc.1
    | ok p' =>
      obtain ⟨q', hq1, hq2⟩ := Y.append hq hp
      simp only [pathAppend, hp, hq1] at hc ⊢
      have h3 := h (d + 1) { env with src := some (!k.isNull) } _ _ (hr.setPath (r := r) (r' := r') hq2)
      rcases ht : t { env with src := some (!k.isNull) } { τ with path := some (some (r, p')) } with ⟨x, τ'⟩
      rcases hu : u { env with src := some (!k.isNull) } { σ with path := some (some (r', q')) } with ⟨y, σ'⟩
      rw [ht, hu] at h3
      rw [ht] at hc
      dsimp only at hc ⊢
      have h4 := onPath_errs (pathPop I) env τ'
      rcases hpop : T.onPath (pathPop I) env τ' with ⟨z, τ3⟩
      rw [hpop] at hc h4
      dsimp only at h4
      cases z with
      | error e => cases hc.1
      | ok w =>
        dsimp only at hc
        obtain ⟨hc1, hc2⟩ := hc
        dsimp only at hc1 hc2
        obtain ⟨b, h5, h6, h7⟩ := h3 c ⟨hc1, h4.symm.trans hc2⟩
        dsimp only at h5 h7
        subst h5
        rcases h7.paths with ⟨g1, g2⟩ | ⟨g1, g2⟩ | ⟨s, a, s', a', g1, g2, gq⟩
        · unfold T.onPath at hpop; rw [g1] at hpop; cases hpop
        · unfold T.onPath at hpop; rw [g1] at hpop; cases hpop
        · rw [T.onPath_run g1] at hpop
          rw [T.onPath_run g2]
          cases ha : I.pop a with
          | error e => simp only [pathPop, ha] at hpop; cases hpop
          | ok a2 =>
            obtain ⟨b2, g3, g4⟩ := Y.pop gq ha
            simp only [pathPop, ha] at hpop
            cases hpop
            simp only [pathPop, g3]
            exact ⟨b, rfl, h6, h7.setPath g4⟩

/-- Under a new error list: the same errors if there are none. -/
theorem Run.nested {t u : T P Unit} {k k' : Bool → T P β} {b : Bool} (hA : Adding t) (h : Run Y Eq t u)
    (hkA : ∀ b, Adding (k b)) (hk : ∀ b, Run Y S (k b) (k' b)) :
    Run Y S (T.withErrs b t >>= fun x => T.extend x.2 >>= fun _ => k x.2.isEmpty)
      (T.withErrs b u >>= fun x => T.extend x.2 >>= fun _ => k' x.2.isEmpty) := by
  intro d env τ σ hr c hc
  have h0 := hA env { τ with errs := some { raising := b, items := [] } }
  have h1 := h d env { τ with errs := some { raising := b, items := [] } } { σ with errs := some { raising := b, items := [] } }
    ⟨hr.path, rfl, hr.forms⟩
  rcases ht : t env { τ with errs := some { raising := b, items := [] } } with ⟨x, τ'⟩
  rcases hu : u env { σ with errs := some { raising := b, items := [] } } with ⟨y, σ'⟩
  rw [ht] at h0
  rw [ht, hu] at h1
  cases x with
  | error e =>
    have e1 : T.withErrs b t env τ = (.error e, { τ' with errs := τ.errs }) := by unfold T.withErrs; rw [ht]
    rw [T.bind_error e1] at hc
    cases hc.1
  | ok a =>
    have e1 : T.withErrs b t env τ = (.ok (a, τ'.errs.elim [] ErrBuf.items), { τ' with errs := τ.errs }) := by
      unfold T.withErrs; rw [ht]
    rw [T.bind_ok e1] at hc ⊢
    dsimp only at hc h0
    obtain ⟨buf, he⟩ : ∃ buf, τ'.errs = some buf := by
      cases he : τ'.errs with
      | none => rw [he] at h0; exact h0.elim
      | some buf => exact ⟨buf, rfl⟩
    rw [he] at h0
    obtain ⟨hb1, es, hb2⟩ := h0
    dsimp only at hb1 hb2
    rw [List.nil_append] at hb2
    have e2 : ∀ (zs : List Err) (ρ : TSt P), (∃ e, (T.extend zs : T P Unit) env ρ = (.error e, ρ) ∧ ρ.errs = none) ∨
        ∃ b, ρ.errs = some b ∧ (T.extend zs : T P Unit) env ρ = (.ok (), { ρ with errs := some { b with items := b.items ++ zs } }) := by
      intro zs ρ
      unfold T.extend
      cases ρ.errs with
      | none => exact .inl ⟨_, rfl, rfl⟩
      | some b => exact .inr ⟨b, rfl, rfl⟩
    rcases e2 (τ'.errs.elim [] ErrBuf.items) { τ' with errs := τ.errs } with ⟨e, e3, -⟩ | ⟨b0, hb0, e3⟩
    · rw [T.bind_error e3] at hc; cases hc.1
    rw [T.bind_ok e3] at hc ⊢
    dsimp only at hb0 hc ⊢
    have hm : More τ.errs (some { b0 with items := b0.items ++ τ'.errs.elim [] ErrBuf.items }) := by
      rw [hb0]; exact ⟨rfl, _, rfl⟩
    have hsame := hm.between (hkA _ env { τ' with errs := _ }) hc.2
    have hnil : es = [] := by
      rw [hb0, he] at hsame
      have := congrArg (fun o : Option ErrBuf => (o.elim [] ErrBuf.items).length) hsame
      simp [hb2] at this
      exact this
    subst hnil
    have hbuf : buf = { raising := b, items := [] } := by cases buf; simp_all
    obtain ⟨b', h2, -, h4⟩ := h1 a ⟨rfl, by rw [he, hbuf]⟩
    dsimp only at h2 h4
    subst h2
    have hes : σ'.errs = some buf := h4.errs.trans he
    have e4 : T.withErrs b u env σ = (.ok (b', σ'.errs.elim [] ErrBuf.items), { σ' with errs := σ.errs }) := by
      unfold T.withErrs; rw [hu]
    rw [T.bind_ok e4]
    dsimp only
    rcases e2 (σ'.errs.elim [] ErrBuf.items) { σ' with errs := σ.errs } with ⟨e, -, e5⟩ | ⟨b1, hb1', e5⟩
    · dsimp only at e5
      rw [hr.errs, hb0] at e5; cases e5
    rw [T.bind_ok e5]
    dsimp only at hb1'
    have hbb : b1 = b0 := by rw [hr.errs, hb0] at hb1'; cases hb1'; rfl
    subst hbb
    rw [he] at hc ⊢
    rw [hes]
    simp only [hbuf, Option.elim, List.append_nil, List.isEmpty_nil] at hc ⊢
    exact hk true d env { τ' with errs := some b1 } { σ' with errs := some b1 } ⟨h4.path, rfl, h4.forms⟩ c
      ⟨hc.1, hc.2.trans hb0⟩

/-- Under another source, the same in both runs, and a new error list: the same errors. -/
theorem Run.root {b : Bool} {mk : Except Exc P} (hmk : ∀ p, mk = .ok p → W.WF p) {t u : T P α}
    (h : Twin.Run (.same W) R t u) :
    Run Y (fun x y => R x.1 y.1 ∧ BareEq x.2 y.2) (T.withErrs b (T.withSource mk t)) (T.withErrs b (T.withSource mk u)) := by
  intro d env τ σ hr c hc
  cases mk with
  | error e => unfold T.withErrs T.withSource at hc; cases hc.1
  | ok p =>
    obtain ⟨h1, -, h2⟩ := h 0 { env with src := some true }
      { τ with path := some (some (τ.npaths, p)), npaths := τ.npaths + 1, errs := some { raising := b, items := [] } }
      { σ with path := some (some (σ.npaths, p)), npaths := σ.npaths + 1, errs := some { raising := b, items := [] } }
      ⟨⟨rfl, hmk p rfl, Nat.zero_le _⟩, ⟨rfl, fun _ => trivial, .nil⟩, hr.forms⟩
    replace h2 := h2 (.inl trivial)
    unfold T.withErrs T.withSource at hc ⊢
    dsimp only at hc ⊢
    generalize t { env with src := some true } _ = x at h1 h2 hc ⊢
    generalize u { env with src := some true } _ = y at h1 h2 ⊢
    obtain ⟨x, τ'⟩ := x
    obtain ⟨y, σ'⟩ := y
    dsimp only at h1 h2 hc
    cases h1 with
    | error hx => cases hc.1
    | ok ha =>
      dsimp only at hc ⊢
      cases hc.1
      refine ⟨_, rfl, ⟨ha, ?_⟩, hr.path, hr.errs, h2.forms⟩
      dsimp only
      rcases h2.errs_cases with ⟨h3, h4⟩ | ⟨c, c', h3, h4, -, -, h5⟩
      · rw [h3, h4]; rfl
      · rw [h3, h4]; exact h5.bare trivial

/-- Under another source, the same in both runs. -/
theorem Run.withSource {mk : Except Exc P} (hmk : ∀ p, mk = .ok p → W.WF p) {t u : T P α}
    (h : Run (.same W) R t u) : Run Y R (T.withSource mk t) (T.withSource mk u) := by
  intro d env τ σ hr c hc
  cases mk with
  | error e => cases hc.1
  | ok p =>
    obtain ⟨b, h1, h2, h3⟩ := h 0 { env with src := some true }
      { τ with path := some (some (τ.npaths, p)), npaths := τ.npaths + 1 }
      { σ with path := some (some (σ.npaths, p)), npaths := σ.npaths + 1 }
      ⟨⟨rfl, hmk p rfl, Nat.zero_le _⟩, hr.errs, hr.forms⟩ c hc
    exact ⟨b, h1, h2, hr.path, h3.errs, h3.forms⟩

/-- At a source related to the other one, under a new error list. -/
theorem Run.start {b : Bool} {p q : P} (hq : Y.Q 0 p q) {t u : T P α} (h : Run Y R t u) {env : Env} {τ σ : TSt P}
    {a : α} (hf : τ.forms = σ.forms) {τ' : TSt P} (ht : T.withErrs b (T.withSource (.ok p) t) env τ = (.ok (a, []), τ'))
    (hA : Adding t) :
    ∃ a' σ', T.withErrs b (T.withSource (.ok q) u) env σ = (.ok (a', []), σ') ∧ R a a' ∧ τ'.forms = σ'.forms := by
  unfold T.withErrs T.withSource at ht ⊢
  dsimp only at ht ⊢
  have h0 := hA { env with src := some true }
    { τ with path := some (some (τ.npaths, p)), npaths := τ.npaths + 1, errs := some { raising := b, items := [] } }
  have h1 := h 0 { env with src := some true }
    { τ with path := some (some (τ.npaths, p)), npaths := τ.npaths + 1, errs := some { raising := b, items := [] } }
    { σ with path := some (some (σ.npaths, q)), npaths := σ.npaths + 1, errs := some { raising := b, items := [] } }
    ⟨hq, rfl, hf⟩
  generalize t { env with src := some true } _ = x at h0 h1 ht
  generalize u { env with src := some true } _ = y at h1 ⊢
  obtain ⟨x, τ1⟩ := x
  obtain ⟨y, σ1⟩ := y
  cases x with
  | error e => cases ht
  | ok c =>
    dsimp only at ht h0
    have hc : c = a ∧ τ1.errs.elim [] ErrBuf.items = [] ∧ τ'.forms = τ1.forms := by
      obtain ⟨h2, h3⟩ := Prod.mk.inj ht
      obtain ⟨h4, h5⟩ := Prod.mk.inj (Except.ok.inj h2)
      exact ⟨h4, h5, h3 ▸ rfl⟩
    obtain ⟨rfl, he, hf'⟩ := hc
    rcases hb : τ1.errs with _ | buf
    · rw [hb] at h0; exact h0.elim
    rw [hb] at h0 he
    have hbuf : buf = { raising := b, items := [] } := by
      have he : buf.items = [] := he
      have h0 : buf.raising = b := h0.1
      cases buf; simp_all
    obtain ⟨b', h2, h3, h4⟩ := h1 c ⟨rfl, by rw [hb, hbuf]⟩
    dsimp only at h2 h4
    subst h2
    refine ⟨b', { σ1 with path := σ.path, errs := σ.errs }, ?_, h3, hf'.trans h4.forms⟩
    dsimp only
    rw [h4.errs, hb, hbuf]
    rfl

/-! ### Forms and the type of a polymorphic field -/

section
variable {L : Lib} {C : Classes} {n : Nat}

theorem Adding.state {t : T P α} (h : ∀ env τ, ∃ x fs, t env τ = (x, { τ with forms := fs })) : Adding t :=
  .same fun env τ => by obtain ⟨x, fs, h⟩ := h env τ; rw [h]

theorem Adding.formModify (id : Nat) (g : List (Val × Val) → List (Val × Val)) : Adding (T.formModify id g : T P Unit) :=
  .state fun _ _ => ⟨_, _, rfl⟩

theorem Adding.formResetIf (id : Nat) (tags : List String) (reset : Bool) :
    Adding (Lex.formResetIf C id tags reset : T P Unit) := by
  unfold Lex.formResetIf
  refine .ite (.bind (.formCls _) fun cls => ?_) (.pure _)
  induction (C cls).fields with
  | nil => exact .pure _
  | cons f fs ih =>
    unfold Lex.formReset
    exact .bind (.ite (.formModify _ _) (.pure _)) fun _ => ih

theorem Run.formResetIf (id : Nat) (tags : List String) (reset : Bool) :
    Run Y Eq (Lex.formResetIf C id tags reset : T P Unit) (Lex.formResetIf C id tags reset) := by
  unfold Lex.formResetIf
  have hA : ∀ fs, Adding (Lex.formReset id tags fs : T P Unit) := by
    intro fs
    induction fs with
    | nil => exact .pure _
    | cons f fs ih =>
      unfold Lex.formReset
      exact .bind (.ite (.formModify _ _) (.pure _)) fun _ => ih
  refine .ite (fun _ => .bind (.formCls _) (.formCls _) (fun _ => hA _) fun cls _ h => ?_) fun _ => .pure rfl
  subst h
  induction (C cls).fields with
  | nil => exact .pure rfl
  | cons f fs ih =>
    unfold Lex.formReset
    exact .bind (.ite (.formModify _ _) (.pure _)) (.ite (fun _ => .formModify _ _) fun _ => .pure rfl)
      (fun _ => hA _) fun _ _ _ => ih

theorem Adding.rootSource (id : Nat) (src : SrcArg P) : Adding (Lex.rootSource I C id src) := by
  unfold Lex.rootSource
  split
  · exact .pure _
  · exact .pure _
  · exact .pure _
  · exact .bind (.formCls _) fun _ => .pure _
  · exact .bind (.formCls _) fun _ => .pure _
  · exact .raise _

theorem Run.rootSource (id : Nat) {src : SrcArg P} (hs : SrcOK W src) :
    Run Y (fun a b => a = b ∧ ∀ p, a = .ok p → W.WF p) (Lex.rootSource I C id src) (Lex.rootSource I C id src) := by
  have hn : ∀ v al, ∀ p, (Except.ok (I.native v al) : Except Exc P) = .ok p → W.WF p := by
    intro v al p hp; cases hp; exact W.native_wf
  unfold Lex.rootSource
  split
  · exact .pure ⟨rfl, hn _ _⟩
  · refine .pure ⟨rfl, ?_⟩
    rintro p rfl
    exact hs
  · exact .pure ⟨rfl, hn _ _⟩
  · exact .bind (.formCls _) (.formCls _) (fun _ => .pure _) fun _ _ h => .pure ⟨by rw [h], hn _ _⟩
  · exact .bind (.formCls _) (.formCls _) (fun _ => .pure _) fun _ _ h => .pure ⟨by rw [h], hn _ _⟩
  · exact .raise _ _

theorem Adding.formMap (id : Nat) (src : SrcArg P) (tags : List String) (reset : Bool) (u : Unmapped) (b : Bool) :
    Adding (Lex.formMap I C (Lex.mapField I L C n) id src tags reset u b) := by
  have hroot : ∀ src tags, Adding (Lex.rootMap I C (Lex.mapField I L C n) id src tags u b) := fun src tags =>
    .bind (.rootSource _ _) fun _ => .bind (.withErrs _ _) fun _ => .pure _
  unfold Lex.formMap Lex.formMapAt Lex.formFinish
  exact .bind (.same fun _ _ => rfl) fun _ => .bind (.formResetIf _ _ _) fun _ => .bind (.ctxGet _ _) fun _ =>
    .bind (.ite (.ite (.bind (.withErrs _ _) fun _ => .bind (.extend _) fun _ => .pure _) (hroot _ _)) (hroot _ _))
      fun _ => .ite (.ite (.pure _) (.raise _)) (.pure _)

/-- The mapping of a form at the current path or at another source, the same in both runs. -/
theorem Run.formMap (id : Nat) {src : SrcArg P} (hs : SrcOK W src) (tags : List String) (reset : Bool) (u : Unmapped)
    (hA : ∀ tags, Adding (Lex.formMapBody I C (Lex.mapField I L C n) id tags u))
    (hT : ∀ tags, Twin.Run (.same W) Eq (Lex.formMapBody I C (Lex.mapField I L C n) id tags u)
        (Lex.formMapBody I C (Lex.mapField I L C n) id tags u))
    (h : ∀ tags, Run Y Eq (Lex.formMapBody I C (Lex.mapField I L C n) id tags u)
        (Lex.formMapBody I C (Lex.mapField I L C n) id tags u)) (b : Bool) :
    Run Y BareEq (Lex.formMap I C (Lex.mapField I L C n) id src tags reset u b)
      (Lex.formMap I C (Lex.mapField I L C n) id src tags reset u b) := by
  have hroot : ∀ src, SrcOK W src → ∀ tags, Run Y BareEq (Lex.rootMap I C (Lex.mapField I L C n) id src tags u b)
      (Lex.rootMap I C (Lex.mapField I L C n) id src tags u b) := fun src hs tags =>
    .bind (.rootSource _ _) (.rootSource id hs) (fun _ => .bind (.withErrs _ _) fun _ => .pure _) fun _ _ hm =>
      hm.1 ▸ .bind (.withErrs _ _) (.root hm.2 (hT tags)) (fun _ => .pure _) fun _ _ he => .pure he.2
  have hrootA : ∀ src tags, Adding (Lex.rootMap I C (Lex.mapField I L C n) id src tags u b) := fun src tags =>
    .bind (.rootSource _ _) fun _ => .bind (.withErrs _ _) fun _ => .pure _
  have hnest : ∀ tags, Run Y BareEq (Lex.nestedMap I C (Lex.mapField I L C n) id tags u b)
      (Lex.nestedMap I C (Lex.mapField I L C n) id tags u b) := by
    intro tags d env τ σ hr c hc
    have h1 := h tags
    have h2 := Run.nested (S := Eq) (b := b) (k := fun b => T.pure b) (k' := fun b => T.pure b) (hA tags) h1
      (fun _ => .pure _) (fun _ => .pure rfl) d env τ σ hr
    have hsp : ∀ ρ : TSt P, (T.withErrs b (Lex.formMapBody I C (Lex.mapField I L C n) id tags u) >>= fun x =>
        T.extend x.2 >>= fun _ => T.pure x.2.isEmpty) env ρ =
        match Lex.nestedMap I C (Lex.mapField I L C n) id tags u b env ρ with
        | (.ok es, ρ') => (.ok es.isEmpty, ρ')
        | (.error e, ρ') => (.error e, ρ') := by
      intro ρ
      unfold Lex.nestedMap
      rcases hx : T.withErrs b (Lex.formMapBody I C (Lex.mapField I L C n) id tags u) env ρ with ⟨x, ρ'⟩
      cases x with
      | error e => rw [T.bind_error hx, T.bind_error hx]
      | ok x =>
        rw [T.bind_ok hx, T.bind_ok hx]
        rcases hy : (T.extend x.2 : T P Unit) env ρ' with ⟨y, ρ2⟩
        cases y with
        | error e => rw [T.bind_error hy]; dsimp only; rw [T.bind_error hy]
        | ok y => rw [T.bind_ok hy]; dsimp only; rw [T.bind_ok hy]; rfl
    have hA' : ∀ (ρ ρ' : TSt P) es, Lex.nestedMap I C (Lex.mapField I L C n) id tags u b env ρ = (.ok es, ρ') →
        ρ'.errs = ρ.errs → es = [] := by
      intro ρ ρ' es hx he
      unfold Lex.nestedMap at hx
      rcases hw : T.withErrs b (Lex.formMapBody I C (Lex.mapField I L C n) id tags u) env ρ with ⟨x, ρ1⟩
      have hw' : ρ1.errs = ρ.errs := by
        have : (T.withErrs b (Lex.formMapBody I C (Lex.mapField I L C n) id tags u) env ρ).2.errs = ρ.errs := by
          unfold T.withErrs; split <;> rfl
        rw [hw] at this; exact this
      cases x with
      | error e => rw [T.bind_error hw] at hx; cases hx
      | ok x =>
        rw [T.bind_ok hw] at hx
        obtain ⟨x, es'⟩ := x
        dsimp only at hx
        rcases hy : (T.extend es' : T P Unit) env ρ1 with ⟨y, ρ2⟩
        cases y with
        | error e => rw [T.bind_error hy] at hx; cases hx
        | ok y =>
          rw [T.bind_ok hy] at hx
          cases hx
          unfold T.extend at hy
          split at hy
          · cases hy
          · rename_i buf hbuf
            cases hy
            rw [hbuf] at hw'
            rw [← hw'] at he
            have := congrArg (fun o : Option ErrBuf => (o.elim [] ErrBuf.items).length) he
            simp at this
            exact this
    obtain ⟨hc1, hc2⟩ := hc
    rcases hx : Lex.nestedMap I C (Lex.mapField I L C n) id tags u b env τ with ⟨x, τ'⟩
    rcases hy : Lex.nestedMap I C (Lex.mapField I L C n) id tags u b env σ with ⟨y, σ'⟩
    rw [hx] at hc1 hc2
    dsimp only at hc1 hc2
    subst hc1
    rw [hsp, hsp, hx, hy] at h2
    have hnil := hA' τ τ' c hx hc2
    subst hnil
    obtain ⟨b', h3, h4, h5⟩ := h2 true ⟨rfl, hc2⟩
    cases y with
    | error e => cases h3
    | ok es =>
      have hes : es = [] := hA' σ σ' es hy (by have := h5.errs; dsimp only at this; rw [this, hc2, hr.errs])
      subst hes
      exact ⟨[], rfl, rfl, h5⟩
  unfold Lex.formMap
  refine .bind (.same fun _ _ => rfl) (.ctxGet? _) (fun _ => .bind (.formResetIf _ _ _) fun _ => .bind (.ctxGet _ _) fun _ =>
    .bind ?_ fun _ => ?_) fun ct _ h1 => ?_
  · unfold Lex.formMapAt
    exact .ite (.ite (.bind (.withErrs _ _) fun _ => .bind (.extend _) fun _ => .pure _) (hrootA _ _)) (hrootA _ _)
  · unfold Lex.formFinish
    exact .ite (.ite (.pure _) (.raise _)) (.pure _)
  subst h1
  have hfinA : ∀ es, Adding (Lex.formFinish b es : T P _) := fun es => by
    unfold Lex.formFinish
    exact .ite (.ite (.pure _) (.raise _)) (.pure _)
  have hatA : ∀ cs, Adding (Lex.formMapAt I C (Lex.mapField I L C n) id src (pickTags tags ct) u b cs) := fun cs => by
    unfold Lex.formMapAt
    exact .ite (.ite (.bind (.withErrs _ _) fun _ => .bind (.extend _) fun _ => .pure _) (hrootA _ _)) (hrootA _ _)
  refine .bind (.formResetIf _ _ _) (.formResetIf _ _ _) (fun _ => .bind (.ctxGet _ _) fun _ => .bind (hatA _) fun _ => hfinA _)
    fun _ _ _ => .bind (.ctxGet _ _) (.ctxGet _ _) (fun _ => .bind (hatA _) fun _ => hfinA _) fun cs _ h2 => ?_
  subst h2
  refine .bind (R := BareEq) (hatA _) ?_ (fun _ => hfinA _) fun es es' he => ?_
  · unfold Lex.formMapAt
    exact .ite (fun _ => .ite (fun _ => hnest _) fun _ => hroot .none trivial _) fun _ => hroot _ hs _
  · have hemp : es.isEmpty = es'.isEmpty := by
      have := congrArg List.isEmpty he
      simpa using this
    unfold Lex.formFinish
    rw [hemp]
    exact .ite (fun _ => .ite (fun _ => .pure he) fun _ => .raise _ _) fun _ => .pure he

theorem Adding.probeSrc : Adding (Lex.probeSrc I) := .bind (.onPath _) fun _ => .onPath _

theorem Adding.getFinish (tf : Field) (id : Nat) (v : Val) : Adding (Lex.getFinish tf id v : T P Val) :=
  .ite (.raise _) (.bind (.formModify _ _) fun _ => .pure _)

theorem Adding.fieldGet {tf : Field} (hr : ∀ v, Adding (Lex.mapField I L C n tf v)) (id : Nat) :
    Adding (Lex.fieldGet I (Lex.mapField I L C n) tf id) := by
  unfold Lex.fieldGet
  refine .bind (.same fun _ _ => rfl) fun items => ?_
  split
  · exact .pure _
  · refine .bind (.same fun _ _ => rfl) fun fm => ?_
    split
    · exact .bind (.withErrs _ _) fun _ => .getFinish _ _ _
    · exact .bind (.same fun _ _ => rfl) fun _ => .ite (.bind (hr _) fun _ => .getFinish _ _ _)
        (.bind (.withSource (.withEnv _ (hr _))) fun _ => .getFinish _ _ _)

theorem Adding.probe {tf : Field} (hr : ∀ v, Adding (Lex.mapField I L C n tf v)) (pc : Nat) (src : SrcArg P) :
    Adding (Lex.probe I C (Lex.mapField I L C n) tf pc src) := by
  unfold Lex.probe
  refine .bind (.state fun _ _ => ⟨_, _, rfl⟩) fun id => .bind (.formMap _ _ _ _ _ _) fun es => ?_
  split
  · exact .fieldGet hr id
  · exact .raise _

theorem Adding.polyType {tf : Field} (hr : ∀ v, Adding (Lex.mapField I L C n tf v)) (pc : Nat) (types : List (Val × Nat)) :
    Adding (Lex.polyType I L C (Lex.mapField I L C n) tf pc types) := by
  unfold Lex.polyType
  refine .bind (.tryCatch (.bind .probeSrc fun src => .bind (.probe hr pc src) fun _ => .pure _) fun e =>
    .ite (.bind (.report _) fun _ => .pure _) (.raise _)) fun r => ?_
  split
  · exact .pure _
  · exact .pure _
  · refine .ite (.raise _) ?_
    split
    · exact .pure _
    · exact .bind (.report _) fun _ => .pure _

theorem Run.polyType {tf : Field}
    (hA : ∀ v, Adding (Lex.mapField I L C n tf v))
    (hT : ∀ v, Twin.Run (.same W) Eq (Lex.mapField I L C n tf v) (Lex.mapField I L C n tf v))
    (hr : ∀ (Y : PathLax I W) v, Run Y Eq (Lex.mapField I L C n tf v) (Lex.mapField I L C n tf v))
    (hbA : ∀ id tags, Adding (Lex.formMapBody I C (Lex.mapField I L C n) id tags (.str .ignore)))
    (hbT : ∀ id tags, Twin.Run (.same W) Eq (Lex.formMapBody I C (Lex.mapField I L C n) id tags (.str .ignore))
      (Lex.formMapBody I C (Lex.mapField I L C n) id tags (.str .ignore)))
    (hb : ∀ (Y : PathLax I W) id tags, Run Y Eq
      (Lex.formMapBody I C (Lex.mapField I L C n) id tags (.str .ignore))
      (Lex.formMapBody I C (Lex.mapField I L C n) id tags (.str .ignore)))
    (pc : Nat) (types : List (Val × Nat)) :
    Run Y Eq (Lex.polyType I L C (Lex.mapField I L C n) tf pc types)
      (Lex.polyType I L C (Lex.mapField I L C n) tf pc types) := by
  have hnat : ∀ p, (Except.ok (I.native (.dict []) none) : Except Exc P) = .ok p → W.WF p := by
    rintro p h; cases h; exact W.native_wf
  have hfin : ∀ id v, Run Y Eq (Lex.getFinish tf id v : T P Val) (Lex.getFinish tf id v) := fun id v =>
    .ite (fun _ => .raise _ _) fun _ => .bind (.formModify _ _) (.formModify _ _) (fun _ => .pure _) fun _ _ _ => .pure rfl
  have hget : ∀ id, Run Y Eq (Lex.fieldGet I (Lex.mapField I L C n) tf id)
      (Lex.fieldGet I (Lex.mapField I L C n) tf id) := by
    intro id
    have hA' := Adding.fieldGet hA id
    unfold Lex.fieldGet at hA' ⊢
    have hA3 : ∀ o : Option Parent, Adding (if o = some (.form id) then (do
          let v ← Lex.mapField I L C n tf .NONE
          Lex.getFinish tf id v) else (do
          let v ← Lex.getEmpty I (Lex.mapField I L C n) tf id
          Lex.getFinish tf id v) : T P Val) := fun o => .ite (.bind (hA _) fun _ => .getFinish _ _ _)
        (.bind (.withSource (.withEnv _ (hA _))) fun _ => .getFinish _ _ _)
    have hA2 : ∀ fm : Option Nat, Adding (match fm with
        | none => (do
          let (v, _) ← T.withErrs true (Lex.getEmpty I (Lex.mapField I L C n) tf id)
          Lex.getFinish tf id v : T P Val)
        | some _ => do
          let par ← T.ctxGet? Env.parent
          if par = some (.form id) then do
            let v ← Lex.mapField I L C n tf .NONE
            Lex.getFinish tf id v
          else do
            let v ← Lex.getEmpty I (Lex.mapField I L C n) tf id
            Lex.getFinish tf id v) := fun fm => by
      cases fm with
      | none => exact .bind (.withErrs _ _) fun _ => .getFinish _ _ _
      | some x => exact .bind (.same fun _ _ => rfl) fun _ => hA3 _
    refine .bind (.same fun _ _ => rfl) (.formItems _) (fun items => ?_) fun items _ h => ?_
    · split
      · exact .pure _
      · exact .bind (.same fun _ _ => rfl) fun fm => hA2 fm
    subst h
    split
    · exact .pure rfl
    · refine .bind (.same fun _ _ => rfl) (.ctxGet? _) (fun fm => hA2 fm) fun fm _ h => ?_
      subst h
      cases fm with
      | none =>
        refine .bind (.withErrs _ _) (.root (R := Eq) hnat (.withEnv _ (hT _))) (fun _ => .getFinish _ _ _) fun x y h => ?_
        obtain ⟨a, es⟩ := x
        obtain ⟨b, es'⟩ := y
        obtain ⟨h, -⟩ := h
        dsimp only at h ⊢
        subst h
        exact hfin _ _
      | some _ =>
        refine .bind (.same fun _ _ => rfl) (.ctxGet? _) (fun _ => hA3 _) fun par _ h => ?_
        subst h
        exact .ite (fun _ => .bind (hA _) (hr Y _) (fun _ => .getFinish _ _ _) fun _ _ h => h ▸ hfin _ _)
          fun _ => .bind (.withSource (.withEnv _ (hA _))) (.withSource hnat (.withEnv _ (hr (.same W) _)))
            (fun _ => .getFinish _ _ _) fun _ _ h => h ▸ hfin _ _
  have hsrc : Run Y (fun a b => a = b ∧ SrcOK W a) (Lex.probeSrc I) (Lex.probeSrc I) := by
    unfold Lex.probeSrc
    refine .bind (.onPath _) (.read fun h ha => Y.value h ha) (fun _ => .onPath _) fun v _ h => ?_
    subst h
    rintro d env τ σ hr a ⟨ha, -⟩
    rcases hr.paths with ⟨h1, h2⟩ | ⟨h1, h2⟩ | ⟨r, p, r', q, h1, h2, hq⟩
    · unfold T.onPath at ha; rw [h1] at ha; cases ha
    · unfold T.onPath at ha; rw [h1] at ha; cases ha
    · rw [T.onPath_run h1] at ha ⊢
      rw [T.onPath_run h2]
      cases ha
      refine ⟨_, rfl, ⟨by rw [Y.joinPath hq], ?_⟩, hr.setPath hq⟩
      cases hj : I.joinPath p with
      | none => trivial
      | some mk => cases mk with
        | error e => trivial
        | ok j => exact W.joinPath_wf (Y.wf hq) hj
  unfold Lex.polyType
  refine .bind (R := Eq) (.tryCatch (.bind .probeSrc fun src => .bind (.probe hA pc src) fun _ => .pure _) fun e =>
    .ite (.bind (.report _) fun _ => .pure _) (.raise _))
    (.tryCatch (.bind .probeSrc fun src => .bind (.probe hA pc src) fun _ => .pure _)
      (.bind .probeSrc hsrc (fun src => .bind (.probe hA pc src) fun _ => .pure _) fun src _ hs => ?_)
      fun e env τ a τ' hg => ?_) (fun r => ?_) fun r _ h => ?_
  · obtain ⟨h1, h2⟩ := hs
    subst h1
    refine .bind (R := Eq) (.probe hA pc src) ?_ (fun _ => .pure _) fun a b h => by rw [h]; exact .pure rfl
    unfold Lex.probe
    have hA4 : ∀ (id : Nat) (es : List Err), Adding (match es with
        | [] => Lex.fieldGet I (Lex.mapField I L C n) tf id
        | err :: _ => T.raise (.fieldError err)) := fun id es => by
      split
      · exact .fieldGet hA id
      · exact .raise _
    refine .bind (.state fun _ _ => ⟨_, _, rfl⟩) (.newForm pc) (fun id => .bind (.formMap _ _ _ _ _ _) fun es => hA4 id es)
      fun id _ h => ?_
    subst h
    refine .bind (.formMap _ _ _ _ _ _) (.formMap id h2 _ _ _ (hbA id) (hbT id) (hb Y id) _) (fun es => hA4 id es)
      fun es es' he => ?_
    cases es with
    | nil => cases es' with
      | nil => exact hget id
      | cons _ _ => simp [BareEq] at he
    | cons a as => cases es' with
      | nil => simp [BareEq] at he
      | cons b bs => exact .raise _ _
  · split at hg
    · exact fails_report hg
    · cases hg
  · split
    · exact .pure _
    · exact .pure _
    · refine .ite (.raise _) ?_
      split
      · exact .pure _
      · exact .bind (.report _) fun _ => .pure _
  · subst h
    split
    · exact .pure rfl
    · exact .pure rfl
    · refine .ite (fun _ => .raise _ _) fun _ => ?_
      split
      · exact .pure rfl
      · exact .bind (.report _) (.report _) (fun _ => .pure _) fun _ _ _ => .pure rfl

/-- Mapping fields whose hooks are functions of the value at two related paths: what the first run does without error the second one does. -/
def closed (W : LawfulPath I) (L : Lib) (C : Classes) : Closed I L C where
  U t := (Twin.closed W True False L C).U t ∧ Adding t ∧ ∀ Y : PathLax I W, Run Y Eq t t
  ok := (Twin.closed W True False L C).ok
  okString := (Twin.closed W True False L C).okString
  okBase := (Twin.closed W True False L C).okBase
  fok := (Twin.closed W True False L C).fok
  okDict := (Twin.closed W True False L C).okDict
  okFilter := (Twin.closed W True False L C).okFilter
  asks := True
  form _ := ⟨(Twin.closed W True False L C).form trivial, .ctxGet _ _, fun _ => .ctxGet _ _⟩
  pure a := ⟨(Twin.closed W True False L C).pure a, .pure a, fun _ => .pure rfl⟩
  raise e := ⟨(Twin.closed W True False L C).raise e, .raise e, fun _ => .raise e e⟩
  bind h hf := ⟨(Twin.closed W True False L C).bind h.1 fun a => (hf a).1, .bind h.2.1 fun a => (hf a).2.1,
    fun Y => .bind h.2.1 (h.2.2 Y) (fun a => (hf a).2.1) fun _ b e => e ▸ (hf b).2.2 Y⟩
  ctxGet proj n h := ⟨(Twin.closed W True False L C).ctxGet proj n h, .ctxGet _ _, fun _ => .ctxGet _ _⟩
  ctxGet? proj h := ⟨(Twin.closed W True False L C).ctxGet? proj h, .same fun _ _ => rfl, fun _ => .ctxGet? _⟩
  value := ⟨(Twin.closed W True False L C).value, .onPath _, fun Y => .read fun h ha => Y.value h ha⟩
  exists_ := ⟨(Twin.closed W True False L C).exists_, .onPath _, fun Y => .read fun h ha => Y.exists_ h ha⟩
  isNull := ⟨(Twin.closed W True False L C).isNull, .onPath _, fun Y => .read fun h ha => Y.isNull h ha⟩
  mapping := ⟨(Twin.closed W True False L C).mapping, .onPath _, fun Y => .read fun h ha => Y.mapping h ha⟩
  sequence := ⟨(Twin.closed W True False L C).sequence, .onPath _, fun Y => .read fun h ha =>
    ⟨(Y.sequence h).1.trans ha, (Y.sequence h).2⟩⟩
  primitive ty := ⟨(Twin.closed W True False L C).primitive ty, .onPath _, fun Y => .read fun h ha => Y.primitive h ha⟩
  hasSrc := ⟨(Twin.closed W True False L C).hasSrc, .onPath _, fun _ => .hasSrc⟩
  report k := ⟨(Twin.closed W True False L C).report k, .report k, fun _ => .report k⟩
  seqTry := ⟨(Twin.closed W True False L C).seqTry, .tryCatch (.bind (.onPath _) fun _ => .pure _) fun _ =>
    .bind (.onPath _) fun _ => .ite (.raise _) (.ite (.pure _) (.raise _)), fun _ => .seqTry⟩
  compute h := ⟨(Twin.closed W True False L C).compute h.1, .compute h.2.1, fun Y => .compute h.2.1 (h.2.2 Y)⟩
  withEnv g _ h1 h2 h := ⟨(Twin.closed W True False L C).withEnv g h1 h2 h.1, .withEnv g h.2.1, fun Y => .withEnv g (h.2.2 Y)⟩
  withKey hk h := ⟨(Twin.closed W True False L C).withKey hk h.1, .withKey h.2.1, fun Y => .withKey (h.2.2 Y)⟩
  rawKey hk hf h := ⟨(Twin.closed W True False L C).rawKey hk hf h.1, .withKey h.2.1, fun Y => .withKey (h.2.2 Y)⟩
  rawStart hk hf h := ⟨(Twin.closed W True False L C).rawStart hk hf h.1, .withKey h.2.1, fun Y => .withKey (h.2.2 Y)⟩
  nested hfr h hk := ⟨(Twin.closed W True False L C).nested hfr h.1 fun b => (hk b).1,
    .bind (.withErrs _ _) fun _ => .bind (.extend _) fun _ => (hk _).2.1,
    fun Y => .nested h.2.1 (h.2.2 Y) (fun b => (hk b).2.1) fun b => (hk b).2.2 Y⟩
  root hfr h hk := ⟨(Twin.closed W True False L C).root hfr h.1 fun b => (hk b).1,
    .bind (.withErrs _ _) fun _ => (hk _).2.1,
    fun Y => .bind (.withErrs _ _) (.root (by rintro p h; cases h; exact W.native_wf)
      (h.1 (.same W) fun _ => .inl trivial)) (fun _ => (hk _).2.1) fun x y he => by
        have hemp : x.2.isEmpty = y.2.isEmpty := by
          have := congrArg List.isEmpty he.2
          simpa using this
        rw [hemp]
        exact (hk _).2.2 Y⟩
  formItems id h := ⟨(Twin.closed W True False L C).formItems id h, .same fun _ _ => rfl, fun _ => .formItems _⟩
  formCls id h := ⟨(Twin.closed W True False L C).formCls id h, .formCls _, fun _ => .formCls _⟩
  formModify id g h := ⟨(Twin.closed W True False L C).formModify id g h, .formModify _ _, fun _ => .formModify _ _⟩
  formParent id par := ⟨(Twin.closed W True False L C).formParent id par, .state fun _ _ => ⟨_, _, rfl⟩,
    fun _ => .formParent _ _⟩
  newForm cls _ hfr h := ⟨(Twin.closed W True False L C).newForm cls hfr fun id hid => (h id hid).1,
    .bind (.state fun _ _ => ⟨_, _, rfl⟩) fun id => (h id trivial).2.1,
    fun Y => .bind (.state fun _ _ => ⟨_, _, rfl⟩) (.newForm _) (fun id => (h id trivial).2.1)
      fun _ b e => e ▸ (h b trivial).2.2 Y⟩
  poly := by
    intro tf pc types reset u n hok hr hb hC htf k hk
    refine ⟨(Twin.closed W True False L C).poly hok (fun f v hf => (hr f v hf).1)
      (fun id tags u hid hu => (hb id tags u hid hu).1) hC htf fun r => (hk r).1, ?_, fun Y => ?_⟩
    · exact guarded_of (U := fun t => Adding t) .pure .bind (.onPath _) (.onPath _) .compute
        (.bind (.polyType (fun v => (hr tf v htf).2.1) pc types) fun r => (hk r).2.1)
    · have hAp : Adding (Lex.polyType I L C (Lex.mapField I L C n) tf pc types) :=
        .polyType (fun v => (hr tf v htf).2.1) pc types
      have h1 : Run Y Eq (Lex.polyType I L C (Lex.mapField I L C n) tf pc types >>= k)
          (Lex.polyType I L C (Lex.mapField I L C n) tf pc types >>= k) :=
        .bind hAp (.polyType (fun v => (hr tf v htf).2.1) (fun v => (hr tf v htf).1 _ fun _ => .inl trivial)
          (fun Y v => (hr tf v htf).2.2 Y) (fun id tags => (hb id tags _ trivial .str).2.1)
          (fun id tags => (hb id tags _ trivial .str).1 _ fun _ => .inl trivial)
          (fun Y id tags => (hb id tags _ trivial .str).2.2 Y) pc types) (fun r => (hk r).2.1)
          fun _ b e => e ▸ (hk b).2.2 Y
      exact (guarded_of (U := fun t => Adding t ∧ Run Y Eq t t) (fun a => ⟨.pure a, .pure rfl⟩)
        (fun h hf => ⟨.bind h.1 fun a => (hf a).1, .bind h.1 h.2 (fun a => (hf a).1) fun _ b e => e ▸ (hf b).2⟩)
        ⟨.onPath _, .read fun h ha => Y.exists_ h ha⟩ ⟨.onPath _, .read fun h ha => Y.isNull h ha⟩
        (fun h => ⟨.compute h.1, .compute h.1 h.2⟩) ⟨.bind hAp fun r => (hk r).2.1, h1⟩).2

end
end Lax
end Pilo
