import Verif.Closed
import Verif.View
import Verif.Source.Lawful
import Verif.Props.Forms

/-!
# C09: `error='raise'` against `error='collect'`

The two modes run the same mapping with error lists that differ in one flag.  Side by side, the runs stay
equal up to that flag until the raising one raises.
-/

namespace Pilo
variable {P : Type} {I : PathOps P}

/-- Whether `str(path)` works does not get worse towards the root. -/
def Renders (W : LawfulPath I) : Prop := ∀ p q k, W.WF p → W.WF q → W.shape q = W.shape p →
  I.keys q = I.keys p ++ [k] → (∃ t, I.render q = .ok t) → ∃ t, I.render p = .ok t

/-- What the `FormError` of the raising mode lists: some errors, then for every field around that catches the
`FormError` (a `ValueError`) its text, reported as `Invalid`. -/
inductive Raised (pre : List Err) : List Err → Prop
  | first : pre ≠ [] → Raised pre pre
  | told {es : List Err} {e : Err} : Raised pre es → e.kind = .invalid (Exc.formError es).str → Raised pre (es ++ [e])

/-- The raised errors `es` begin as the collected errors `all` do. -/
def Begins (es all : List Err) : Prop := ∃ pre, pre <+: all ∧ Raised pre es

theorem Raised.ne {pre es : List Err} (h : Raised pre es) : pre ≠ [] := by
  induction h with
  | first h => exact h
  | told _ _ ih => exact ih

theorem Raised.prefix {pre es : List Err} (h : Raised pre es) : pre <+: es := by
  induction h with
  | first _ => exact List.prefix_rfl
  | told _ _ ih => exact ih.trans (List.prefix_append _ _)

/-- Begin alike: the first error is the same. -/
theorem Begins.head {es all : List Err} (h : Begins es all) : ∃ e, es.head? = some e ∧ all.head? = some e := by
  obtain ⟨pre, h1, h2⟩ := h
  obtain ⟨x, xs, rfl⟩ := List.exists_cons_of_ne_nil h2.ne
  obtain ⟨a, rfl⟩ := h1
  obtain ⟨b, rfl⟩ := h2.prefix
  exact ⟨x, rfl, rfl⟩

theorem Begins.more {es all all' : List Err} (h : Begins es all) (hp : all <+: all') : Begins es all' := by
  obtain ⟨pre, h1, h2⟩ := h
  exact ⟨pre, h1.trans hp, h2⟩

namespace Modes

/-- The state with the flag of the current error list set. -/
def flag (r : Bool) (τ : TSt P) : TSt P := { τ with errs := τ.errs.map fun b => { b with raising := r } }

@[simp] theorem flag_path (r : Bool) (τ : TSt P) : (flag r τ).path = τ.path := rfl
@[simp] theorem flag_forms (r : Bool) (τ : TSt P) : (flag r τ).forms = τ.forms := rfl
@[simp] theorem flag_npaths (r : Bool) (τ : TSt P) : (flag r τ).npaths = τ.npaths := rfl

/-- The items of the current error list. -/
def items (τ : TSt P) : List Err := τ.errs.elim [] ErrBuf.items

/-- `str(ctx.src_path)` works. -/
def Shown (I : PathOps P) (τ : TSt P) : Prop :=
  match τ.path with
  | none => False
  | some none => True
  | some (some (_, p)) => ∃ t, I.render p = .ok t

/-- An exception no field catches ends the collecting run. -/
def Dead {α : Type} (c : Except Exc α) : Prop :=
  ∃ e, c = .error e ∧ (e.isSourceError || e.isValueError) = false

/-- How the collecting run `c` and the raising run `r` of a computation compare: in step, or the raising one
has raised (the `FormError` of its errors, at a place that can be shown, unless the collecting one is doomed). -/
def Cmp (I : PathOps P) {α : Type} (env : Env) (τ : TSt P) (c r : Except Exc α × TSt P) : Prop :=
  (r.1 = c.1 ∧ ∃ τ', c.2 = flag false τ' ∧ r.2 = flag true τ') ∨
  ((∃ e, r.1 = .error e ∧ (Dead c.1 ∨ (Shown I τ ∧
      (env.field.isSome → e = .formError (items r.2) ∧ Begins (items r.2) (items c.2))))) ∧
    (items r.2 ≠ [] ∧ (∃ b, r.2.errs = some b ∧ b.raising = true)) ∧ items c.2 ≠ [])

/-- The closed predicate. -/
def Agrees (W : LawfulPath I) {α : Type} (t : T P α) : Prop :=
  TKeeps W (fun _ => True) t ∧
  ∀ env τ, TWF W τ → Cmp I env τ (t env (flag false τ)) (t env (flag true τ))

variable {W : LawfulPath I} {α β : Type}

theorem Shown.keep {τ τ' : TSt P} (hw : TWF W τ) (h : PathKeep W τ.path τ'.path) :
    Shown I τ' ↔ Shown I τ := by
  unfold Shown
  unfold PathKeep at h
  rcases hp : τ.path with _ | _ | ⟨r, p⟩ <;> simp only [hp] at h
  · rw [h]
  · rw [h]
  · obtain ⟨q, hq, hs⟩ := h
    rw [hq]
    dsimp only
    rw [W.render_text hs.wf, W.render_text (hw r p hp), hs.keys, hs.shape]

theorem items_keep {τ τ' : TSt P} (h : ErrKeep τ.errs τ'.errs) (hn : items τ ≠ []) : items τ' ≠ [] := by
  unfold items at *
  unfold ErrKeep at h
  cases hb : τ.errs with
  | none => rw [hb] at hn; exact absurd rfl hn
  | some b =>
    rw [hb] at hn h
    obtain ⟨es, he⟩ := h
    rw [he]
    intro hh
    exact hn (List.append_eq_nil_iff.1 hh).1

theorem items_prefix {τ τ' : TSt P} (h : ErrKeep τ.errs τ'.errs) : items τ <+: items τ' := by
  unfold items
  unfold ErrKeep at h
  cases hb : τ.errs with
  | none => exact List.nil_prefix
  | some b =>
    rw [hb] at h
    obtain ⟨es, he⟩ := h
    rw [he]
    exact List.prefix_append _ _

theorem Agrees.same {t : T P α} (hk : TKeeps W (fun _ => True) t)
    (h : ∀ env τ, ∃ τ' x, t env (flag false τ) = (x, flag false τ') ∧ t env (flag true τ) = (x, flag true τ')) :
    Agrees W t := by
  refine ⟨hk, fun env τ _ => ?_⟩
  obtain ⟨τ', x, h1, h2⟩ := h env τ
  rw [h1, h2]
  exact .inl ⟨rfl, τ', rfl, rfl⟩

theorem Agrees.state {t : T P α} (h : ∀ env, ∃ x : List FormObj → Except Exc α, ∀ τ, t env τ = (x τ.forms, τ)) :
    Agrees W t := by
  refine .same (.state fun env τ => ?_) fun env τ => ?_
  · obtain ⟨x, hx⟩ := h env; rw [hx]
  · obtain ⟨x, hx⟩ := h env
    exact ⟨τ, x τ.forms, hx _, hx _⟩

theorem Agrees.onPath {f : P → Except Exc α × P} (h : ∀ p, W.WF p → Same I W.WF W.shape p (f p).2) :
    Agrees W (T.onPath f) := by
  refine .same (.onPath h) fun env τ => ?_
  rcases hp : τ.path with _ | _ | ⟨r, p⟩
  · exact ⟨τ, .error (noCtxAttr "src_path"), by unfold T.onPath; simp [hp], by unfold T.onPath; simp [hp]⟩
  · exact ⟨τ, .error (.attributeError "'NoneType' object has no attribute"), by unfold T.onPath; simp [hp],
      by unfold T.onPath; simp [hp]⟩
  · exact ⟨{ τ with path := some (some (r, (f p).2)) }, (f p).1, T.onPath_run (by simp [hp]),
      T.onPath_run (by simp [hp])⟩

theorem flag_wf {r : Bool} {τ : TSt P} (h : TWF W τ) : TWF W (flag r τ) := h

theorem Agrees.bindR {t : T P α} {f : α → T P β} {post : α → Prop} (hpost : TKeepsR W (fun _ => True) t post)
    (ht : Agrees W t) (hf : ∀ a, post a → Agrees W (f a)) : Agrees W (t >>= f) := by
  refine ⟨.bindR hpost fun a h => (hf a h).1, fun env τ hw => ?_⟩
  have hpc := (hpost env (flag false τ) hw).2
  have hkc := ht.1 env (flag false τ) hw
  have hkr := ht.1 env (flag true τ) hw
  have hc := ht.2 env τ hw
  rcases h1 : t env (flag false τ) with ⟨rc, τc⟩
  rcases h2 : t env (flag true τ) with ⟨rr, τr⟩
  rw [h1] at hkc hc hpc
  rw [h2] at hkr hc
  rcases hc with ⟨he, τ', hs1, hs2⟩ | ⟨⟨e, he, hform⟩, hir, hic⟩
  · dsimp only at he hs1 hs2
    subst he; subst hs1; subst hs2
    cases rr with
    | error e =>
      rw [T.bind_error h1, T.bind_error h2]
      exact .inl ⟨rfl, τ', rfl, rfl⟩
    | ok a =>
      rw [T.bind_ok h1, T.bind_ok h2]
      have hw' : TWF W τ' := hkc.wf hw
      rcases (hf a (hpc a rfl)).2 env τ' hw' with hh | ⟨⟨e, hf1, hf2⟩, hf3⟩
      · exact .inl hh
      · exact .inr ⟨⟨e, hf1, hf2.imp_right fun h => ⟨(Shown.keep (τ' := τ') hw hkc.path).1 h.1, h.2⟩⟩, hf3⟩
  · dsimp only at he
    subst he
    rw [T.bind_error h2]
    have hpre : items τc <+: items ((t >>= f) env (flag false τ)).2 := by
      cases rc with
      | error e' => rw [T.bind_error h1]; exact List.prefix_rfl
      | ok a =>
        rw [T.bind_ok h1]
        exact items_prefix ((hf a (hpc a rfl)).1 env τc (hkc.wf hw)).errs
    refine .inr ⟨⟨e, rfl, hform.imp ?_ fun h => ⟨h.1, fun hf' => ⟨(h.2 hf').1, (h.2 hf').2.more hpre⟩⟩⟩, hir, ?_⟩
    · rintro ⟨x, hx, hx'⟩
      dsimp only at hx
      subst hx
      rw [T.bind_error h1]
      exact ⟨x, rfl, hx'⟩
    · intro hnil
      rw [hnil] at hpre
      exact hic (List.prefix_nil.1 hpre)

theorem Agrees.bind {t : T P α} {f : α → T P β} (ht : Agrees W t) (hf : ∀ a, Agrees W (f a)) :
    Agrees W (t >>= f) := .bindR ht.1.toR ht fun a _ => hf a

theorem Agrees.ofExcept (x : Except Exc α) : Agrees W (T.ofExcept x : T P α) :=
  .state fun _ => ⟨fun _ => x, fun _ => rfl⟩

theorem Agrees.pure (a : α) : Agrees W (T.pure a : T P α) := .state fun _ => ⟨fun _ => .ok a, fun _ => rfl⟩

theorem Agrees.raise (e : Exc) : Agrees W (T.raise e : T P α) :=
  .state fun _ => ⟨fun _ => .error e, fun _ => rfl⟩

theorem Agrees.ctxGet (proj : Env → Option α) (n : String) : Agrees W (T.ctxGet proj n : T P _) :=
  .state fun env => by
    unfold T.ctxGet
    cases proj env with
    | none => exact ⟨fun _ => .error (noCtxAttr n), fun _ => rfl⟩
    | some a => exact ⟨fun _ => .ok a, fun _ => rfl⟩

/-- A report raises in the raising mode, unless it fails in both. -/
theorem Agrees.report (k : ErrKind) : Agrees W (T.report I k) := by
  refine ⟨.report k, fun env τ hw => ?_⟩
  unfold T.report
  cases hb : τ.errs with
  | none =>
    have h : ∀ r, T.errsBound env (flag r τ) = (.error (noCtxAttr "errors"), flag r τ) := by
      intro r; unfold T.errsBound; simp [flag, hb]
    rw [T.bind_error (h _), T.bind_error (h _)]
    exact .inl ⟨rfl, τ, rfl, rfl⟩
  | some b =>
    have h : ∀ r, T.errsBound env (flag r τ) = (.ok (), flag r τ) := by
      intro r; unfold T.errsBound; simp [flag, hb]
    rw [T.bind_ok (h _), T.bind_ok (h _)]
    cases hf : env.field with
    | none =>
      have h : ∀ r, T.ctxGet Env.field "field" env (flag r τ) = (.error (noCtxAttr "field"), flag r τ) := by
        intro r; unfold T.ctxGet; simp [hf]
      rw [T.bind_error (h _), T.bind_error (h _)]
      exact .inl ⟨rfl, τ, rfl, rfl⟩
    | some fn =>
      have h : ∀ r, T.ctxGet Env.field "field" env (flag r τ) = (.ok fn, flag r τ) := by
        intro r; unfold T.ctxGet; simp [hf]
      rw [T.bind_ok (h _), T.bind_ok (h _)]
      have hpt : (∃ e, ∀ r, T.pathText I env (flag r τ) = (.error e, flag r τ)) ∨
          (Shown I τ ∧ ∃ x, ∀ r, T.pathText I env (flag r τ) = (.ok x, flag r τ)) := by
        unfold T.pathText Shown
        rcases hp : τ.path with _ | _ | ⟨q, p⟩
        · exact .inl ⟨noCtxAttr "src_path", fun r => by simp [hp]⟩
        · exact .inr ⟨trivial, ("None", none), fun r => by simp [hp]⟩
        · cases hr : I.render p with
          | error e => exact .inl ⟨e, fun r => by simp [hp, hr]⟩
          | ok x => exact .inr ⟨⟨x, hr⟩, (x, some q), fun r => by simp [hp, hr]⟩
      rcases hpt with ⟨e, he⟩ | ⟨hsh, x, hx⟩
      · rw [T.bind_error (he _), T.bind_error (he _)]
        exact .inl ⟨rfl, τ, rfl, rfl⟩
      · rw [T.bind_ok (hx _), T.bind_ok (hx _)]
        refine .inr ⟨?_, ?_, ?_⟩
        · unfold T.record
          simp only [flag, hb, Option.map_some]
          refine ⟨_, rfl, .inr ⟨hsh, fun _ => ⟨rfl, _, List.prefix_rfl, .first ?_⟩⟩⟩
          simp [items]
        · unfold T.record
          simp [flag, hb, items]
        · unfold T.record
          simp [flag, hb, items]

/-- In the raising mode a report always raises. -/
theorem report_raises (k : ErrKind) (env : Env) (τ : TSt P) {b : ErrBuf} (hb : τ.errs = some b)
    (hr : b.raising = true) : ∃ e, (T.report I k env τ).1 = .error e ∧
      (env.field.isSome → Shown I τ → e = .formError (items (T.report I k env τ).2) ∧
        ∃ x : Err, x.kind = k ∧ items (T.report I k env τ).2 = items τ ++ [x]) ∧ (items τ ≠ [] → items (T.report I k env τ).2 ≠ []) ∧
      ∃ b', (T.report I k env τ).2.errs = some b' ∧ b'.raising = true := by
  unfold T.report
  rw [T.bind_ok (show T.errsBound env τ = (.ok (), τ) by unfold T.errsBound; rw [hb])]
  cases hf : env.field with
  | none =>
    rw [T.bind_error (show T.ctxGet Env.field "field" env τ = (.error (noCtxAttr "field"), τ) by
      unfold T.ctxGet; rw [hf])]
    exact ⟨_, rfl, fun h => by simp at h, id, b, hb, hr⟩
  | some fn =>
    rw [T.bind_ok (show T.ctxGet Env.field "field" env τ = (.ok fn, τ) by unfold T.ctxGet; rw [hf])]
    have hpt : (¬ Shown I τ ∧ ∃ e, T.pathText I env τ = (.error e, τ)) ∨ ∃ x, T.pathText I env τ = (.ok x, τ) := by
      unfold T.pathText Shown
      rcases hp : τ.path with _ | _ | ⟨q, p⟩
      · exact .inl ⟨id, noCtxAttr "src_path", rfl⟩
      · exact .inr ⟨("None", none), rfl⟩
      · cases hr : I.render p with
        | error e => exact .inl ⟨fun ⟨t, ht⟩ => by simp [hr] at ht, e, by simp [hr]⟩
        | ok x => exact .inr ⟨(x, some q), by simp [hr]⟩
    rcases hpt with ⟨hns, e, he⟩ | ⟨x, hx⟩
    · rw [T.bind_error he]
      exact ⟨e, rfl, fun _ h => absurd h hns, id, b, hb, hr⟩
    · obtain ⟨tx, pr⟩ := x
      rw [T.bind_ok hx]
      dsimp only
      unfold T.record
      rw [hb]
      simp only [hr, if_true]
      exact ⟨_, rfl, fun _ _ => ⟨rfl, { kind := k, path := tx, field := fn, pathRef := pr }, rfl, by simp [items, hb]⟩,
        fun _ => by simp [items], _, rfl, rfl⟩

/-- Catching an error and reporting it. -/
theorem Agrees.catchReport {t : T P α} {c : Exc → Bool} {v : α}
    (hce : ∀ e, c e = true → (e.isSourceError || e.isValueError) = true) (ht : Agrees W t) :
    Agrees W (T.tryCatch t fun e => if c e then (T.report I (.invalid e.str) >>= fun _ => T.pure v) else T.raise e) := by
  have hh : ∀ e, Agrees W (if c e then (T.report I (.invalid e.str) >>= fun _ => T.pure v) else T.raise e) := by
    intro e
    split
    · exact .bind (.report _) fun _ => .pure _
    · exact .raise e
  refine ⟨.tryCatch ht.1 fun e => (hh e).1, fun env τ hw => ?_⟩
  have hkc := ht.1 env (flag false τ) hw
  have hkr := ht.1 env (flag true τ) hw
  have hcm := ht.2 env τ hw
  unfold T.tryCatch
  rcases h1 : t env (flag false τ) with ⟨rc, τc⟩
  rcases h2 : t env (flag true τ) with ⟨rr, τr⟩
  rw [h1] at hkc hcm
  rw [h2] at hkr hcm
  rcases hcm with ⟨he, τ', hs1, hs2⟩ | ⟨⟨e, he, hform⟩, ⟨hir, b, hb, hbr⟩, hic⟩
  · dsimp only at he hs1 hs2
    subst he; subst hs1; subst hs2
    cases rr with
    | ok a => exact .inl ⟨rfl, τ', rfl, rfl⟩
    | error e =>
      dsimp only
      rcases (hh e).2 env τ' (hkc.wf hw) with h | ⟨⟨e, hf1, hf2⟩, hf3⟩
      · exact .inl h
      · exact .inr ⟨⟨e, hf1, hf2.imp_right fun h => ⟨(Shown.keep (τ' := τ') hw hkc.path).1 h.1, h.2⟩⟩, hf3⟩
  · dsimp only at he hic hir hb
    subst he
    have hdead : Dead rc → Dead (match ((rc, τc) : Except Exc α × TSt P) with
        | (.ok a, s') => (Except.ok a, s')
        | (.error e, s') => (if c e then (T.report I (.invalid e.str) >>= fun _ => T.pure v) else T.raise e) env s').1 := by
      rintro ⟨x, rfl, hx⟩
      dsimp only
      rw [if_neg (fun h => by rw [hce x h] at hx; cases hx)]
      exact ⟨x, rfl, hx⟩
    have hpre : items τc <+: items (match ((rc, τc) : Except Exc α × TSt P) with
        | (.ok a, s') => (Except.ok a, s')
        | (.error e, s') => (if c e then (T.report I (.invalid e.str) >>= fun _ => T.pure v) else T.raise e) env s').2 := by
      cases rc with
      | ok a => exact List.prefix_rfl
      | error e' => exact items_prefix ((hh e').1 env τc (hkc.wf hw)).errs
    refine .inr ⟨?_, ?_, ?_⟩
    · dsimp only
      by_cases hce : c e = true
      · rw [if_pos hce]
        obtain ⟨e', he', hfe, -, -⟩ := report_raises (I := I) (.invalid e.str) env τr hb hbr
        rcases hrun : T.report I (.invalid e.str) env τr with ⟨x, τx⟩
        rw [hrun] at he' hfe
        dsimp only at he'
        subst he'
        rw [T.bind_error hrun]
        refine ⟨e', rfl, hform.imp hdead fun h => ⟨h.1, fun hfs => ?_⟩⟩
        obtain ⟨h1, x, hx, hi⟩ := hfe hfs ((Shown.keep (τ' := τr) hw hkr.path).2 h.1)
        obtain ⟨h2, pre, hp, hra⟩ := h.2 hfs
        refine ⟨h1, pre, hp.trans hpre, ?_⟩
        dsimp only at hi hra ⊢
        rw [hi]
        refine .told hra ?_
        rw [hx, h2]
      · rw [if_neg hce]
        exact ⟨e, rfl, hform.imp hdead fun h => ⟨h.1, fun hfs => ⟨(h.2 hfs).1, (h.2 hfs).2.more hpre⟩⟩⟩
    · dsimp only
      by_cases hce : c e = true
      · rw [if_pos hce]
        obtain ⟨e', he', -, hi, hb'⟩ := report_raises (I := I) (.invalid e.str) env τr hb hbr
        rcases hrun : T.report I (.invalid e.str) env τr with ⟨x, τx⟩
        rw [hrun] at he' hi hb'
        dsimp only at he'
        subst he'
        rw [T.bind_error hrun]
        exact ⟨hi hir, hb'⟩
      · rw [if_neg hce]
        exact ⟨hir, b, hb, hbr⟩
    · cases rc with
      | ok a => exact hic
      | error e' =>
        exact items_keep ((hh e').1 env τc (hkc.wf hw)).errs hic

theorem Agrees.withEnv (g : Env → Env) {t : T P α} (hg : ∀ env, env.field.isSome → (g env).field.isSome)
    (h : Agrees W t) : Agrees W (T.withEnv g t) := by
  refine ⟨.withEnv h.1, fun env τ hw => ?_⟩
  rcases h.2 (g env) τ hw with h | ⟨⟨e, h1, h2⟩, h3⟩
  · exact .inl h
  · exact .inr ⟨⟨e, h1, h2.imp_right fun h => ⟨h.1, fun hf => h.2 (hg env hf)⟩⟩, h3⟩

/-- A block with its own error list runs identically in both modes. -/
theorem Agrees.withErrs (r : Bool) {t : T P α} (h : TKeeps W (fun _ => True) t) :
    Agrees W (T.withErrs r t) := by
  refine .same (.withErrs h) fun env τ => ?_
  unfold T.withErrs
  have e : ∀ r', { flag r' τ with errs := some { raising := r, items := [] } }
      = { τ with errs := some { raising := r, items := [] } } := fun _ => rfl
  rw [e, e]
  rcases t env { τ with errs := some { raising := r, items := [] } } with ⟨x, τ'⟩
  cases x with
  | ok a => exact ⟨{ τ' with errs := τ.errs }, _, rfl, rfl⟩
  | error x => exact ⟨{ τ' with errs := τ.errs }, _, rfl, rfl⟩

theorem Agrees.extend (es : List Err) : Agrees W (T.extend es : T P Unit) := by
  refine .same (.extend es) fun env τ => ?_
  unfold T.extend
  cases hb : τ.errs with
  | none => exact ⟨τ, .error (noCtxAttr "errors"), by simp [flag, hb], by simp [flag, hb]⟩
  | some b =>
    exact ⟨{ τ with errs := some { b with items := b.items ++ es } }, .ok (), by simp [flag, hb],
      by simp [flag, hb]⟩

theorem TKeeps_newForm (cls : Nat) : TKeeps W (fun _ => True) (T.newForm cls : T P Nat) := by
  have h := TKeeps.newForm (W := W) (ok := fun _ => True) (cls := cls) (f := T.pure) fun _ => .pure _
  intro env τ hw
  exact h env τ hw

theorem Agrees.newForm (cls : Nat) : Agrees W (T.newForm cls : T P Nat) :=
  .same (TKeeps_newForm cls) fun _ τ =>
    ⟨{ τ with forms := τ.forms ++ [{ cls := cls, items := [] }] }, .ok τ.forms.length, rfl, rfl⟩

theorem Agrees.seqTry : Agrees W (Lex.seqTry I) := by
  refine .same .seqTry fun env τ => ?_
  have hfail : ∀ e, (∀ r, T.onPath I.sequence env (flag r τ) = (.error e, flag r τ)) →
      (∀ r, Lex.pathHasSrc I env (flag r τ) = (.error e, flag r τ)) →
      ∀ r, Lex.seqTry I env (flag r τ) = (.error e, flag r τ) := by
    intro e h1 h2 r
    unfold Lex.seqTry T.tryCatch
    rw [T.bind_error (h1 r)]
    dsimp only
    rw [T.bind_error (h2 r)]
  rcases hp : τ.path with _ | _ | ⟨q, p⟩
  · refine ⟨τ, _, hfail (noCtxAttr "src_path") ?_ ?_ _, hfail (noCtxAttr "src_path") ?_ ?_ _⟩ <;>
      (intro r; first | unfold Lex.pathHasSrc | skip) <;> (unfold T.onPath; simp [hp])
  · refine ⟨τ, _, hfail (.attributeError "'NoneType' object has no attribute") ?_ ?_ _, hfail _ ?_ ?_ _⟩ <;>
      (intro r; first | unfold Lex.pathHasSrc | skip) <;> (unfold T.onPath; simp [hp])
  · have h1 : ∀ r, T.onPath I.sequence env (flag r τ) =
        ((I.sequence p).1, flag r { τ with path := some (some (q, (I.sequence p).2)) }) := fun r =>
      T.onPath_run (by simp [hp])
    cases hs : (I.sequence p).1 with
    | ok m =>
      refine ⟨{ τ with path := some (some (q, (I.sequence p).2)) }, .ok (.ok m), ?_, ?_⟩ <;>
        (unfold Lex.seqTry T.tryCatch; rw [T.bind_ok ((h1 _).trans (by rw [hs]))]; rfl)
    | error e =>
      have h2 : ∀ r, Lex.pathHasSrc I env (flag r { τ with path := some (some (q, (I.sequence p).2)) }) =
        (.ok (I.hasSrc (I.sequence p).2), flag r { τ with path := some (some (q, (I.sequence p).2)) }) := fun r =>
          T.onPath_run rfl
      refine ⟨{ τ with path := some (some (q, (I.sequence p).2)) },
        if !(I.hasSrc (I.sequence p).2) then .error (.attributeError "'MountPath' object has no attribute 'src'")
        else if e.isSourceError then .ok (.error e) else .error e, ?_, ?_⟩ <;>
      · unfold Lex.seqTry T.tryCatch
        rw [T.bind_error ((h1 _).trans (by rw [hs]))]
        dsimp only
        rw [T.bind_ok (h2 _)]
        split
        · rfl
        · split <;> rfl

theorem Agrees.withKey (hR : Renders W) (k : Val) {t : T P α} (h : Agrees W t) :
    Agrees W (T.withKey I k t) := by
  refine ⟨.withKey k h.1, fun env τ hw => ?_⟩
  rcases hp : τ.path with _ | _ | ⟨r, p⟩
  · unfold T.withKey T.onPath
    simp only [flag_path, hp]
    exact .inl ⟨rfl, τ, rfl, rfl⟩
  · unfold T.withKey T.onPath
    simp only [flag_path, hp]
    exact .inl ⟨rfl, τ, rfl, rfl⟩
  · have hwp := hw r p hp
    cases hap : I.append p k with
    | error e =>
      have hrun : ∀ b, T.withKey I k t env (flag b τ) = (.error e, flag b { τ with path := some (some (r, p)) }) := by
        intro b
        unfold T.withKey
        rw [T.onPath_run (by rw [flag_path, hp])]
        simp only [pathAppend, hap]
        rfl
      rw [hrun, hrun]
      exact .inl ⟨rfl, _, rfl, rfl⟩
    | ok q =>
      obtain ⟨hk, hwq⟩ := W.append_keys hwp hap
      have hsh := W.append_shape hwp hap
      have hw1 : TWF W { τ with path := some (some (r, q)) } := by intro r' q' hq'; cases hq'; exact hwq
      have step : ∀ b, ∃ x τ2 p3 q2, t { env with src := some (!k.isNull) }
            (flag b { τ with path := some (some (r, q)) }) = (x, τ2) ∧ τ2.path = some (some (r, q2)) ∧
            I.pop q2 = .ok p3 ∧
            T.withKey I k t env (flag b τ) = (x, { τ2 with path := some (some (r, p3)) }) := by
        intro b
        have h1 := h.1 { env with src := some (!k.isNull) } (flag b { τ with path := some (some (r, q)) }) hw1
        rcases hr : t { env with src := some (!k.isNull) } (flag b { τ with path := some (some (r, q)) })
          with ⟨res, τ2⟩
        rw [hr] at h1
        obtain ⟨q2, hq2, hs2⟩ := h1.path
        obtain ⟨p3, hpop, hk3, hw3, hsh3⟩ := W.pop_keys (p := q2) (ks := I.keys p) (k := k) hs2.wf
          (by rw [hs2.keys, hk])
        exact ⟨res, τ2, p3, q2, rfl, hq2, hpop,
          T.withKey_run (τ := flag b τ) (by rw [flag_path, hp]) hap hr hq2 hpop⟩
      obtain ⟨xc, τc, pc, qc, hrc, hqc, hpc, hwc⟩ := step false
      obtain ⟨xr, τr, pr, qr, hrr, hqr, hpr, hwr⟩ := step true
      have hcmp := h.2 { env with src := some (!k.isNull) } { τ with path := some (some (r, q)) } hw1
      rw [hrc, hrr] at hcmp
      rw [hwc, hwr]
      rcases hcmp with ⟨he, τ', hs1, hs2⟩ | ⟨⟨e, he, hform⟩, hir, hic⟩
      · dsimp only at he hs1 hs2
        subst he; subst hs1; subst hs2
        rw [flag_path] at hqc hqr
        rw [hqc] at hqr
        cases hqr
        rw [hpc] at hpr
        cases hpr
        exact .inl ⟨rfl, { τ' with path := some (some (r, pc)) }, rfl, rfl⟩
      · refine .inr ⟨⟨e, he, hform.imp_right fun ⟨hs, h⟩ => ⟨?_, h⟩⟩, hir, hic⟩
        unfold Shown at hs ⊢
        rw [hp]
        exact hR p q k hwp hwq hsh hk hs

theorem Agrees.ite {c : Prop} [Decidable c] {t u : T P α} (ht : c → Agrees W t) (hu : ¬c → Agrees W u) :
    Agrees W (if c then t else u) := by
  split
  · exact ht ‹_›
  · exact hu ‹_›

/-! ### Reading the type of a polymorphic field -/

section
variable {L : Lib} {C : Classes} {n : Nat}

theorem Agrees.formCls (id : Nat) : Agrees W (T.formCls id : T P _) :=
  .state fun _ => ⟨fun fs => match fs[id]? with
    | some o => .ok o.cls
    | none => .error (.other "ReferenceError" "dangling form"), fun τ => by
      unfold T.formCls
      dsimp only
      split <;> simp [*]⟩

theorem Agrees.formModify (id : Nat) (g : List (Val × Val) → List (Val × Val)) :
    Agrees W (T.formModify id g : T P Unit) :=
  .same (.formModify trivial g) fun _ τ =>
    ⟨{ τ with forms := τ.forms.modify id fun o => { o with items := g o.items } }, .ok (), rfl, rfl⟩

theorem Agrees.nestedMap (hC : C.All (ValueHooks True)) (id : Nat) (tags : List String) {u : Unmapped}
    (hu : u.All (ValueHooks True)) : Agrees W (Lex.nestedMap I C (Lex.mapField I L C n) id tags u false) :=
  .bind (.withErrs _ (.formMapBody hC (TKeeps.mapField hC n) trivial tags hu)) fun _ =>
    .bind (.extend _) fun _ => .pure _

theorem Agrees.rootSource (id : Nat) (src : SrcArg P) : Agrees W (Lex.rootSource I C id src) := by
  unfold Lex.rootSource
  split
  · exact .pure _
  · exact .pure _
  · exact .pure _
  · exact .bind (.formCls _) fun _ => .pure _
  · exact .bind (.formCls _) fun _ => .pure _
  · exact .raise _

theorem Agrees.rootMap (hC : C.All (ValueHooks True)) (id : Nat) {src : SrcArg P} (hsrc : SrcOK W src)
    (tags : List String) {u : Unmapped} (hu : u.All (ValueHooks True)) :
    Agrees W (Lex.rootMap I C (Lex.mapField I L C n) id src tags u false) :=
  .bindR (rootSource_wf hsrc) (.rootSource id src) fun _ hmk =>
    .bind (.withErrs _ (.withSource hmk (.formMapBody hC (TKeeps.mapField hC n) trivial tags hu))) fun _ => .pure _

theorem Agrees.formResetIf (id : Nat) (tags : List String) (reset : Bool) :
    Agrees W (Lex.formResetIf C id tags reset : T P Unit) := by
  unfold Lex.formResetIf
  refine .ite (fun _ => .bind (.formCls _) fun cls => ?_) fun _ => .pure _
  induction (C cls).fields with
  | nil => exact .pure _
  | cons f fs ih =>
    unfold Lex.formReset
    exact .bind (.ite (fun _ => .formModify _ _) fun _ => .pure _) fun _ => ih

theorem Agrees.formMap (hC : C.All (ValueHooks True)) (id : Nat) {src : SrcArg P} (hsrc : SrcOK W src)
    (tags : List String) (reset : Bool) {u : Unmapped} (hu : u.All (ValueHooks True)) :
    Agrees W (Lex.formMap I C (Lex.mapField I L C n) id src tags reset u false) := by
  unfold Lex.formMap
  refine .bind (.state fun env => ⟨fun _ => .ok env.tags, fun _ => rfl⟩) fun ct => .bind (.formResetIf _ _ _)
    fun _ => .bind (.ctxGet _ _) fun cs => .bind ?_ fun es => .pure es
  unfold Lex.formMapAt
  exact .ite (fun _ => .ite (fun _ => .nestedMap hC id _ hu) fun _ => .rootMap hC id (src := .none) trivial _ hu)
    fun _ => .rootMap hC id hsrc _ hu

/-! ### A string field that reports gives no value -/

/-- Wherever the two runs part, the collecting one returns a value with `Q`. -/
def Marks (W : LawfulPath I) (Q : α → Prop) (t : T P α) : Prop :=
  ∀ env τ, TWF W τ →
    ((t env (flag true τ)).1 = (t env (flag false τ)).1 ∧
      ∃ τ', (t env (flag false τ)).2 = flag false τ' ∧ (t env (flag true τ)).2 = flag true τ' ∧ TWF W τ') ∨
    ∃ a, (t env (flag false τ)).1 = .ok a ∧ Q a

/-- A computation that gives a value with `Q` in any case. -/
def Gives (Q : α → Prop) (t : T P α) : Prop := ∀ env τ, ∃ a, (t env τ).1 = .ok a ∧ Q a

variable {Q : α → Prop} {R : β → Prop}

theorem Marks.bind {t : T P α} {f : α → T P β} (ht : Marks W Q t) (hf : ∀ a, Marks W R (f a))
    (hg : ∀ a, Q a → Gives R (f a)) : Marks W R (t >>= f) := by
  intro env τ hw
  rcases h1 : t env (flag false τ) with ⟨rc, τc⟩
  rcases h2 : t env (flag true τ) with ⟨rr, τr⟩
  have h := ht env τ hw
  rw [h1, h2] at h
  rcases h with ⟨he, τ', hc, hr, hw'⟩ | ⟨a, ha, hq⟩
  · dsimp only at he hc hr
    subst he; subst hc; subst hr
    cases rr with
    | error e => rw [T.bind_error h1, T.bind_error h2]; exact .inl ⟨rfl, τ', rfl, rfl, hw'⟩
    | ok a => rw [T.bind_ok h1, T.bind_ok h2]; exact hf a env τ' hw'
  · dsimp only at ha
    subst ha
    rw [T.bind_ok h1]
    exact .inr (hg a hq env τc)

theorem Marks.same {t : T P α} (hk : TKeeps W (fun _ => True) t)
    (h : ∀ env τ, ∃ τ' x, t env (flag false τ) = (x, flag false τ') ∧ t env (flag true τ) = (x, flag true τ')) :
    Marks W Q t := by
  intro env τ hw
  obtain ⟨τ', x, h1, h2⟩ := h env τ
  have hk' := hk env (flag false τ) hw
  rw [h1] at hk'
  rw [h1, h2]
  exact .inl ⟨rfl, τ', rfl, rfl, hk'.wf hw⟩

theorem Marks.state {t : T P α} (h : ∀ env, ∃ x : Except Exc α, ∀ τ, t env τ = (x, τ)) : Marks W Q t := by
  intro env τ hw
  obtain ⟨x, hx⟩ := h env
  rw [hx, hx]
  exact .inl ⟨rfl, τ, rfl, rfl, hw⟩

theorem Marks.ofExcept (x : Except Exc α) : Marks W Q (T.ofExcept x : T P α) := .state fun _ => ⟨x, fun _ => rfl⟩
theorem Marks.pure (a : α) : Marks W Q (T.pure a : T P α) := .state fun _ => ⟨.ok a, fun _ => rfl⟩
theorem Marks.raise (e : Exc) : Marks W Q (T.raise e : T P α) := .state fun _ => ⟨.error e, fun _ => rfl⟩
theorem Marks.ctxGet (proj : Env → Option α) (n : String) : Marks W Q (T.ctxGet proj n : T P _) :=
  .state fun env => by
    unfold T.ctxGet
    cases proj env with
    | none => exact ⟨.error (noCtxAttr n), fun _ => rfl⟩
    | some a => exact ⟨.ok a, fun _ => rfl⟩

theorem Gives.pure {a : α} (h : Q a) : Gives Q (T.pure a : T P α) := fun _ _ => ⟨a, rfl, h⟩

theorem Marks.onPath {f : P → Except Exc α × P} (h : ∀ p, W.WF p → Same I W.WF W.shape p (f p).2) :
    Marks W Q (T.onPath f) := by
  refine .same (.onPath h) fun env τ => ?_
  rcases hp : τ.path with _ | _ | ⟨r, p⟩
  · exact ⟨τ, .error (noCtxAttr "src_path"), by unfold T.onPath; simp [hp], by unfold T.onPath; simp [hp]⟩
  · exact ⟨τ, .error (.attributeError "'NoneType' object has no attribute"), by unfold T.onPath; simp [hp],
      by unfold T.onPath; simp [hp]⟩
  · exact ⟨{ τ with path := some (some (r, (f p).2)) }, (f p).1, T.onPath_run (by simp [hp]),
      T.onPath_run (by simp [hp])⟩

theorem Marks.report (k : ErrKind) : Marks W (fun _ => True) (T.report I k) := by
  refine .bind (Q := fun _ => False) ?_ (fun _ => .bind (Q := fun _ => False) (.ctxGet _ _) (fun fn =>
    .bind (Q := fun _ => False) ?_ (fun x => ?_) fun _ h => h.elim) fun _ h => h.elim) fun _ h => h.elim
  · refine .same (by intro env τ hw; exact TKeeps.errsBound env τ hw) fun env τ => ?_
    unfold T.errsBound
    cases hb : τ.errs with
    | none => exact ⟨τ, .error (noCtxAttr "errors"), by simp [flag, hb], by simp [flag, hb]⟩
    | some b => exact ⟨τ, .ok (), by simp [flag, hb], by simp [flag, hb]⟩
  · refine .same (by intro env τ hw; exact TKeeps.pathText env τ hw) fun env τ => ?_
    unfold T.pathText
    rcases hp : τ.path with _ | _ | ⟨q, p⟩
    · exact ⟨τ, .error (noCtxAttr "src_path"), by simp [hp], by simp [hp]⟩
    · exact ⟨τ, .ok ("None", none), by simp [hp], by simp [hp]⟩
    · cases hr : I.render p with
      | error e => exact ⟨τ, .error e, by simp [hp, hr], by simp [hp, hr]⟩
      | ok x => exact ⟨τ, .ok (x, some q), by simp [hp, hr], by simp [hp, hr]⟩
  · intro env τ hw
    dsimp only
    unfold T.record
    cases hb : τ.errs with
    | none => exact .inl ⟨by simp [flag, hb], τ, by simp [flag, hb], by simp [flag, hb], hw⟩
    | some b => exact .inr ⟨(), by simp [flag, hb], trivial⟩

theorem Marks.then {t : T P Unit} {a : α} (ht : Marks W (fun _ => True) t) (h : Q a) :
    Marks W Q (t >>= fun _ => T.pure a) :=
  .bind ht (fun _ => .pure a) fun _ _ => .pure h

theorem Marks.withEnv (g : Env → Env) {t : T P α} (h : Marks W Q t) : Marks W Q (T.withEnv g t) :=
  fun env τ hw => h (g env) τ hw

/-- Computations that never part. -/
theorem Marks.first {t : T P α} {f : α → T P β} (ht : Marks W (fun _ => False) t) (hf : ∀ a, Marks W R (f a)) :
    Marks W R (t >>= f) := .bind ht hf fun _ h => h.elim

theorem Marks.ite {c : Prop} [Decidable c] {t u : T P α} (ht : c → Marks W Q t) (hu : ¬c → Marks W Q u) :
    Marks W Q (if c then t else u) := by
  split
  · exact ht ‹_›
  · exact hu ‹_›

theorem Marks.tryCatch {t : T P α} {h : Exc → T P α} (ht : Marks W (fun _ => False) t) (hh : ∀ e, Marks W Q (h e)) :
    Marks W Q (T.tryCatch t h) := by
  intro env τ hw
  unfold T.tryCatch
  rcases h1 : t env (flag false τ) with ⟨rc, τc⟩
  rcases h2 : t env (flag true τ) with ⟨rr, τr⟩
  have hm := ht env τ hw
  rw [h1, h2] at hm
  rcases hm with ⟨he, τ', hc, hr, hw'⟩ | ⟨a, ha, hq⟩
  · dsimp only at he hc hr
    subst he; subst hc; subst hr
    cases rr with
    | error e => exact hh e env τ' hw'
    | ok a => exact .inl ⟨rfl, τ', rfl, rfl, hw'⟩
  · exact hq.elim

theorem Marks.withKey (k : Val) {t : T P α} (hk : TKeeps W (fun _ => True) t) (h : Marks W Q t) :
    Marks W Q (T.withKey I k t) := by
  intro env τ hw
  rcases hp : τ.path with _ | _ | ⟨r, p⟩
  · unfold T.withKey T.onPath
    simp only [flag_path, hp]
    exact .inl ⟨trivial, τ, rfl, rfl, hw⟩
  · unfold T.withKey T.onPath
    simp only [flag_path, hp]
    exact .inl ⟨trivial, τ, rfl, rfl, hw⟩
  · have hwp := hw r p hp
    cases hap : I.append p k with
    | error e =>
      have hrun : ∀ b, T.withKey I k t env (flag b τ) = (.error e, flag b { τ with path := some (some (r, p)) }) := by
        intro b
        unfold T.withKey
        rw [T.onPath_run (by rw [flag_path, hp])]
        simp only [pathAppend, hap]
        rfl
      rw [hrun, hrun]
      exact .inl ⟨rfl, _, rfl, rfl, by intro r' q' hq'; cases hq'; exact hwp⟩
    | ok q =>
      obtain ⟨hkk, hwq⟩ := W.append_keys hwp hap
      have hw1 : TWF W { τ with path := some (some (r, q)) } := by intro r' q' hq'; cases hq'; exact hwq
      have step : ∀ b, ∃ x τ2 p3 q2, t { env with src := some (!k.isNull) }
            (flag b { τ with path := some (some (r, q)) }) = (x, τ2) ∧ τ2.path = some (some (r, q2)) ∧
            I.pop q2 = .ok p3 ∧ W.WF p3 ∧
            T.withKey I k t env (flag b τ) = (x, { τ2 with path := some (some (r, p3)) }) := by
        intro b
        have h1 := hk { env with src := some (!k.isNull) } (flag b { τ with path := some (some (r, q)) }) hw1
        rcases hr : t { env with src := some (!k.isNull) } (flag b { τ with path := some (some (r, q)) })
          with ⟨res, τ2⟩
        rw [hr] at h1
        obtain ⟨q2, hq2, hs2⟩ := h1.path
        obtain ⟨p3, hpop, hk3, hw3, hsh3⟩ := W.pop_keys (p := q2) (ks := I.keys p) (k := k) hs2.wf
          (by rw [hs2.keys, hkk])
        exact ⟨res, τ2, p3, q2, rfl, hq2, hpop, hw3,
          T.withKey_run (τ := flag b τ) (by rw [flag_path, hp]) hap hr hq2 hpop⟩
      obtain ⟨xc, τc, pc, qc, hrc, hqc, hpc, hw3, hwc⟩ := step false
      obtain ⟨xr, τr, pr, qr, hrr, hqr, hpr, -, hwr⟩ := step true
      have hm := h { env with src := some (!k.isNull) } { τ with path := some (some (r, q)) } hw1
      rw [hrc, hrr] at hm
      rw [hwc, hwr]
      rcases hm with ⟨he, τ', hs1, hs2, -⟩ | hq
      · dsimp only at he hs1 hs2
        subst he; subst hs1; subst hs2
        rw [flag_path] at hqc hqr
        rw [hqc] at hqr
        cases hqr
        rw [hpc] at hpr
        cases hpr
        exact .inl ⟨rfl, { τ' with path := some (some (r, pc)) }, rfl, rfl,
          by intro r' q' hq'; cases hq'; exact hw3⟩
      · exact .inr hq

section
variable {rec : TRec P} {f : Field}

theorem Marks.rejectWith (msg : String) : Marks W (fun b => b = false) (Lex.rejectWith I msg) :=
  .then (.report _) rfl

theorem Marks.failWith (msg : String) : Marks W (fun v => v = Val.ERROR) (Lex.failWith I msg) :=
  .then (.report _) rfl

theorem Marks.fieldDefault (hf : ValueHooks True f) :
    Marks W (fun v => v.isIgnore = true) (Lex.fieldDefault I L C rec f) := by
  have hmiss : Marks W (fun v => v.isIgnore = true) (Lex.missingNotSet I) :=
    .first (.ctxGet _ _) fun _ => .ite (fun _ => .pure _) fun _ => .then (.report _) rfl
  unfold Lex.fieldDefault
  refine .first (.ctxGet _ _) fun ig => .ite (fun _ => hmiss) fun _ => ?_
  rcases hf.default with h | ⟨v, h⟩
  · rw [h]; exact hmiss
  · rw [h]
    split
    · exact hmiss
    · rename_i hh; cases hh
    · rename_i hh; cases hh
    · exact hmiss
    · exact .ofExcept _
    · exact .pure _

theorem Marks.kindValidate {c : StrCfg} (hc : f.kind = .string c) (v : Val) :
    Marks W (fun b => b = false) (Lex.kindValidate I L f v) := by
  unfold Lex.kindValidate Lex.baseValidate
  refine .bind (Q := fun b => b = false) (.ite (fun _ => .rejectWith _) fun _ => .pure _) (fun ok => ?_) ?_
  · refine .ite (fun _ => .pure _) fun _ => .ite (fun _ => .pure _) fun _ => ?_
    rw [hc]
    dsimp only
    unfold Lex.stringValidate
    refine .first (.ofExcept _) fun bad => .ite (fun _ => .first (.ofExcept _) fun _ => .rejectWith _) fun _ =>
      .first (.ofExcept _) fun short => .ite (fun _ => .rejectWith _) fun _ =>
      .first (.ofExcept _) fun long => .ite (fun _ => .rejectWith _) fun _ =>
      .first (.ofExcept _) fun pat => .ite (fun _ => .rejectWith _) fun _ => .ite (fun _ => ?_) fun _ => .pure _
    split <;> exact .rejectWith _
  · rintro _ rfl
    exact .pure rfl

theorem Marks.callHook1 {Q : Val → Prop} {h : Hook (Val → Prog)} (hp : h.Wordless) (v : Val) :
    Marks W Q (Lex.callHook1 I L C rec h v) := by
  obtain ⟨g, hg⟩ := hp
  unfold Lex.callHook1 Lex.hookTarget
  refine .first ?_ fun t => ?_
  · cases h.target with
    | none => exact .first (.ctxGet _ _) fun _ => .pure _
    | some t => exact .pure _
  · rw [hg]
    cases g v with
    | ok w => exact .pure _
    | error e => exact .raise e

theorem Marks.mungeStep {Q : Val → Prop} (hf : f.Wordless) (v : Val) : Marks W Q (Lex.mungeStep I L C rec f v) := by
  unfold Lex.mungeStep
  refine .first (.ofExcept _) fun v => .ite (fun _ => .pure _) fun _ => ?_
  cases hm : f.core.munge with
  | none => exact .pure _
  | some h => exact .callHook1 (hf.munge h hm) v

theorem Marks.filterStep {Q : Bool → Prop} (hf : f.Wordless) (v : Val) : Marks W Q (Lex.filterStep I L C rec f v) := by
  unfold Lex.filterStep
  refine .ite (fun _ => ?_) fun _ => .pure _
  cases hm : f.core.filter with
  | none => exact .pure _
  | some h => exact .first (.callHook1 (hf.filter h hm) v) fun _ => .pure _

theorem Marks.validateStep (hf : f.Wordless) {c : StrCfg} (hc : f.kind = .string c) (v : Val) :
    Marks W (fun b => b = false) (Lex.validateStep I L C rec f v) := by
  unfold Lex.validateStep
  refine .bind (.kindValidate hc v) (fun b => .ite (fun _ => ?_) fun _ => .pure _) ?_
  · cases hm : f.core.validate with
    | none => exact .pure _
    | some h => exact .first (.callHook1 (hf.validate h hm) v) fun _ => .pure _
  · rintro _ rfl
    exact .pure rfl

theorem Marks.fieldCheck (hf : ValueHooks True f) (hw : f.Wordless) {c : StrCfg} (hc : f.kind = .string c) (v : Val) :
    Marks W (fun v => v.isIgnore = true) (Lex.fieldCheck I L C rec f v) := by
  unfold Lex.fieldCheck
  refine .first (.mungeStep hw v) fun v => .ite (fun _ => .fieldDefault hf) fun _ => .ite (fun _ => .pure _) fun _ => ?_
  refine .first (.filterStep hw v) fun _ => .ite (fun _ => .fieldDefault hf) fun _ =>
    .bind (.validateStep hw hc v) (fun _ => .pure _) ?_
  rintro _ rfl
  exact .pure rfl

theorem Marks.fieldStart (hf : ValueHooks True f) (hw : f.Wordless) {c : StrCfg} (hc : f.kind = .string c) :
    Marks W (fun v => v.isIgnore = true) (Lex.fieldStart I L C rec f) := by
  rw [hf.fieldStart]
  refine .bind (Q := fun v => v = Val.ERROR) ?_ (fun v => .ite (fun _ => .fieldDefault hf) fun _ =>
    .ite (fun _ => .pure _) fun _ => .fieldCheck hf hw hc v) ?_
  · unfold Lex.fieldCompute
    rw [hf.fieldParse]
    refine .first (.onPath fun _ h => W.exists_keys h) fun _ => .ite (fun _ => .pure _) fun _ =>
      .first (.onPath fun _ h => W.isNull_keys h) fun _ => .ite (fun _ => .pure _) fun _ =>
      .tryCatch ?_ fun e => .ite (fun _ => .failWith _) fun _ => .raise e
    unfold Lex.kindParse
    rw [hc]
    exact .onPath fun _ h => W.primitive_keys h
  · rintro _ rfl
    exact .pure rfl

/-- A string field whose hooks are functions of the value gives no value once it has reported. -/
theorem Marks.mapField (hC : C.All (ValueHooks True)) (hf : f.All (ValueHooks True)) (hs : (∃ c, f.kind = .string c) ∧ f.Wordless) (n : Nat)
    (v : Val) : Marks W (fun v => v.isIgnore = true) (Lex.mapField I L C n f v) := by
  obtain ⟨⟨c, hc⟩, hw⟩ := hs
  cases n with
  | zero => exact .raise _
  | succ n =>
    show Marks W _ (Lex.mapFieldF I L C (Lex.mapField I L C n) f v)
    unfold Lex.mapFieldF Lex.fieldMapInner
    refine .bind (.withEnv _ (.ite (fun _ => ?_) fun _ => .fieldCheck hf.node hw hc v)) (fun w => ?_) fun w hw => ?_
    · unfold Lex.withResolve
      rw [hf.node.resolve, hc]
      exact .ite (fun _ => .fieldStart hf.node hw hc) fun _ =>
        .withKey _ (.fieldStart hC (TKeeps.mapField hC n) hf) (.fieldStart hf.node hw hc)
    · dsimp only
      refine .ite (fun _ => .first ?_ fun _ => .pure _) fun _ => .pure _
      unfold Lex.setParent
      refine .first (.state fun env => ⟨.ok env.parent, fun _ => rfl⟩) fun par => ?_
      cases w <;> first
        | exact .raise _
        | exact .pure _
        | exact .same (.formParent _ par) fun _ τ =>
            ⟨{ τ with forms := τ.forms.modify _ fun o => { o with parent := some par } }, .ok (), rfl, rfl⟩
    · dsimp only
      rw [if_neg (by simp [hw])]
      exact .pure hw

end

/-- Reading the type field of a probe from an empty source. -/
theorem Agrees.probed {rec : TRec P} {tf : Field} (hr : Agrees W (rec tf .NONE))
    (hm : Marks W (fun v => v.isIgnore = true) (rec tf .NONE)) (id : Nat) :
    Agrees W (Lex.getEmpty I rec tf id >>= Lex.getFinish tf id) := by
  have hfin : ∀ v, Agrees W (Lex.getFinish tf id v : T P Val) := by
    intro v
    unfold Lex.getFinish
    exact .ite (fun _ => .raise _) fun _ => .bind (.formModify _ _) fun _ => .pure _
  have hk : TKeeps W (fun _ => True) (Lex.getEmpty I rec tf id) :=
    .withSource (by rintro p h; cases h; exact W.native_wf) (.withEnv hr.1)
  refine ⟨.bind hk fun v => (hfin v).1, fun env τ hw => ?_⟩
  have hw1 : TWF W { τ with path := some (some (τ.npaths, I.native (.dict []) none)), npaths := τ.npaths + 1 } := by
    intro r q hq; cases hq; exact W.native_wf
  have hwc := hk env (flag false τ) hw
  have key : ∀ b, Lex.getEmpty I rec tf id env (flag b τ) =
      ((rec tf .NONE { env with src := some true, form := some id, parent := some (.form id) }
        (flag b { τ with path := some (some (τ.npaths, I.native (.dict []) none)), npaths := τ.npaths + 1 })).1,
      { (rec tf .NONE { env with src := some true, form := some id, parent := some (.form id) }
        (flag b { τ with path := some (some (τ.npaths, I.native (.dict []) none)), npaths := τ.npaths + 1 })).2
        with path := τ.path }) := fun _ => rfl
  have hcm := hr.2 { env with src := some true, form := some id, parent := some (.form id) } _ hw1
  have hmm := hm { env with src := some true, form := some id, parent := some (.form id) } _ hw1
  have hkc := key false
  have hkr := key true
  rcases h1 : rec tf .NONE { env with src := some true, form := some id, parent := some (.form id) }
    (flag false { τ with path := some (some (τ.npaths, I.native (.dict []) none)), npaths := τ.npaths + 1 })
    with ⟨xc, τc⟩
  rcases h2 : rec tf .NONE { env with src := some true, form := some id, parent := some (.form id) }
    (flag true { τ with path := some (some (τ.npaths, I.native (.dict []) none)), npaths := τ.npaths + 1 })
    with ⟨xr, τr⟩
  rw [h1] at hkc
  rw [h2] at hkr
  rw [h1, h2] at hcm hmm
  dsimp only at hkc hkr
  rw [hkc] at hwc
  have sync : xr = xc → (∃ τ', τc = flag false τ' ∧ τr = flag true τ') →
      Cmp I env τ ((Lex.getEmpty I rec tf id >>= Lex.getFinish tf id) env (flag false τ))
        ((Lex.getEmpty I rec tf id >>= Lex.getFinish tf id) env (flag true τ)) := by
    rintro rfl ⟨τ', rfl, rfl⟩
    cases xr with
    | error e =>
      rw [T.bind_error hkc, T.bind_error hkr]
      exact .inl ⟨rfl, { τ' with path := τ.path }, rfl, rfl⟩
    | ok v =>
      rw [T.bind_ok hkc, T.bind_ok hkr]
      rcases (hfin v).2 env { τ' with path := τ.path } (hwc.wf hw) with h | h
      · exact .inl h
      · refine .inr ⟨?_, h.2⟩
        obtain ⟨e, he, ho⟩ := h.1
        exact ⟨e, he, ho⟩
  rcases hmm with ⟨he, τ', hc, hr', -⟩ | ⟨v, hv, hig⟩
  · exact sync he ⟨τ', hc, hr'⟩
  · rcases hcm with ⟨he, h⟩ | ⟨⟨e, he, -⟩, hir, hic⟩
    · exact sync he h
    · dsimp only at he hv
      subst he; subst hv
      rw [T.bind_ok hkc, T.bind_error hkr]
      unfold Lex.getFinish
      rw [if_pos hig]
      exact .inr ⟨⟨e, rfl, .inl ⟨_, rfl, rfl⟩⟩, hir, hic⟩

theorem Agrees.polyType (hC : C.All (ValueHooks True)) {tf : Field} (htf : tf.All (ValueHooks True)) (hs : (∃ c, tf.kind = .string c) ∧ tf.Wordless)
    (hr : ∀ v, Agrees W (Lex.mapField I L C n tf v)) (pc : Nat) (types : List (Val × Nat)) :
    Agrees W (Lex.polyType I L C (Lex.mapField I L C n) tf pc types) := by
  have hfin : ∀ id v, Agrees W (Lex.getFinish tf id v : T P Val) := by
    intro id v
    unfold Lex.getFinish
    exact .ite (fun _ => .raise _) fun _ => .bind (.formModify _ _) fun _ => .pure _
  have hempty : ∀ id, Agrees W (Lex.getEmpty I (Lex.mapField I L C n) tf id >>= Lex.getFinish tf id) := fun id =>
    .probed (hr _) (.mapField hC htf hs n _) id
  have hget : ∀ id, Agrees W (Lex.fieldGet I (Lex.mapField I L C n) tf id) := by
    intro id
    unfold Lex.fieldGet
    refine .bind (.state fun env => ⟨fun fs => .ok ((fs[id]?).elim [] FormObj.items), fun _ => rfl⟩) fun items => ?_
    split
    · exact .pure _
    · refine .bind (.state fun env => ⟨fun _ => .ok env.form, fun _ => rfl⟩) fun fm => ?_
      split
      · exact .bind (.withErrs _ (.withSource (by rintro p h; cases h; exact W.native_wf) (.withEnv (hr _).1))) fun _ => hfin _ _
      · refine .bind (.state fun env => ⟨fun _ => .ok env.parent, fun _ => rfl⟩) fun par => ?_
        exact .ite (fun _ => .bind (hr _) fun _ => hfin _ _) fun _ => hempty id
  unfold Lex.polyType
  refine .bind (.catchReport (c := Exc.isValueError)
    (fun e h => by rw [h, Bool.or_true]) ?_) fun r => ?_
  · refine .bindR probeSrc_wf ?_ fun src hsrc => .bind ?_ fun _ => .pure _
    · unfold Lex.probeSrc
      exact .bind (.onPath fun _ h => W.value_keys h) fun _ => .onPath fun _ h => ⟨rfl, h, rfl⟩
    · unfold Lex.probe
      refine .bind (.newForm pc) fun id =>
        .bind (.formMap hC id hsrc _ _ .str) fun es => ?_
      split
      · exact hget id
      · exact .raise _
  · split
    · exact .pure _
    · exact .pure _
    · refine .ite (fun _ => .raise _) fun _ => ?_
      split
      · exact .pure _
      · exact .bind (.report _) fun _ => .pure _

end

/-- No polymorphic field. -/
def notPoly : Kind → Prop
  | .poly .. => False
  | _ => True

/-- The type field of a polymorphic field is a `Type`, which is a `String` (`pilo/fields.py:1263`). -/
def typed : Kind → Prop
  | .poly tf .. => (∃ c, tf.kind = .string c) ∧ tf.Wordless
  | _ => True

/-- The comparison as a closed predicate. -/
def closed (hR : Renders W) (L : Lib) (C : Classes) : Closed I L C where
  U := Agrees W
  ok := typed
  okString := trivial
  okBase := trivial
  fok _ := True
  okDict _ _ _ _ := trivial
  okFilter _ _ _ _ _ _ := trivial
  asks := True
  form _ := .ctxGet _ _
  pure := .pure
  raise := .raise
  bind := .bind
  ctxGet _ _ _ := .ctxGet _ _
  ctxGet? proj _ := .state fun env => ⟨fun _ => .ok (proj env), fun _ => rfl⟩
  value := .onPath fun _ h => W.value_keys h
  exists_ := .onPath fun _ h => W.exists_keys h
  isNull := .onPath fun _ h => W.isNull_keys h
  mapping := .onPath fun _ h => W.mapping_keys h
  sequence := .onPath fun _ h => W.sequence_keys h
  primitive _ := .onPath fun _ h => W.primitive_keys h
  hasSrc := .onPath fun _ h => ⟨rfl, h, rfl⟩
  report := .report
  seqTry := .seqTry
  compute := .catchReport (c := fun e => e.isSourceError || e.isValueError) fun _ h => h
  withEnv g _ hg _ := .withEnv g hg
  withKey _ := .withKey hR _
  rawKey _ _ := .withKey hR _
  rawStart _ _ := .withKey hR _
  nested _ ht hk := .bind (.withErrs _ ht.1) fun x => .bind (.extend _) fun _ => hk _
  root _ ht hk := .bind (.withErrs _ (.withSource (by rintro p h; cases h; exact W.native_wf) ht.1)) fun x => hk _
  formItems id _ := .state fun env => ⟨fun fs => .ok ((fs[id]?).elim [] FormObj.items), fun _ => rfl⟩
  formCls _ _ := .formCls _
  formModify _ _ _ := .formModify _ _
  formParent id par := .same (.formParent id par) fun _ τ =>
    ⟨{ τ with forms := τ.forms.modify id fun o => { o with parent := some par } }, .ok (), rfl, rfl⟩
  newForm _ _ _ h := .bind (.newForm _) fun id => h id trivial
  poly := by
    intro tf pc types reset u n hok hr _ hC htf k hk
    exact guarded_of (U := Agrees W) .pure .bind (.onPath fun _ h => W.exists_keys h) (.onPath fun _ h => W.isNull_keys h)
      (.catchReport (c := fun e => e.isSourceError || e.isValueError) fun _ h => h)
      (.bind (.polyType (hC.imp fun _ h => h.1) (htf.imp fun _ h => h.1) hok (fun v => hr tf v htf) pc types) hk)

/-! ### Fields bind `ctx.field` themselves -/

/-- The computation does not depend on `ctx.field`. -/
def FieldFree (t : T P α) : Prop := ∀ env x τ, t { env with field := x } τ = t env τ

theorem FieldFree.bind {t : T P α} {f : α → T P β} (ht : FieldFree t) (hf : ∀ a, FieldFree (f a)) :
    FieldFree (t >>= f) := by
  intro env x τ
  rcases h : t env τ with ⟨r, τ'⟩
  have h' := (ht env x τ).trans h
  cases r with
  | error e => rw [T.bind_error h, T.bind_error h']
  | ok a => rw [T.bind_ok h, T.bind_ok h']; exact hf a env x τ'

theorem FieldFree.const {t : T P α} (h : ∀ env env' τ, t env τ = t env' τ) : FieldFree t := fun _ _ τ => h _ _ τ

theorem FieldFree.mapField {L : Lib} {C : Classes} (n : Nat) (f : Field) (v : Val) :
    FieldFree (Lex.mapField I L C n f v) := by
  cases n with
  | zero => exact .const fun _ _ _ => rfl
  | succ n =>
    show FieldFree (Lex.mapFieldF I L C (Lex.mapField I L C n) f v)
    unfold Lex.mapFieldF
    refine .bind (fun env x τ => rfl) fun w => ?_
    dsimp only
    split
    · refine .bind ?_ fun _ => .const fun _ _ _ => rfl
      unfold Lex.setParent
      refine .bind (fun env x τ => rfl) fun par => ?_
      cases w <;> exact .const fun _ _ _ => rfl
    · exact .const fun _ _ _ => rfl

theorem FieldFree.applyUnmapped {rec : TRec P} (hr : ∀ f v, FieldFree (rec f v)) (id : Nat) (u : Unmapped) :
    FieldFree (Lex.applyUnmapped rec id u) := by
  have hgo : ∀ kf vf, FieldFree (Lex.unmappedGo rec id kf vf) := by
    intro kf vf
    unfold Lex.unmappedGo
    refine .bind (hr _ _) fun w => ?_
    split <;> exact .const fun _ _ _ => rfl
  unfold Lex.applyUnmapped
  split <;> first
    | exact hgo _ _
    | exact .const fun _ _ _ => rfl

theorem FieldFree.mapFields {rec : TRec P} (hr : ∀ f v, FieldFree (rec f v)) (id : Nat) (tags : List String)
    (fs : List Field) : FieldFree (Lex.mapFields rec id tags fs) := by
  induction fs with
  | nil => exact .const fun _ _ _ => rfl
  | cons f fs ih =>
    unfold Lex.mapFields
    refine .bind ?_ fun _ => ih
    unfold Lex.mapOne
    split
    · refine .bind (hr _ _) fun w => ?_
      split <;> exact .const fun _ _ _ => rfl
    · exact .const fun _ _ _ => rfl

theorem FieldFree.formMapBody {L : Lib} {C : Classes} (n id : Nat) (tags : List String) (u : Unmapped) :
    FieldFree (Lex.formMapBody I C (Lex.mapField I L C n) id tags u) := by
  unfold Lex.formMapBody
  refine .bind (.const fun _ _ _ => rfl) fun _ => .bind (.const fun _ _ _ => rfl) fun cls => .bind ?_ fun _ =>
    .applyUnmapped (fun f v => .mapField n f v) id u
  intro env x τ
  exact FieldFree.mapFields (rec := Lex.mapField I L C n) (fun f v => .mapField n f v) id tags (C cls).fields
    { env with form := some id, parent := some (.form id) } x τ

/-! ### The two modes of `form.map` -/

/-- The comparison of results: `c` collecting, `r` raising. -/
def Verdict (c r : Except Exc (List Err) × TSt P) : Prop :=
  (∀ es, c.1 = .ok es → es = [] → r.1 = .ok [] ∧ r.2.forms = c.2.forms) ∧
  (∀ es, c.1 = .ok es → es ≠ [] → ∃ es', r.1 = .error (.formError es') ∧ Begins es' es) ∧
  (∀ es, r.1 = .ok es → c.1 = .ok [] ∧ r.2.forms = c.2.forms)

section
variable {L : Lib} {C : Classes} {n : Nat}

/-- With its own error list, the flag decides only whether reports raise. -/
theorem withErrs_modes {t : T P Unit} (hff : FieldFree t) (h : Agrees W t) (env : Env) {τ : TSt P}
    (hw : TWF W τ) :
    (∃ x τ', T.withErrs false t env τ = (x, τ') ∧ T.withErrs true t env τ = (x, τ')) ∨
    (∃ e τr, T.withErrs true t env τ = (.error e, τr) ∧
      ∀ a τc, T.withErrs false t env τ = (.ok a, τc) → a.2 ≠ [] ∧ ∃ es, e = .formError es ∧ Begins es a.2) := by
  have hc := h.2 { env with field := some none } { τ with errs := some { raising := false, items := [] } } hw
  rw [hff env _ (flag false _), hff env _ (flag true _)] at hc
  unfold T.withErrs
  have e1 : flag false { τ with errs := some { raising := false, items := [] } }
      = { τ with errs := some { raising := false, items := [] } } := rfl
  have e2 : flag true { τ with errs := some { raising := false, items := [] } }
      = { τ with errs := some { raising := true, items := [] } } := rfl
  rw [e1, e2] at hc
  rcases h1 : t env { τ with errs := some { raising := false, items := [] } } with ⟨rc, τc⟩
  rcases h2 : t env { τ with errs := some { raising := true, items := [] } } with ⟨rr, τr⟩
  rw [h1, h2] at hc
  rcases hc with ⟨he, τ', hs1, hs2⟩ | ⟨⟨e, he, hform⟩, -, hic⟩
  · dsimp only at he hs1 hs2
    subst he; subst hs1; subst hs2
    left
    cases rr with
    | error e => exact ⟨_, _, rfl, rfl⟩
    | ok a =>
      refine ⟨_, _, rfl, ?_⟩
      dsimp only
      cases hb : τ'.errs <;> simp [flag, hb]
  · dsimp only at he
    subst he
    right
    refine ⟨e, _, rfl, ?_⟩
    intro a τ1 ha
    cases rc with
    | error e' => dsimp only at ha; simp at ha
    | ok b =>
      dsimp only at ha
      cases ha
      refine ⟨hic, ?_⟩
      rcases hform with ⟨x, hx, -⟩ | ⟨-, h⟩
      · cases hx
      · exact ⟨_, h rfl⟩

theorem verdict_of {k : List Err → T P (List Err)} {env : Env} {τ : TSt P} {t : T P Unit}
    (hk : ∀ es τ', (k es env τ').1 = .ok es ∨ ∃ e, (k es env τ').1 = .error e)
    (h : (∃ x τ', T.withErrs false t env τ = (x, τ') ∧ T.withErrs true t env τ = (x, τ')) ∨
      (∃ e τr, T.withErrs true t env τ = (.error e, τr) ∧
        ∀ a τc, T.withErrs false t env τ = (.ok a, τc) → a.2 ≠ [] ∧ ∃ es, e = .formError es ∧ Begins es a.2)) :
    Verdict ((T.withErrs false t >>= fun x => k x.2) env τ)
      (((T.withErrs true t >>= fun x => k x.2) >>= Lex.formFinish true) env τ) := by
  rcases h with ⟨x, τ', h1, h2⟩ | ⟨e, τr, h2, h1⟩
  · cases x with
    | error e =>
      rw [T.bind_error h1, T.bind_error (T.bind_error h2)]
      exact ⟨fun es h => (by cases h), fun es h => (by cases h), fun es h => by cases h⟩
    | ok a =>
      rw [T.bind_ok h1]
      rcases hr : k a.2 env τ' with ⟨r, τ2⟩
      have hk' := hk a.2 τ'
      rw [hr] at hk'
      have h3 : (T.withErrs true t >>= fun x => k x.2) env τ = (r, τ2) := by rw [T.bind_ok h2, hr]
      rcases hk' with hk' | ⟨e, hk'⟩
      · dsimp only at hk'
        subst hk'
        rw [T.bind_ok h3]
        unfold Lex.formFinish
        rw [if_pos rfl]
        cases ha : a.2 with
        | nil =>
          show Verdict _ (.ok [], τ2)
          exact ⟨fun es _ _ => ⟨rfl, rfl⟩, fun es h hne => (by cases h; exact absurd rfl hne),
            fun es h => ⟨rfl, rfl⟩⟩
        | cons y ys =>
          show Verdict _ (.error (.formError (y :: ys)), τ2)
          exact ⟨fun es h he => (by cases h; cases he), fun es h _ => ⟨_, rfl, by
              cases h; exact ⟨_, List.prefix_rfl, .first (List.cons_ne_nil _ _)⟩⟩,
            fun es h => by cases h⟩
      · dsimp only at hk'
        subst hk'
        rw [T.bind_error h3]
        exact ⟨fun es h => (by cases h), fun es h => (by cases h), fun es h => by cases h⟩
  · rw [T.bind_error (T.bind_error h2)]
    have hne : ∀ es, ((T.withErrs false t >>= fun x => k x.2) env τ).1 = .ok es →
        es ≠ [] ∧ ∃ es', e = .formError es' ∧ Begins es' es := by
      intro es hes
      rcases hc : T.withErrs false t env τ with ⟨x, τc⟩
      cases x with
      | error e => rw [T.bind_error hc] at hes; cases hes
      | ok a =>
        rw [T.bind_ok hc] at hes
        have h3 := h1 a τc hc
        rcases hk a.2 τc with h4 | ⟨e, h4⟩
        · rw [h4] at hes; cases hes; exact h3
        · rw [h4] at hes; cases hes
    exact ⟨fun es h he => absurd he (hne es h).1,
      fun es h _ => by obtain ⟨-, es', rfl, hb⟩ := hne es h; exact ⟨es', rfl, hb⟩, fun es h => by cases h⟩

theorem formMap_modes (hR : Renders W) (hC : C.All (closed hR L C).Fit) (id : Nat) {src : SrcArg P}
    (hsrc : SrcOK W src) (tags : List String) (reset : Bool) {u : Unmapped} (hu : u.All (closed hR L C).Fit)
    (env : Env) {τ : TSt P} (hw : TWF W τ) :
    Verdict (Lex.formMap I C (Lex.mapField I L C n) id src tags reset u false env τ)
      (Lex.formMap I C (Lex.mapField I L C n) id src tags reset u true env τ) := by
  have hbody : ∀ tags, Agrees W (Lex.formMapBody I C (Lex.mapField I L C n) id tags u) := fun tags =>
    Closed.formMapBody (K := closed hR L C) trivial hC (Closed.mapField hC n) trivial tags hu
  have hff := fun tags => FieldFree.formMapBody (I := I) (L := L) (C := C) n id tags u
  have hfail : ∀ (e : Exc) (τ' : TSt P), Verdict ((.error e, τ') : Except Exc (List Err) × TSt P) (.error e, τ') :=
    fun e τ' => ⟨fun es h => (by cases h), fun es h => (by cases h), fun es h => by cases h⟩
  have hroot : ∀ (src : SrcArg P) tags (τ : TSt P), SrcOK W src → TWF W τ →
      Verdict (Lex.rootMap I C (Lex.mapField I L C n) id src tags u false env τ)
        ((Lex.rootMap I C (Lex.mapField I L C n) id src tags u true >>= Lex.formFinish true) env τ) := by
    intro src tags τ hsrc hw
    unfold Lex.rootMap
    rw [T.bind_assoc]
    obtain ⟨hk, hmk⟩ := rootSource_wf (ok := fun _ => True) (id := id) (C := C) hsrc env τ hw
    rcases hrs : Lex.rootSource I C id src env τ with ⟨x, τ1⟩
    rw [hrs] at hk hmk
    cases x with
    | error e => rw [T.bind_error hrs, T.bind_error hrs]; exact hfail _ _
    | ok mk =>
      rw [T.bind_ok hrs, T.bind_ok hrs]
      refine verdict_of (k := T.pure) (fun es τ' => .inl rfl) ?_
      have hw1 : TWF W τ1 := hk.wf hw
      cases mk with
      | error e => exact .inl ⟨.error e, τ1, rfl, rfl⟩
      | ok p =>
        have hcmp := withErrs_modes (hff tags) (hbody tags) { env with src := some true }
          (τ := { τ1 with path := some (some (τ1.npaths, p)), npaths := τ1.npaths + 1 })
          (by intro r q hq; cases hq; exact hmk _ rfl p rfl)
        have key : ∀ b, T.withErrs b (T.withSource (.ok p) (Lex.formMapBody I C (Lex.mapField I L C n) id tags u)) env τ1
            = ((T.withErrs b (Lex.formMapBody I C (Lex.mapField I L C n) id tags u) { env with src := some true }
                { τ1 with path := some (some (τ1.npaths, p)), npaths := τ1.npaths + 1 }).1,
              { (T.withErrs b (Lex.formMapBody I C (Lex.mapField I L C n) id tags u) { env with src := some true }
                { τ1 with path := some (some (τ1.npaths, p)), npaths := τ1.npaths + 1 }).2 with path := τ1.path }) := by
          intro b
          unfold T.withErrs T.withSource
          dsimp only
          rcases Lex.formMapBody I C (Lex.mapField I L C n) id tags u { env with src := some true }
            { τ1 with path := some (some (τ1.npaths, p)), npaths := τ1.npaths + 1,
                      errs := some { raising := b, items := [] } } with ⟨y, τ2⟩
          cases y <;> rfl
        rw [key, key]
        rcases hcmp with ⟨x, τ', h1, h2⟩ | ⟨e, τr, h2, h1⟩
        · rw [h1, h2]; exact .inl ⟨_, _, rfl, rfl⟩
        · rw [h2]
          refine .inr ⟨e, _, rfl, ?_⟩
          intro a τc ha
          rcases hc : T.withErrs false (Lex.formMapBody I C (Lex.mapField I L C n) id tags u)
            { env with src := some true }
            { τ1 with path := some (some (τ1.npaths, p)), npaths := τ1.npaths + 1 } with ⟨y, τ3⟩
          rw [hc] at ha
          cases ha
          exact h1 a τ3 hc
  unfold Lex.formMap
  rw [T.bind_ok (show T.ctxGet? Env.tags env τ = (.ok env.tags, τ) from rfl),
    T.bind_ok (show T.ctxGet? Env.tags env τ = (.ok env.tags, τ) from rfl)]
  have hres := (Agrees.formResetIf (W := W) (C := C) id (pickTags tags env.tags) reset).1 env τ hw
  rcases hr : (Lex.formResetIf C id (pickTags tags env.tags) reset : T P Unit) env τ with ⟨x, τ1⟩
  rw [hr] at hres
  have hw1 : TWF W τ1 := hres.wf hw
  cases x with
  | error e => rw [T.bind_error hr, T.bind_error hr]; exact hfail _ _
  | ok y =>
    rw [T.bind_ok hr, T.bind_ok hr]
    cases hs : env.src with
    | none =>
      have h : T.ctxGet Env.src "src" env τ1 = (.error (noCtxAttr "src"), τ1) := by unfold T.ctxGet; rw [hs]
      rw [T.bind_error h, T.bind_error h]; exact hfail _ _
    | some cs =>
      have h : T.ctxGet Env.src "src" env τ1 = (.ok cs, τ1) := by unfold T.ctxGet; rw [hs]
      rw [T.bind_ok h, T.bind_ok h]
      have hfin : ∀ t : T P (List Err), (t >>= Lex.formFinish false) = t := by
        intro t
        funext env τ
        rcases ht : t env τ with ⟨z, τ'⟩
        cases z with
        | error e => rw [T.bind_error ht]
        | ok a => rw [T.bind_ok ht]; rfl
      rw [hfin]
      unfold Lex.formMapAt
      by_cases hn : src.isNone = true
      · rw [if_pos hn, if_pos hn]
        cases cs with
        | true =>
          rw [if_pos rfl, if_pos rfl]
          unfold Lex.nestedMap
          refine verdict_of (k := fun es => T.extend es >>= fun _ => T.pure es) ?_
            (withErrs_modes (hff _) (hbody _) env hw1)
          intro es τ'
          cases hb : τ'.errs with
          | none =>
            exact .inr ⟨noCtxAttr "errors", by
              rw [T.bind_error (show T.extend es env τ' = (.error (noCtxAttr "errors"), τ') by
                unfold T.extend; rw [hb])]⟩
          | some b =>
            exact .inl (by
              rw [T.bind_ok (show T.extend es env τ' = (.ok (), { τ' with errs := some { b with items := b.items ++ es } })
                by unfold T.extend; rw [hb])]
              rfl)
        | false =>
          rw [if_neg (by simp), if_neg (by simp)]
          exact hroot .none _ τ1 trivial hw1
      · rw [if_neg hn, if_neg hn]
        exact hroot src _ τ1 hsrc hw1

end
end Modes

theorem RefEAt.to_ok {m : M P Nat} {t : T P (List Err)} {env : Env} {τ : TSt P} {s : St P}
    (h : RefEAt m t env τ s) {e : Nat} (he : (m s).1 = .ok e) : (t env τ).1 = .ok ((m s).2.errors e) := by
  have hr := h.res
  rw [he] at hr
  cases ht : (t env τ).1 with
  | error x => rw [ht] at hr; exact hr.elim
  | ok es => rw [ht] at hr; exact congrArg _ hr.symm

theorem RefEAt.of_ok {m : M P Nat} {t : T P (List Err)} {env : Env} {τ : TSt P} {s : St P}
    (h : RefEAt m t env τ s) {es : List Err} (he : (t env τ).1 = .ok es) :
    ∃ e, (m s).1 = .ok e ∧ (m s).2.errors e = es := by
  have hr := h.res
  rw [he] at hr
  cases hm : (m s).1 with
  | error x => rw [hm] at hr; exact hr.elim
  | ok e => rw [hm] at hr; exact ⟨e, rfl, hr⟩

theorem RefEAt.of_error {m : M P Nat} {t : T P (List Err)} {env : Env} {τ : TSt P} {s : St P}
    (h : RefEAt m t env τ s) {x : Exc} (he : (t env τ).1 = .error x) : (m s).1 = .error x := by
  have hr := h.res
  rw [he] at hr
  cases hm : (m s).1 with
  | error y => rw [hm] at hr; exact congrArg _ hr
  | ok e => rw [hm] at hr; exact hr.elim

/-! ## C09 -/

section
variable {L : Lib} {C : Classes} {W : LawfulPath I}

/-- A field that is not polymorphic; its hooks are functions of the value. -/
def Mono (f : Field) : Prop := ValueHooks True f ∧ Modes.notPoly f.kind

/-- A field whose hooks are functions of the value; the type field of a polymorphic one is a string field, as `Type` is. -/
def StringTyped (f : Field) : Prop := ValueHooks True f ∧ Modes.typed f.kind

theorem Mono.stringTyped {f : Field} (h : Mono f) : StringTyped f := by
  refine ⟨h.1, ?_⟩
  have h2 := h.2
  unfold Modes.typed
  split
  · rename_i hk; rw [hk] at h2; exact h2.elim
  · trivial

/-- Collecting and raising, for any class whose hooks are functions of the value. -/
theorem modes_run (hR : Renders W) (hC : C.All StringTyped)
    (n id : Nat) {src : SrcArg P} (hsrc : SrcOK W src) (tags : List String) (reset : Bool) {u : Unmapped}
    (hu : u.All StringTyped) {s : St P} (hi : Inv W s) (hl : Live s) :
    let c := Form.map I L C n id src tags reset u false s
    let r := Form.map I L C n id src tags reset u true s
    (∀ e, c.1 = .ok e → c.2.errors e = [] → (∃ e', r.1 = .ok e' ∧ r.2.errors e' = []) ∧ r.2.forms = c.2.forms) ∧
    (∀ e, c.1 = .ok e → c.2.errors e ≠ [] → ∃ es, r.1 = .error (.formError es) ∧ Begins es (c.2.errors e)) ∧
    (∀ e', r.1 = .ok e' → (∃ e, c.1 = .ok e ∧ c.2.errors e = []) ∧ r.2.forms = c.2.forms) := by
  intro c r
  have hfree : C.All LexNode := hC.imp fun _ h => h.1.lexNode
  have hrec := Ref.mapField (I := I) (L := L) hfree n
  have hlex := fun b => RefE.formMap (I := I) hfree hrec id src tags reset (hu.imp fun _ h => h.1.lexNode) b
    s.env s.view s hl.agree
  have hv := Modes.formMap_modes (L := L) (n := n) hR hC id hsrc tags reset hu s.env
    (τ := s.view) (fun r p hp => curPathObj_wf hi hp)
  have hc := hlex false
  have hr := hlex true
  obtain ⟨v1, v2, v3⟩ := hv
  refine ⟨fun e he hes => ?_, fun e he hes => ?_, fun e' he' => ?_⟩
  · obtain ⟨h1, h2⟩ := v1 _ (hc.to_ok he) hes
    obtain ⟨e', h3, h4⟩ := hr.of_ok h1
    exact ⟨⟨e', h3, h4⟩, hr.agree.forms.trans (h2.trans hc.agree.forms.symm)⟩
  · obtain ⟨x, h1, h2⟩ := v2 _ (hc.to_ok he) hes
    exact ⟨x, hr.of_error h1, h2⟩
  · obtain ⟨h1, h2⟩ := v3 _ (hr.to_ok he')
    exact ⟨hc.of_ok h1, hr.agree.forms.trans (h2.trans hc.agree.forms.symm)⟩

/-- C09.  For classes whose hooks are functions of the value, mapped in any context: when collecting returns, raising raises `FormError`
exactly when the collected list is not empty, and that `FormError` begins with the errors collected first;
and whenever raising returns, or collecting returns an empty list, both return and leave the same forms. -/
theorem C09_modes_agree (hR : Renders W) (hC : C.All StringTyped) (n id : Nat) {src : SrcArg P} (hsrc : SrcOK W src)
    (tags : List String) (reset : Bool) {u : Unmapped} (hu : u.All StringTyped) {s : St P} (hi : Inv W s) (hl : Live s) :
    let c := Form.map I L C n id src tags reset u false s
    let r := Form.map I L C n id src tags reset u true s
    (∀ e, c.1 = .ok e → ((∃ es, r.1 = .error (.formError es)) ↔ c.2.errors e ≠ [])) ∧
    (∀ e es, c.1 = .ok e → r.1 = .error (.formError es) → Begins es (c.2.errors e)) ∧
    (∀ e', r.1 = .ok e' → (∃ e, c.1 = .ok e ∧ c.2.errors e = []) ∧ r.2.forms = c.2.forms) ∧
    (∀ e, c.1 = .ok e → c.2.errors e = [] → (∃ e', r.1 = .ok e' ∧ r.2.errors e' = []) ∧ r.2.forms = c.2.forms) := by
  obtain ⟨h1, h2, h3⟩ := modes_run (L := L) hR hC n id hsrc tags reset hu hi hl
  have hne : ∀ e, (Form.map I L C n id src tags reset u false s).1 = .ok e →
      (∃ es, (Form.map I L C n id src tags reset u true s).1 = .error (.formError es)) →
      (Form.map I L C n id src tags reset u false s).2.errors e ≠ [] := by
    rintro e he ⟨es, hes⟩ hnil
    obtain ⟨⟨e', he', -⟩, -⟩ := h1 e he hnil
    rw [hes] at he'; cases he'
  refine ⟨fun e he => ⟨hne e he, fun h => ?_⟩, fun e es he hes => ?_, h3, h1⟩
  · obtain ⟨es, h, -⟩ := h2 e he h
    exact ⟨es, h⟩
  · obtain ⟨es', h, hb⟩ := h2 e he (hne e he ⟨es, hes⟩)
    rw [hes] at h
    cases h
    exact hb

/-- C96.  The `FormError` of the raising mode begins with the errors collected first, at least one of them, and
goes on only with texts of itself, reported by fields around; so its first error is the first one collected. -/
theorem C96_first (hR : Renders W) (hC : C.All StringTyped) (n id : Nat) {src : SrcArg P} (hsrc : SrcOK W src)
    (tags : List String) (reset : Bool) {u : Unmapped} (hu : u.All StringTyped) {s : St P} (hi : Inv W s) (hl : Live s)
    {e : Nat} {es : List Err} (hc : (Form.map I L C n id src tags reset u false s).1 = .ok e)
    (hr : (Form.map I L C n id src tags reset u true s).1 = .error (.formError es)) :
    (∃ x, es.head? = some x ∧ ((Form.map I L C n id src tags reset u false s).2.errors e).head? = some x) ∧
    ∃ pre, pre <+: (Form.map I L C n id src tags reset u false s).2.errors e ∧ Raised pre es := by
  have h := (C09_modes_agree (L := L) hR hC n id hsrc tags reset hu hi hl).2.1 e es hc hr
  exact ⟨h.head, h⟩

end

/-! ## The built-in sources -/

theorem PathSt.keysTailText_prefix (L : Lib) (ks : List Val) (k : Val) {t : String}
    (h : keysTailText L (ks ++ [k]) = .ok t) : ∃ t, keysTailText L ks = .ok t := by
  induction ks generalizing t with
  | nil => exact ⟨"", rfl⟩
  | cons a ks ih =>
    simp only [List.cons_append, keysTailText] at h ⊢
    cases ha : keyText L a with
    | error e => rw [ha] at h; simp at h
    | ok x =>
      rw [ha] at h
      dsimp only at h ⊢
      cases hk : keysTailText L (ks ++ [k]) with
      | error e => rw [hk] at h; simp at h
      | ok y =>
        obtain ⟨z, hz⟩ := ih hk
        rw [hz]
        exact ⟨_, rfl⟩

theorem PathSt.keysText_prefix (L : Lib) (ks : List Val) (k : Val) {t : String}
    (h : keysText L (ks ++ [k]) = .ok t) : ∃ t, keysText L ks = .ok t := by
  cases ks with
  | nil => exact ⟨"", rfl⟩
  | cons a ks =>
    simp only [List.cons_append, keysText] at h ⊢
    cases hk : keysTailText L (ks ++ [k]) with
    | error e => rw [hk] at h; simp at h
    | ok y =>
      obtain ⟨z, hz⟩ := keysTailText_prefix L ks k hk
      rw [hz]
      exact ⟨_, rfl⟩

theorem withLocation_ok {loc : Option String} {r : Except Exc String} :
    (∃ t, withLocation loc r = .ok t) ↔ ∃ t, r = .ok t := by
  unfold withLocation
  cases r with
  | error e => cases loc <;> simp
  | ok x =>
    cases loc with
    | none => simp
    | some l =>
      refine ⟨fun _ => ⟨x, rfl⟩, fun _ => ?_⟩
      dsimp only
      split <;> exact ⟨_, rfl⟩

theorem SPath.text_prefix (L : Lib) (p : SPath) (ks : List Val) (k : Val)
    (h : ∃ t, p.text L (ks ++ [k]) = .ok t) : ∃ t, p.text L ks = .ok t := by
  have hk : (∃ t, PathSt.keysText L (ks ++ [k]) = .ok t) → ∃ t, PathSt.keysText L ks = .ok t :=
    fun ⟨_, h⟩ => PathSt.keysText_prefix L ks k h
  cases p with
  | dflt cfg st => simp only [text, withLocation_ok] at h ⊢; exact hk h
  | json x loc st => simp only [text, withLocation_ok] at h ⊢; exact hk h
  | config cfg st =>
    simp only [text, withLocation_ok] at h ⊢
    cases hc : cfg.sectionName with
    | none => rw [hc] at h; exact hk h
    | some n =>
      rw [hc] at h
      dsimp only at h ⊢
      split
      · rename_i hn; rw [if_pos hn] at h; exact hk h
      · rename_i hn
        rw [if_neg hn] at h
        rw [withLocation_ok] at h ⊢
        exact hk h

theorem BPath.text_prefix (L : Lib) (p : BPath) (ks : List Val) (k : Val)
    (h : ∃ t, p.text L (ks ++ [k]) = .ok t) : ∃ t, p.text L ks = .ok t := by
  cases p with
  | simple p => exact SPath.text_prefix L p ks k h
  | union p => obtain ⟨_, h⟩ := h; exact PathSt.keysText_prefix L ks k h

theorem MPath.text_prefix (L : Lib) (p : MPath) (ks : List Val) (k : Val)
    (h : ∃ t, p.text L (ks ++ [k]) = .ok t) : ∃ t, p.text L ks = .ok t := by
  cases ks with
  | nil => exact ⟨"", rfl⟩
  | cons a ks =>
    simp only [List.cons_append, text] at h ⊢
    by_cases he : ks.isEmpty = true
    · rw [if_pos he]; exact ⟨_, rfl⟩
    · rw [if_neg he]
      rw [if_neg (by simp)] at h
      have : ∃ t, (p.sub a).text L (ks ++ [k]) = .ok t := by
        cases hx : (p.sub a).text L (ks ++ [k]) with
        | error e => rw [hx] at h; simp at h
        | ok x => exact ⟨x, rfl⟩
      obtain ⟨t, ht⟩ := BPath.text_prefix L _ ks k this
      rw [ht]
      exact ⟨_, rfl⟩

theorem Path.renders (L : Lib) : Renders (Path.lawful L) := by
  intro p q k hp hq hs hk h
  rw [(Path.lawful L).render_text hq, hs, hk] at h
  rw [(Path.lawful L).render_text hp]
  cases p with
  | base p => exact BPath.text_prefix L p _ k h
  | mount p => exact MPath.text_prefix L p _ k h

end Pilo
