import Verif.Closed
import Verif.Source.Again
import Verif.Hush

/-!
# Two runs of the same mapping

The same field, its hooks functions of the value, mapped at two paths that read alike gives the same value, the same changes to forms
and matching errors.  `PathTwin` says when two paths read alike; `Twin` says that a computation respects it.
Used with three relations: the same path in two contexts (C51), a path into a document and one into a part
of it (C50), and a positional source and a dictionary (C22).
-/

namespace Pilo
variable {P : Type} {I : PathOps P}

/-- What reading below a key that is neither a string nor an integer raises
(`pilo/source/__init__.py:93-101,159-162`). -/
def deadExc : Exc := .attributeError "object has no attribute 'value'"

/-- A relation between paths that read alike.  The number is how many keys may be taken off. -/
structure PathTwin (I : PathOps P) (W : LawfulPath I) where
  Q : Nat → P → P → Prop
  /-- how the texts of related paths are related -/
  Txt : String → String → Prop
  /-- the texts are equal -/
  exact : Prop
  txt_eq : ∀ {a b}, exact → Txt a b → a = b
  /-- equal texts are related -/
  lax : Prop
  txt_refl : ∀ a, lax → Txt a a
  /-- what paths say of themselves is true; not needed when the texts are equal -/
  honest : exact ∨ Honest I
  wf : ∀ {d p q}, Q d p q → W.WF p ∧ W.WF q
  value : ∀ {d p q}, Q d p q → (I.value p).1 = (I.value q).1 ∧ Q d (I.value p).2 (I.value q).2
  exists_ : ∀ {d p q}, Q d p q → (I.exists_ p).1 = (I.exists_ q).1 ∧ Q d (I.exists_ p).2 (I.exists_ q).2
  isNull : ∀ {d p q}, Q d p q → (I.isNull p).1 = (I.isNull q).1 ∧ Q d (I.isNull p).2 (I.isNull q).2
  mapping : ∀ {d p q}, Q d p q → (I.mapping p).1 = (I.mapping q).1 ∧ Q d (I.mapping p).2 (I.mapping q).2
  sequence : ∀ {d p q}, Q d p q → (I.sequence p).1 = (I.sequence q).1 ∧ Q d (I.sequence p).2 (I.sequence q).2
  primitive : ∀ {d p q ty}, Q d p q →
    (I.primitive ty p).1 = (I.primitive ty q).1 ∧ Q d (I.primitive ty p).2 (I.primitive ty q).2
  hasSrc : ∀ {d p q}, Q d p q → I.hasSrc p = I.hasSrc q
  joinPath : ∀ {d p q}, Q d p q → I.joinPath p = I.joinPath q
  render : ∀ {d p q}, Q d p q → (∃ e, I.render p = .error e ∧ I.render q = .error e) ∨
    ∃ a b, I.render p = .ok a ∧ I.render q = .ok b ∧ Txt a b
  append : ∀ {d p q k}, (k.isIntLike || k.isStr) = true → Q d p q →
    (∃ e, I.append p k = .error e ∧ I.append q k = .error e) ∨
    ∃ p' q', I.append p k = .ok p' ∧ I.append q k = .ok q' ∧ Q (d + 1) p' q'
  pop : ∀ {d p q}, Q (d + 1) p q → ∃ p' q', I.pop p = .ok p' ∧ I.pop q = .ok q' ∧ Q d p' q'
  /-- nothing can be read -/
  Dead : P → Prop
  dead_exists : ∀ {p}, Dead p → I.exists_ p = (.error deadExc, p)
  dead_append : ∀ {p k}, Dead p → ∃ p', I.append p k = .ok p' ∧ Dead p' ∧ I.pop p' = .ok p
  raw : ∀ {d p q k}, (k.isIntLike || k.isStr) = false → Q d p q →
    (∃ e, I.append p k = .error e ∧ I.append q k = .error e) ∨
    ∃ p' q', I.append p k = .ok p' ∧ I.append q k = .ok q' ∧
      (Q (d + 1) p' q' ∨ (Dead p' ∧ Dead q' ∧ I.pop p' = .ok p ∧ I.pop q' = .ok q))

/-- The same path, in two contexts; the texts of errors are related as given. -/
def PathTwin.still (W : LawfulPath I) (Txt : String → String → Prop) (exact lax : Prop)
    (txt_eq : ∀ {a b}, exact → Txt a b → a = b) (txt_refl : ∀ a, Txt a a) (honest : exact ∨ Honest I) :
    PathTwin I W where
  Q d p q := p = q ∧ W.WF p ∧ d ≤ (I.keys p).length
  Txt := Txt
  exact := exact
  txt_eq := txt_eq
  lax := lax
  txt_refl a _ := txt_refl a
  honest := honest
  wf := by rintro d p q ⟨rfl, h, -⟩; exact ⟨h, h⟩
  value := by
    rintro d p q ⟨rfl, h, hd⟩
    have hs := W.value_keys h
    exact ⟨rfl, rfl, hs.wf, hs.keys ▸ hd⟩
  exists_ := by
    rintro d p q ⟨rfl, h, hd⟩
    have hs := W.exists_keys h
    exact ⟨rfl, rfl, hs.wf, hs.keys ▸ hd⟩
  isNull := by
    rintro d p q ⟨rfl, h, hd⟩
    have hs := W.isNull_keys h
    exact ⟨rfl, rfl, hs.wf, hs.keys ▸ hd⟩
  mapping := by
    rintro d p q ⟨rfl, h, hd⟩
    have hs := W.mapping_keys h
    exact ⟨rfl, rfl, hs.wf, hs.keys ▸ hd⟩
  sequence := by
    rintro d p q ⟨rfl, h, hd⟩
    have hs := W.sequence_keys h
    exact ⟨rfl, rfl, hs.wf, hs.keys ▸ hd⟩
  primitive := by
    rintro d p q ty ⟨rfl, h, hd⟩
    have hs := W.primitive_keys (ty := ty) h
    exact ⟨rfl, rfl, hs.wf, hs.keys ▸ hd⟩
  hasSrc := by rintro d p q ⟨rfl, -, -⟩; rfl
  joinPath := by rintro d p q ⟨rfl, -, -⟩; rfl
  render := by
    rintro d p q ⟨rfl, -, -⟩
    cases h : I.render p with
    | error e => exact .inl ⟨e, rfl, rfl⟩
    | ok a => exact .inr ⟨a, a, rfl, rfl, txt_refl a⟩
  append := by
    rintro d p q k - ⟨rfl, h, hd⟩
    cases ha : I.append p k with
    | error e => exact .inl ⟨e, rfl, rfl⟩
    | ok a =>
      obtain ⟨h1, h2⟩ := W.append_keys h ha
      exact .inr ⟨a, a, rfl, rfl, rfl, h2, by rw [h1]; simp; exact hd⟩
  pop := by
    rintro d p q ⟨rfl, h, hd⟩
    rcases List.eq_nil_or_concat (I.keys p) with h0 | ⟨ks, k, hk⟩
    · rw [h0] at hd; simp at hd
    · rw [List.concat_eq_append] at hk
      obtain ⟨q, h1, h2, h3, -⟩ := W.pop_keys h hk
      refine ⟨q, q, h1, h1, rfl, h3, ?_⟩
      rw [hk] at hd
      rw [h2]
      simpa using hd
  Dead _ := False
  dead_exists h := h.elim
  dead_append h := h.elim
  raw := by
    rintro d p q k - ⟨rfl, h, hd⟩
    cases ha : I.append p k with
    | error e => exact .inl ⟨e, rfl, rfl⟩
    | ok a =>
      obtain ⟨h1, h2⟩ := W.append_keys h ha
      exact .inr ⟨a, a, rfl, rfl, .inl ⟨rfl, h2, by rw [h1]; simp; exact hd⟩⟩

/-- The same path, in two contexts. -/
def PathTwin.same (W : LawfulPath I) : PathTwin I W :=
  .still W Eq True True (fun _ h => h) (fun _ => rfl) (.inl trivial)

/-- The same path, among errors whose texts are related as by `Z`. -/
def PathTwin.among {W : LawfulPath I} (Z : PathTwin I W) (hl : Z.lax) : PathTwin I W :=
  .still W Z.Txt Z.exact True Z.txt_eq (fun a => Z.txt_refl a hl) Z.honest

namespace Twin
variable {W : LawfulPath I}

/-- An error without the identity of its path object. -/
def bareErr (e : Err) : Err := { e with pathRef := none }

/-- An exception without the identities of path objects. -/
def bare : Exc → Exc
  | .formError es => .formError (es.map bareErr)
  | .fieldError e => .fieldError (bareErr e)
  | e => e

theorem bareErr_message {a b : Err} (h : bareErr a = bareErr b) : a.message = b.message ∧ a.className = b.className := by
  cases a; cases b
  simp only [bareErr, Err.mk.injEq] at h
  obtain ⟨rfl, rfl, rfl, -⟩ := h
  exact ⟨rfl, rfl⟩

theorem bare_str {x y : Exc} (h : bare x = bare y) :
    x.str = y.str ∧ x.isValueError = y.isValueError ∧ x.isSourceError = y.isSourceError := by
  have lst : ∀ as bs : List Err, as.map bareErr = bs.map bareErr → formErrorMessage as = formErrorMessage bs := by
    intro as bs h
    unfold formErrorMessage
    congr 3
    induction as generalizing bs with
    | nil => cases bs with
      | nil => rfl
      | cons b bs => simp at h
    | cons a as ih => cases bs with
      | nil => simp at h
      | cons b bs =>
        simp only [List.map_cons, List.cons.injEq] at h
        obtain ⟨h1, h2⟩ := bareErr_message h.1
        simp only [List.map_cons, h1, h2, ih bs h.2]
  cases x <;> cases y <;> simp only [bare, Exc.formError.injEq, Exc.fieldError.injEq, reduceCtorEq] at h
  case formError.formError => exact ⟨lst _ _ h, rfl, rfl⟩
  case fieldError.fieldError => exact ⟨(bareErr_message h).1, rfl, rfl⟩
  all_goals (cases h; exact ⟨rfl, rfl, rfl⟩)

/-- Matching exceptions: the same up to the identities of path objects. -/
def X (_ : PathTwin I W) (x y : Exc) : Prop := bare x = bare y

/-- Matching errors: the same in all but the path. -/
def E (Z : PathTwin I W) (a b : Err) : Prop := a.kind = b.kind ∧ a.field = b.field ∧ Z.Txt a.path b.path

/-- Matching error lists. -/
inductive Errs (Z : PathTwin I W) : List Err → List Err → Prop
  | nil : Errs Z [] []
  | cons {a b : Err} {as bs : List Err} : E Z a b → Errs Z as bs → Errs Z (a :: as) (b :: bs)

theorem X.refl (Z : PathTwin I W) (x : Exc) : X Z x x := rfl

theorem X.str {Z : PathTwin I W} {x y : Exc} (h : X Z x y) :
    x.str = y.str ∧ x.isValueError = y.isValueError ∧ x.isSourceError = y.isSourceError := bare_str h

/-- Only value errors carry paths. -/
theorem X.other {Z : PathTwin I W} {x y : Exc} (h : X Z x y) (hs : x.isValueError = false) : x = y := by
  unfold X at h
  cases x <;> cases y <;> simp_all [Exc.isValueError, bare]

theorem X.source {Z : PathTwin I W} {x y : Exc} (h : X Z x y) (hs : x.isSourceError = true) : x = y :=
  h.other (by cases x <;> first | rfl | cases hs)

theorem E.bare {Z : PathTwin I W} (hx : Z.exact) {a b : Err} (h : E Z a b) : bareErr a = bareErr b := by
  cases a; cases b
  obtain ⟨h1, h2, h3⟩ := h
  dsimp only at h1 h2 h3
  have := Z.txt_eq hx h3
  simp [bareErr, h1, h2, this]

theorem Errs.bare {Z : PathTwin I W} (hx : Z.exact) {as bs : List Err} (h : Errs Z as bs) :
    as.map bareErr = bs.map bareErr := by
  induction h with
  | nil => rfl
  | cons h1 _ ih => simp [h1.bare hx, ih]

theorem Errs.isEmpty {Z : PathTwin I W} {as bs : List Err} (h : Errs Z as bs) : as.isEmpty = bs.isEmpty := by
  cases h <;> rfl

/-- Matching states. -/
structure Rel (Z : PathTwin I W) (d : Nat) (τ σ : TSt P) : Prop where
  path : match τ.path, σ.path with
    | none, none => True
    | some none, some none => Z.lax
    | some (some (_, p)), some (some (_, q)) => Z.Q d p q
    | _, _ => False
  errs : match τ.errs, σ.errs with
    | none, none => True
    | some b, some c => b.raising = c.raising ∧ (b.raising = true → Z.exact) ∧ Errs Z b.items c.items
    | _, _ => False
  forms : τ.forms = σ.forms

/-- Matching results. -/
inductive Res (Z : PathTwin I W) {α : Type} (R : α → α → Prop) : Except Exc α → Except Exc α → Prop
  | ok {a b : α} : R a b → Res Z R (.ok a) (.ok b)
  | error {x y : Exc} : X Z x y → Res Z R (.error x) (.error y)

/-- States that match but for the errors collected. -/
structure Half (Z : PathTwin I W) (d : Nat) (τ σ : TSt P) : Prop where
  path : match τ.path, σ.path with
    | none, none => True
    | some none, some none => Z.lax
    | some (some (_, p)), some (some (_, q)) => Z.Q d p q
    | _, _ => False
  forms : τ.forms = σ.forms

/-- The errors still count: the result is normal, or an exception that a field reports. -/
def Kept {α : Type} : Except Exc α → Prop
  | .ok _ => True
  | .error x => (x.isSourceError || x.isValueError) = true

/-- Matching outcomes.  The errors need not match when an exception goes through all fields, unless equal texts are
related anyway. -/
structure Post (Z : PathTwin I W) {α : Type} (R : α → α → Prop) (d : Nat) (a b : Except Exc α × TSt P) : Prop where
  res : Res Z R a.1 b.1
  half : Half Z d a.2 b.2
  rel : Z.lax ∨ Kept a.1 → Rel Z d a.2 b.2

/-- The computation gives matching results in matching states. -/
def Run (Z : PathTwin I W) {α : Type} (R : α → α → Prop) (t u : T P α) : Prop :=
  ∀ d env τ σ, Rel Z d τ σ → Post Z R d (t env τ) (u env σ)

variable {Z : PathTwin I W} {α β : Type} {R : α → α → Prop} {S : β → β → Prop}

theorem Rel.half {d : Nat} {τ σ : TSt P} (h : Rel Z d τ σ) : Half Z d τ σ := ⟨h.path, h.forms⟩

theorem Post.of {d : Nat} {a b : Except Exc α × TSt P} (h : Res Z R a.1 b.1) (hr : Rel Z d a.2 b.2) : Post Z R d a b :=
  ⟨h, hr.half, fun _ => hr⟩

/-- The same exception as another result. -/
theorem Post.error {d : Nat} {x y : Exc} {τ σ : TSt P} (h : Post Z R d (.error x, τ) (.error y, σ)) :
    Post Z S d (.error x, τ) (.error y, σ) := by
  obtain ⟨h1, h2, h3⟩ := h
  cases h1 with
  | error hx => exact ⟨.error hx, h2, h3⟩

theorem Post.bind {d : Nat} {env env' : Env} {τ σ : TSt P} {t u : T P α} {f g : α → T P β}
    (h : Post Z R d (t env τ) (u env' σ))
    (hf : ∀ a b τ' σ', R a b → Rel Z d τ' σ' → Post Z S d (f a env τ') (g b env' σ')) :
    Post Z S d ((t >>= f) env τ) ((u >>= g) env' σ) := by
  rcases ht : t env τ with ⟨x, τ'⟩
  rcases hu : u env' σ with ⟨y, σ'⟩
  rw [ht, hu] at h
  obtain ⟨h1, h2, h3⟩ := h
  dsimp only at h1
  cases h1 with
  | error hx => rw [T.bind_error ht, T.bind_error hu]; exact ⟨.error hx, h2, h3⟩
  | ok ha => rw [T.bind_ok ht, T.bind_ok hu]; exact hf _ _ τ' σ' ha (h3 (.inr trivial))

theorem Post.tryCatch {d : Nat} {env env' : Env} {τ σ : TSt P} {t u : T P α} {g h : Exc → T P α}
    (ht : Post Z R d (t env τ) (u env' σ))
    (hl : ∀ x, (x.isSourceError || x.isValueError) = false → g x = T.raise x ∧ h x = T.raise x)
    (hh : ∀ x y τ' σ', X Z x y → Rel Z d τ' σ' → Post Z R d (g x env τ') (h y env' σ')) :
    Post Z R d (T.tryCatch t g env τ) (T.tryCatch u h env' σ) := by
  unfold T.tryCatch
  rcases he : t env τ with ⟨x, τ'⟩
  rcases hu : u env' σ with ⟨y, σ'⟩
  rw [he, hu] at ht
  obtain ⟨h1, h2, h3⟩ := ht
  dsimp only at h1
  cases h1 with
  | @error x y hx =>
    dsimp only
    cases hk : (x.isSourceError || x.isValueError) with
    | true => exact hh _ _ τ' σ' hx (h3 (.inr hk))
    | false =>
      have hk' : (y.isSourceError || y.isValueError) = false := by
        rw [← hx.str.2.1, ← hx.str.2.2]; exact hk
      rw [(hl x hk).1, (hl y hk').2]
      exact ⟨.error hx, h2, h3⟩
  | ok ha => exact ⟨.ok ha, h2, h3⟩

theorem Run.bind {t u : T P α} {f g : α → T P β} (h : Run Z R t u) (hf : ∀ a b, R a b → Run Z S (f a) (g b)) :
    Run Z S (t >>= f) (u >>= g) :=
  fun d env τ σ hr => (h d env τ σ hr).bind fun a b τ' σ' ha hr' => hf a b ha d env τ' σ' hr'

theorem Run.pure {a b : α} (h : R a b) : Run Z R (T.pure a : T P α) (T.pure b) :=
  fun _ _ _ _ hr => .of (.ok h) hr

theorem Run.raise {x y : Exc} (h : X Z x y) : Run Z R (T.raise x : T P α) (T.raise y) :=
  fun _ _ _ _ hr => .of (.error h) hr

theorem Run.imp {R' : α → α → Prop} {t u : T P α} (h : Run Z R t u) (hi : ∀ a b, R a b → R' a b) :
    Run Z R' t u := by
  intro d env τ σ hr
  obtain ⟨h1, h2, h3⟩ := h d env τ σ hr
  refine ⟨?_, h2, h3⟩
  generalize (t env τ).1 = x at h1
  generalize (u env σ).1 = y at h1
  cases h1 with
  | ok h => exact .ok (hi _ _ h)
  | error h => exact .error h

/-- Depends on the environment and the forms only. -/
theorem Run.state {t : T P α} (h : ∀ env, ∃ (x : List FormObj → Except Exc α) (y : List FormObj → List FormObj),
    ∀ τ, t env τ = (x τ.forms, { τ with forms := y τ.forms })) : Run Z Eq t t := by
  intro d env τ σ hr
  obtain ⟨x, y, hx⟩ := h env
  rw [hx, hx, hr.forms]
  refine .of ?_ ⟨hr.path, hr.errs, rfl⟩
  dsimp only
  cases x σ.forms with
  | ok a => exact .ok rfl
  | error e => exact .error (.refl _ _)

theorem Run.ctxGet (proj : Env → Option α) (n : String) : Run Z Eq (T.ctxGet proj n : T P _) (T.ctxGet proj n) :=
  .state fun env => by
    unfold T.ctxGet
    cases proj env with
    | none => exact ⟨fun _ => .error (noCtxAttr n), id, fun _ => rfl⟩
    | some a => exact ⟨fun _ => .ok a, id, fun _ => rfl⟩

theorem Run.ctxGet? (proj : Env → Option α) : Run Z Eq (T.ctxGet? proj : T P _) (T.ctxGet? proj) :=
  .state fun env => ⟨fun _ => .ok (proj env), id, fun _ => rfl⟩

theorem Run.formItems (id : Nat) : Run Z Eq (T.formItems id : T P _) (T.formItems id) :=
  .state fun _ => ⟨fun fs => .ok ((fs[id]?).elim [] FormObj.items), _root_.id, fun _ => rfl⟩

theorem Run.formCls (id : Nat) : Run Z Eq (T.formCls id : T P _) (T.formCls id) :=
  .state fun _ => ⟨fun fs => match fs[id]? with
    | some o => .ok o.cls
    | none => .error (.other "ReferenceError" "dangling form"), _root_.id, fun τ => by
      unfold T.formCls
      dsimp only
      split <;> simp [*]⟩

theorem Run.formModify (id : Nat) (g : List (Val × Val) → List (Val × Val)) :
    Run Z Eq (T.formModify id g : T P Unit) (T.formModify id g) :=
  .state fun _ => ⟨fun _ => .ok (), fun fs => fs.modify id fun o => { o with items := g o.items }, fun _ => rfl⟩

theorem Run.formParent (id : Nat) (par : Option Parent) :
    Run Z Eq (T.formParent id par : T P Unit) (T.formParent id par) :=
  .state fun _ => ⟨fun _ => .ok (), fun fs => fs.modify id fun o => { o with parent := some par }, fun _ => rfl⟩

theorem Run.newForm (cls : Nat) : Run Z Eq (T.newForm cls : T P Nat) (T.newForm cls) :=
  .state fun _ => ⟨fun fs => .ok fs.length, fun fs => fs ++ [{ cls := cls, items := [] }], fun _ => rfl⟩

/-- What the current paths can be. -/
theorem Half.paths {d : Nat} {τ σ : TSt P} (h : Half Z d τ σ) :
    (τ.path = none ∧ σ.path = none) ∨ (Z.lax ∧ τ.path = some none ∧ σ.path = some none) ∨
    ∃ r p r' q, τ.path = some (some (r, p)) ∧ σ.path = some (some (r', q)) ∧ Z.Q d p q := by
  have hp := h.path
  generalize τ.path = a at hp ⊢
  generalize σ.path = b at hp ⊢
  rcases a with _ | _ | ⟨r, p⟩ <;> rcases b with _ | _ | ⟨r', q⟩ <;> first
    | exact hp.elim
    | exact .inl ⟨rfl, rfl⟩
    | exact .inr (.inl ⟨hp, rfl, rfl⟩)
    | exact .inr (.inr ⟨r, p, r', q, rfl, rfl, hp⟩)

theorem Rel.paths {d : Nat} {τ σ : TSt P} (h : Rel Z d τ σ) :
    (τ.path = none ∧ σ.path = none) ∨ (Z.lax ∧ τ.path = some none ∧ σ.path = some none) ∨
    ∃ r p r' q, τ.path = some (some (r, p)) ∧ σ.path = some (some (r', q)) ∧ Z.Q d p q := h.half.paths

theorem Rel.setPath {d d' : Nat} {τ σ : TSt P} (h : Rel Z d τ σ) {r r' : Nat} {p q : P} (hq : Z.Q d' p q) :
    Rel Z d' { τ with path := some (some (r, p)) } { σ with path := some (some (r', q)) } :=
  ⟨hq, h.errs, h.forms⟩

theorem Run.onPath {f g : P → Except Exc α × P}
    (h : ∀ {d p q}, Z.Q d p q → Res Z R (f p).1 (g q).1 ∧ Z.Q d (f p).2 (g q).2) :
    Run Z R (T.onPath f) (T.onPath g) := by
  intro d env τ σ hr
  rcases hr.paths with ⟨h1, h2⟩ | ⟨-, h1, h2⟩ | ⟨r, p, r', q, h1, h2, hq⟩
  · unfold T.onPath; rw [h1, h2]; exact .of (.error (.refl _ _)) hr
  · unfold T.onPath; rw [h1, h2]; exact .of (.error (.refl _ _)) hr
  · rw [T.onPath_run h1, T.onPath_run h2]
    obtain ⟨h3, h4⟩ := h hq
    exact .of h3 (hr.setPath h4)

theorem Res.of_eq {x y : Except Exc α} (h : x = y) : Res Z Eq x y := by
  subst h
  cases x with
  | ok a => exact .ok rfl
  | error e => exact .error (.refl _ _)

theorem Run.read {f : P → Except Exc α × P} (h : ∀ {d p q}, Z.Q d p q → (f p).1 = (f q).1 ∧ Z.Q d (f p).2 (f q).2) :
    Run Z Eq (T.onPath f) (T.onPath f) :=
  .onPath fun hq => ⟨.of_eq (h hq).1, (h hq).2⟩

theorem Run.hasSrc : Run Z Eq (T.onPath fun p => (.ok (I.hasSrc p), p)) (T.onPath fun p => (.ok (I.hasSrc p), p)) :=
  .read fun h => ⟨by rw [Z.hasSrc h], h⟩

theorem Run.pathText : Run Z (fun a b => Z.Txt a.1 b.1) (T.pathText I) (T.pathText I) := by
  intro d env τ σ hr
  unfold T.pathText
  rcases hr.paths with ⟨h1, h2⟩ | ⟨hx, h1, h2⟩ | ⟨r, p, r', q, h1, h2, hq⟩
  · rw [h1, h2]; exact .of (.error (.refl _ _)) hr
  · rw [h1, h2]; exact .of (.ok (Z.txt_refl _ hx)) hr
  · rw [h1, h2]
    rcases Z.render hq with ⟨e, h3, h4⟩ | ⟨a, b, h3, h4, h5⟩
    · simp only [h3, h4]; exact .of (.error (.refl _ _)) hr
    · simp only [h3, h4]; exact .of (.ok h5) hr

theorem Rel.errs_cases {d : Nat} {τ σ : TSt P} (h : Rel Z d τ σ) :
    (τ.errs = none ∧ σ.errs = none) ∨
    ∃ b c, τ.errs = some b ∧ σ.errs = some c ∧ b.raising = c.raising ∧ (b.raising = true → Z.exact) ∧
      Errs Z b.items c.items := by
  have hp := h.errs
  generalize τ.errs = x at hp ⊢
  generalize σ.errs = y at hp ⊢
  rcases x with _ | b <;> rcases y with _ | c <;> first
    | exact hp.elim
    | exact .inl ⟨rfl, rfl⟩
    | exact .inr ⟨_, _, rfl, rfl, hp⟩

theorem Run.errsBound : Run Z Eq (T.errsBound : T P Unit) T.errsBound := by
  intro d env τ σ hr
  unfold T.errsBound
  rcases hr.errs_cases with ⟨h1, h2⟩ | ⟨b, c, h1, h2, -⟩
  · rw [h1, h2]; exact .of (.error (.refl _ _)) hr
  · rw [h1, h2]; exact .of (.ok rfl) hr

theorem Errs.append {as bs as' bs' : List Err} (h : Errs Z as bs) (h' : Errs Z as' bs') :
    Errs Z (as ++ as') (bs ++ bs') := by
  induction h with
  | nil => exact h'
  | cons h1 _ ih => exact .cons h1 ih

theorem Run.record {a b : Err} (h : E Z a b) : Run Z Eq (T.record a : T P Unit) (T.record b) := by
  intro d env τ σ hr
  unfold T.record
  rcases hr.errs_cases with ⟨h1, h2⟩ | ⟨c, c', h1, h2, h3, h4, h5⟩
  · rw [h1, h2]; exact .of (.error (.refl _ _)) hr
  · rw [h1, h2]
    dsimp only
    have h6 : Errs Z (c.items ++ [a]) (c'.items ++ [b]) := h5.append (.cons h .nil)
    refine .of ?_ ⟨hr.path, ⟨h3, h4, h6⟩, hr.forms⟩
    dsimp only
    rw [← h3]
    split
    · next hb => exact .error (by simp only [X, bare]; rw [h6.bare (h4 hb)])
    · exact .ok rfl

theorem Run.extend {as bs : List Err} (h : Errs Z as bs) : Run Z Eq (T.extend as : T P Unit) (T.extend bs) := by
  intro d env τ σ hr
  unfold T.extend
  rcases hr.errs_cases with ⟨h1, h2⟩ | ⟨c, c', h1, h2, h3, h4, h5⟩
  · rw [h1, h2]; exact .of (.error (.refl _ _)) hr
  · rw [h1, h2]
    exact .of (.ok rfl) ⟨hr.path, ⟨h3, h4, h5.append h⟩, hr.forms⟩

theorem Run.report (k : ErrKind) : Run Z Eq (T.report I k) (T.report I k) :=
  .bind .errsBound fun _ _ _ => .bind (.ctxGet _ _) fun _ _ h => .bind .pathText fun _ _ ht =>
    .record ⟨rfl, h, ht⟩

theorem Run.tryCatch {t u : T P α} {g h : Exc → T P α} (ht : Run Z R t u)
    (hl : ∀ x, (x.isSourceError || x.isValueError) = false → g x = T.raise x ∧ h x = T.raise x)
    (hh : ∀ x y, X Z x y → Run Z R (g x) (h y)) : Run Z R (T.tryCatch t g) (T.tryCatch u h) :=
  fun d env τ σ hr => (ht d env τ σ hr).tryCatch hl fun x y τ' σ' hx hr' => hh x y hx d env τ' σ' hr'

/-- Reading leaves the errors alone, so any handler can follow. -/
theorem Run.tryRead {γ : Type} {f : P → Except Exc γ × P} {k : γ → α} {g : Exc → T P α}
    (hf : ∀ {d p q}, Z.Q d p q → (f p).1 = (f q).1 ∧ Z.Q d (f p).2 (f q).2)
    (hR : ∀ a, R a a) (hh : ∀ x, Run Z R (g x) (g x)) :
    Run Z R (T.tryCatch (T.onPath f >>= fun a => T.pure (k a)) g)
      (T.tryCatch (T.onPath f >>= fun a => T.pure (k a)) g) := by
  intro d env τ σ hr
  have key : ∃ x τ' σ', T.onPath f env τ = (x, τ') ∧ T.onPath f env σ = (x, σ') ∧ Rel Z d τ' σ' := by
    rcases hr.paths with ⟨h1, h2⟩ | ⟨-, h1, h2⟩ | ⟨r, p, r', q, h1, h2, hq⟩
    · unfold T.onPath; rw [h1, h2]; exact ⟨_, _, _, rfl, rfl, hr⟩
    · unfold T.onPath; rw [h1, h2]; exact ⟨_, _, _, rfl, rfl, hr⟩
    · rw [T.onPath_run h1, T.onPath_run h2]
      obtain ⟨h3, h4⟩ := hf hq
      rw [h3]
      exact ⟨_, _, _, rfl, rfl, hr.setPath h4⟩
  obtain ⟨x, τ', σ', h1, h2, h3⟩ := key
  unfold T.tryCatch
  cases x with
  | error e =>
    rw [T.bind_error h1, T.bind_error h2]
    exact hh e d env τ' σ' h3
  | ok a =>
    rw [T.bind_ok h1, T.bind_ok h2]
    exact .of (.ok (hR _)) h3

theorem Run.ite {c : Prop} [Decidable c] {t t' u u' : T P α} (ht : c → Run Z R t t') (hu : ¬c → Run Z R u u') :
    Run Z R (if c then t else u) (if c then t' else u') := by
  split
  · exact ht ‹_›
  · exact hu ‹_›

theorem Run.seqTry : Run Z Eq (Lex.seqTry I) (Lex.seqTry I) := by
  unfold Lex.seqTry
  refine .tryRead (fun h => Z.sequence h) (fun _ => rfl) fun x => ?_
  refine .bind (R := Eq) .hasSrc fun a b h => ?_
  subst h
  exact .ite (fun _ => .raise (.refl _ _)) fun _ => .ite (fun _ => .pure rfl) fun _ => .raise (.refl _ _)

theorem Run.compute {t : T P Val} (h : Run Z Eq t t) : Run Z Eq
    (T.tryCatch t fun e => if e.isSourceError || e.isValueError then Lex.failWith I e.str else T.raise e)
    (T.tryCatch t fun e => if e.isSourceError || e.isValueError then Lex.failWith I e.str else T.raise e) := by
  refine .tryCatch h (fun x hx => by simp [hx]) fun x y hx => ?_
  obtain ⟨h1, h2, h3⟩ := hx.str
  rw [h1, h2, h3]
  exact .ite (fun _ => .bind (.report _) fun _ _ _ => .pure rfl) fun _ => .raise hx

theorem Run.withEnv (g : Env → Env) {t u : T P α} (h : Run Z R t u) : Run Z R (T.withEnv g t) (T.withEnv g u) :=
  fun d env τ σ hr => h d (g env) τ σ hr

/-- Below a key, given what appending the key does. -/
theorem Run.withKeyAt {k : Val} {t u : T P α} {d : Nat} {env : Env} {τ σ : TSt P} (h : Run Z R t u) (hr : Rel Z d τ σ)
    {r r' : Nat} {p q p' q' : P} (h1 : τ.path = some (some (r, p))) (h2 : σ.path = some (some (r', q)))
    (h3 : I.append p k = .ok p') (h4 : I.append q k = .ok q') (hq : Z.Q (d + 1) p' q') :
    Post Z R d (T.withKey I k t env τ) (T.withKey I k u env σ) := by
  have h6 := h (d + 1) { env with src := some (!k.isNull) } _ _ (hr.setPath (r := r) (r' := r') hq)
  rcases ht : t { env with src := some (!k.isNull) } { τ with path := some (some (r, p')) } with ⟨x, τ'⟩
  rcases hu : u { env with src := some (!k.isNull) } { σ with path := some (some (r', q')) } with ⟨y, σ'⟩
  rw [ht, hu] at h6
  have hrun : ∀ (v : T P α) (ρ ρ' : TSt P) (s : Nat) (a a' : P) (z : Except Exc α), ρ.path = some (some (s, a)) →
      I.append a k = .ok a' → v { env with src := some (!k.isNull) } { ρ with path := some (some (s, a')) } = (z, ρ') →
      T.withKey I k v env ρ = match T.onPath (pathPop I) env ρ' with
        | (.ok _, t3) => (z, t3)
        | (.error e, t3) => (.error e, t3) := by
    intro v ρ ρ' s a a' z ha hap hv
    unfold T.withKey
    rw [T.onPath_run ha]
    simp only [pathAppend, hap, hv]
    rcases T.onPath (pathPop I) env ρ' with ⟨_ | _, _⟩ <;> rfl
  rw [hrun t τ τ' r p p' x h1 h3 ht, hrun u σ σ' r' q q' y h2 h4 hu]
  obtain ⟨h5, h6, hw⟩ := h6
  dsimp only at h5 h6 hw
  rcases h6.paths with ⟨h7, h8⟩ | ⟨hx, h7, h8⟩ | ⟨s, a, s', b, h7, h8, hab⟩
  · unfold T.onPath; simp only [h7, h8]
    refine ⟨.error (.refl _ _), ⟨by simp only [h7, h8], h6.forms⟩, fun h => ?_⟩
    have hl : Z.lax := by
      rcases h with h | h
      · exact h
      · cases h
    exact ⟨by simp only [h7, h8], (hw (.inl hl)).errs, h6.forms⟩
  · unfold T.onPath; simp only [h7, h8]
    exact .of (.error (.refl _ _)) ⟨by simp only [h7, h8]; exact hx, (hw (.inl hx)).errs, h6.forms⟩
  · obtain ⟨a', b', h9, h10, h11⟩ := Z.pop hab
    rw [T.onPath_run h7, T.onPath_run h8]
    simp only [pathPop, h9, h10]
    exact ⟨h5, ⟨h11, h6.forms⟩, fun h => (hw h).setPath h11⟩

theorem Run.withKey {k : Val} {t u : T P α} (hk : (k.isIntLike || k.isStr) = true) (h : Run Z R t u) :
    Run Z R (T.withKey I k t) (T.withKey I k u) := by
  intro d env τ σ hr
  rcases hr.paths with ⟨h1, h2⟩ | ⟨-, h1, h2⟩ | ⟨r, p, r', q, h1, h2, hq⟩
  · unfold T.withKey T.onPath; rw [h1, h2]; exact .of (.error (.refl _ _)) hr
  · unfold T.withKey T.onPath; rw [h1, h2]; exact .of (.error (.refl _ _)) hr
  · rcases Z.append hk hq with ⟨e, h3, h4⟩ | ⟨p', q', h3, h4, h5⟩
    · unfold T.withKey
      rw [T.onPath_run h1, T.onPath_run h2]
      simp only [pathAppend, h3, h4]
      exact .of (.error (.refl _ _)) (hr.setPath hq)
    · exact h.withKeyAt hr h1 h2 h3 h4 h5

/-! ### Under a key that is neither a string nor an integer -/

theorem TSt.path_eta {τ : TSt P} {x : Option (Option (Nat × P))} (h : τ.path = x) : { τ with path := x } = τ := by
  subst h; rfl

section
variable {L : Lib} {C : Classes}

theorem dead_start {f : Field} (hf : ValueHooks True f) {n : Nat} {env : Env} {τ : TSt P} {r : Nat} {p : P}
    (hp : τ.path = some (some (r, p))) (hd : Z.Dead p) :
    Lex.fieldStart I L C (Lex.mapField I L C n) f env τ = (.error deadExc, τ) := by
  unfold Lex.fieldStart
  refine T.bind_error ?_
  unfold Lex.computeStep
  rw [hf.compute]
  unfold Lex.fieldCompute
  refine T.bind_error ?_
  rw [T.onPath_run hp, Z.dead_exists hd, TSt.path_eta hp]

theorem dead_key {k : Val} {t : T P α} {env : Env} {τ : TSt P} {r : Nat} {p p' : P} {x : Exc}
    (hp : τ.path = some (some (r, p))) (ha : I.append p k = .ok p') (hpop : I.pop p' = .ok p)
    (ht : ∀ env (τ : TSt P), τ.path = some (some (r, p')) → t env τ = (.error x, τ)) :
    T.withKey I k t env τ = (.error x, τ) := by
  rw [T.withKey_run hp ha (ht _ { τ with path := some (some (r, p')) } rfl) rfl hpop]
  show (_, { τ with path := some (some (r, p)) }) = _
  rw [TSt.path_eta hp]

theorem dead_map {f : Field} (hf : ValueHooks True f) (n : Nat) : ∃ x, ∀ (env : Env) (τ : TSt P) (r : Nat) (p : P),
    τ.path = some (some (r, p)) → Z.Dead p → Lex.mapField I L C n f .NONE env τ = (.error x, τ) := by
  cases n with
  | zero => exact ⟨.recursion, fun _ _ _ _ _ _ => rfl⟩
  | succ n =>
    refine ⟨deadExc, fun env τ r p hp hd => ?_⟩
    show Lex.mapFieldF I L C (Lex.mapField I L C n) f .NONE env τ = _
    unfold Lex.mapFieldF
    refine T.bind_error ?_
    unfold T.withEnv
    rw [show Lex.fieldMapInner I L C (Lex.mapField I L C n) f .NONE = Lex.withResolve I L C (Lex.mapField I L C n) f
      (Lex.fieldStart I L C (Lex.mapField I L C n) f) from if_pos rfl]
    unfold Lex.withResolve
    rw [hf.resolve]
    dsimp only
    have hs : ∀ env, Lex.fieldStart I L C (Lex.mapField I L C n) f env τ = (.error deadExc, τ) :=
      fun env => dead_start hf hp hd
    have hk : ∀ env, T.withKey I f.core.src (Lex.fieldStart I L C (Lex.mapField I L C n) f) env τ
        = (.error deadExc, τ) := by
      intro env
      obtain ⟨p', h1, h2, h3⟩ := Z.dead_append (k := f.core.src) hd
      exact dead_key hp h1 h3 fun env τ' hp' => dead_start hf hp' h2
    cases f.kind <;> first
      | exact hs _
      | (dsimp only; split
         · exact hs _
         · exact hk _)

theorem Run.raw {k : Val} {t : T P α} (hk : (k.isIntLike || k.isStr) = false) (h : Run Z Eq t t)
    {x : Exc} (hd : ∀ (env : Env) (τ : TSt P) (r : Nat) (p : P), τ.path = some (some (r, p)) → Z.Dead p →
      t env τ = (.error x, τ)) : Run Z Eq (T.withKey I k t) (T.withKey I k t) := by
  intro d env τ σ hr
  rcases hr.paths with ⟨h1, h2⟩ | ⟨-, h1, h2⟩ | ⟨r, p, r', q, h1, h2, hq⟩
  · unfold T.withKey T.onPath; rw [h1, h2]; exact .of (.error (.refl _ _)) hr
  · unfold T.withKey T.onPath; rw [h1, h2]; exact .of (.error (.refl _ _)) hr
  · rcases Z.raw hk hq with ⟨e, h3, h4⟩ | ⟨p', q', h3, h4, h5 | ⟨h5, h6, h7, h8⟩⟩
    · unfold T.withKey
      rw [T.onPath_run h1, T.onPath_run h2]
      simp only [pathAppend, h3, h4]
      exact .of (.error (.refl _ _)) (hr.setPath hq)
    · exact h.withKeyAt hr h1 h2 h3 h4 h5
    · rw [dead_key h1 h3 h7 fun env τ' hp' => hd env τ' _ _ hp' h5,
        dead_key h2 h4 h8 fun env τ' hp' => hd env τ' _ _ hp' h6]
      exact .of (.error (.refl _ _)) hr

end

/-! ### Error lists and other sources -/

theorem Rel.withErrs {d : Nat} {τ σ : TSt P} (h : Rel Z d τ σ) {b : Bool} (hb : b = true → Z.exact) :
    Rel Z d { τ with errs := some { raising := b, items := [] } } { σ with errs := some { raising := b, items := [] } } :=
  ⟨h.path, ⟨rfl, hb, .nil⟩, h.forms⟩

theorem Run.withErrs {b : Bool} (hb : b = true → Z.exact) {t u : T P α} (h : Run Z R t u) :
    Run Z (fun x y => R x.1 y.1 ∧ Errs Z x.2 y.2) (T.withErrs b t) (T.withErrs b u) := by
  intro d env τ σ hr
  obtain ⟨h1, h2, hw⟩ := h d env _ _ (hr.withErrs hb)
  unfold T.withErrs
  rcases ht : t env { τ with errs := some { raising := b, items := [] } } with ⟨x, τ'⟩
  rcases hu : u env { σ with errs := some { raising := b, items := [] } } with ⟨y, σ'⟩
  rw [ht, hu] at h1 h2 hw
  cases h1 with
  | error hx => exact .of (.error hx) ⟨h2.path, hr.errs, h2.forms⟩
  | ok ha =>
    refine .of (.ok ⟨ha, ?_⟩) ⟨h2.path, hr.errs, h2.forms⟩
    rcases (hw (.inr trivial)).errs_cases with ⟨h3, h4⟩ | ⟨c, c', h3, h4, -, -, h5⟩
    · dsimp only at h3 h4; rw [h3, h4]; exact .nil
    · dsimp only at h3 h4; rw [h3, h4]; exact h5

theorem Errs.imp {Z Z' : PathTwin I W} (hi : ∀ a b, Z.Txt a b → Z'.Txt a b) {as bs : List Err} (h : Errs Z as bs) :
    Errs Z' as bs := by
  induction h with
  | nil => exact .nil
  | cons h _ ih => exact .cons ⟨h.1, h.2.1, hi _ _ h.2.2⟩ ih

theorem Res.cast {Z Z' : PathTwin I W} {x y : Except Exc α} (h : Res Z R x y) : Res Z' R x y := by
  cases h with
  | ok h => exact .ok h
  | error h => exact .error h

/-- Under another source, the same in both runs. -/
theorem Run.withSource (hx : Z.lax) {mk : Except Exc P} (hmk : ∀ p, mk = .ok p → W.WF p) {t u : T P α}
    (h : Run (Z.among hx) R t u) : Run Z R (T.withSource mk t) (T.withSource mk u) := by
  intro d env τ σ hr
  cases mk with
  | error e => exact .of (.error (.refl _ _)) hr
  | ok p =>
    unfold T.withSource
    dsimp only
    have he := hr.errs_cases
    obtain ⟨h1, -, h2⟩ := h 0 { env with src := some true }
      { τ with path := some (some (τ.npaths, p)), npaths := τ.npaths + 1 }
      { σ with path := some (some (σ.npaths, p)), npaths := σ.npaths + 1 }
      ⟨⟨rfl, hmk p rfl, Nat.zero_le _⟩, by
        rcases he with ⟨h3, h4⟩ | ⟨b, c, h3, h4, h5, h6, h7⟩
        · simp only [h3, h4]
        · simp only [h3, h4]; exact ⟨h5, h6, h7.imp (Z := Z) (Z' := Z.among hx) fun _ _ h => h⟩, hr.forms⟩
    replace h2 := h2 (.inl trivial)
    refine .of h1.cast ⟨hr.path, ?_, h2.forms⟩
    rcases h2.errs_cases with ⟨h3, h4⟩ | ⟨b, c, h3, h4, h5, h6, h7⟩
    · simp only [h3, h4]
    · simp only [h3, h4]; exact ⟨h5, h6, h7.imp (Z := Z.among hx) (Z' := Z) fun _ _ h => h⟩

/-- Under another source and a new error list. -/
theorem Run.root {b : Bool} {mk : Except Exc P} (hmk : ∀ p, mk = .ok p → W.WF p) {t u : T P α}
    (h : Run (.same W) R t u) :
    Run Z (fun x y => R x.1 y.1 ∧ Errs (.same W) x.2 y.2) (T.withErrs b (T.withSource mk t))
      (T.withErrs b (T.withSource mk u)) := by
  intro d env τ σ hr
  cases mk with
  | error e => exact .of (.error (.refl _ _)) ⟨hr.path, hr.errs, hr.forms⟩
  | ok p =>
    obtain ⟨h1, -, h2⟩ := h 0 { env with src := some true }
      { τ with path := some (some (τ.npaths, p)), npaths := τ.npaths + 1, errs := some { raising := b, items := [] } }
      { σ with path := some (some (σ.npaths, p)), npaths := σ.npaths + 1, errs := some { raising := b, items := [] } }
      ⟨⟨rfl, hmk p rfl, Nat.zero_le _⟩, ⟨rfl, fun _ => trivial, .nil⟩, hr.forms⟩
    replace h2 := h2 (.inl trivial)
    unfold T.withErrs T.withSource
    dsimp only
    generalize t { env with src := some true } _ = x at h1 h2 ⊢
    generalize u { env with src := some true } _ = y at h1 h2 ⊢
    obtain ⟨x, τ'⟩ := x
    obtain ⟨y, σ'⟩ := y
    dsimp only at h1 h2
    cases h1 with
    | error hx => exact .of (.error hx) ⟨hr.path, hr.errs, h2.forms⟩
    | ok ha =>
      refine .of (.ok ⟨ha, ?_⟩) ⟨hr.path, hr.errs, h2.forms⟩
      dsimp only
      rcases h2.errs_cases with ⟨h3, h4⟩ | ⟨c, c', h3, h4, -, -, h5⟩
      · rw [h3, h4]; exact .nil
      · rw [h3, h4]; exact h5

/-! ### The type of a polymorphic field -/

section
variable {L : Lib} {C : Classes} {n : Nat}

theorem Run.formResetIf (id : Nat) (tags : List String) (reset : Bool) :
    Run Z Eq (Lex.formResetIf C id tags reset : T P Unit) (Lex.formResetIf C id tags reset) := by
  unfold Lex.formResetIf
  refine .ite (fun _ => .bind (.formCls _) fun cls _ h => ?_) fun _ => .pure rfl
  subst h
  induction (C cls).fields with
  | nil => exact .pure rfl
  | cons f fs ih =>
    unfold Lex.formReset
    exact .bind (.ite (fun _ => .formModify _ _) fun _ => .pure rfl) fun _ _ _ => ih

/-- A source argument, the same in both runs. -/
def SrcEq (W : LawfulPath I) (a b : SrcArg P) : Prop := a = b ∧ SrcOK W a

theorem Run.rootSource (id : Nat) {src : SrcArg P} (hs : SrcOK W src) :
    Run Z (fun a b => a = b ∧ ∀ p, a = .ok p → W.WF p) (Lex.rootSource I C id src) (Lex.rootSource I C id src) := by
  have hn : ∀ v al, ∀ p, (Except.ok (I.native v al) : Except Exc P) = .ok p → W.WF p := by
    intro v al p hp; cases hp; exact W.native_wf
  unfold Lex.rootSource
  split
  · exact .pure ⟨rfl, hn _ _⟩
  · refine .pure ⟨rfl, ?_⟩
    rintro p rfl
    exact hs
  · exact .pure ⟨rfl, hn _ _⟩
  · exact .bind (.formCls _) fun _ _ h => .pure ⟨by rw [h], hn _ _⟩
  · exact .bind (.formCls _) fun _ _ h => .pure ⟨by rw [h], hn _ _⟩
  · exact .raise (.refl _ _)

/-- The same errors up to the identities of path objects. -/
def BareEq (es es' : List Err) : Prop := es.map bareErr = es'.map bareErr

theorem Run.rootMap (id : Nat) {src : SrcArg P} (hs : SrcOK W src) (tags : List String)
    (u : Unmapped) (b : Bool) (h : Run (.same W) Eq (Lex.formMapBody I C (Lex.mapField I L C n) id tags u)
      (Lex.formMapBody I C (Lex.mapField I L C n) id tags u)) :
    Run Z BareEq (Lex.rootMap I C (Lex.mapField I L C n) id src tags u b)
      (Lex.rootMap I C (Lex.mapField I L C n) id src tags u b) :=
  .bind (.rootSource id hs) fun _ _ hm => hm.1 ▸ .bind (.root hm.2 h) fun _ _ he =>
    .pure (he.2.bare trivial)

theorem Run.nestedMap {b : Bool} (hb : b = true → Z.exact) (id : Nat) (tags : List String) (u : Unmapped)
    (h : Run Z Eq (Lex.formMapBody I C (Lex.mapField I L C n) id tags u)
      (Lex.formMapBody I C (Lex.mapField I L C n) id tags u)) :
    Run Z (Errs Z) (Lex.nestedMap I C (Lex.mapField I L C n) id tags u b)
      (Lex.nestedMap I C (Lex.mapField I L C n) id tags u b) :=
  .bind (.withErrs hb h) fun _ _ he => .bind (.extend he.2) fun _ _ _ => .pure he.2

theorem Run.formMap (id : Nat) {src : SrcArg P} (hs : SrcOK W src) (hn : src.isNone = true → Z.exact ∧ Z.lax)
    (tags : List String) (reset : Bool)
    (u : Unmapped) (h : ∀ (Z' : PathTwin I W), Z'.lax → ∀ tags,
      Run Z' Eq (Lex.formMapBody I C (Lex.mapField I L C n) id tags u)
        (Lex.formMapBody I C (Lex.mapField I L C n) id tags u)) (b : Bool) :
    Run Z BareEq (Lex.formMap I C (Lex.mapField I L C n) id src tags reset u b)
      (Lex.formMap I C (Lex.mapField I L C n) id src tags reset u b) := by
  unfold Lex.formMap
  refine .bind (.ctxGet? _) fun ct _ h1 => ?_
  subst h1
  refine .bind (.formResetIf _ _ _) fun _ _ _ => .bind (.ctxGet _ _) fun cs _ h2 => ?_
  subst h2
  refine .bind (R := BareEq) ?_ fun es es' he => ?_
  · unfold Lex.formMapAt
    exact .ite (fun hi => .ite (fun _ => .imp (.nestedMap (fun _ => (hn hi).1) _ _ _ (h Z (hn hi).2 _))
        fun _ _ he => he.bare (hn hi).1)
      fun _ => .rootMap id (src := .none) trivial _ _ _ (h (.same W) trivial _))
      fun _ => .rootMap id hs _ _ _ (h (.same W) trivial _)
  · have hemp : es.isEmpty = es'.isEmpty := by
      have := congrArg List.isEmpty he
      simpa using this
    unfold Lex.formFinish
    rw [hemp]
    refine .ite (fun _ => .ite (fun _ => .pure he) fun _ => .raise ?_) fun _ => .pure he
    simp only [X, Twin.bare]
    rw [he]

/-- The computation gives matching results in matching states of which the first meets a condition. -/
def RunIf (Z : PathTwin I W) (c : TSt P → Prop) {α : Type} (R : α → α → Prop) (t u : T P α) : Prop :=
  ∀ d env τ σ, Rel Z d τ σ → c τ → Post Z R d (t env τ) (u env σ)

theorem RunIf.bind {c : TSt P → Prop} {t u : T P α} {f g : α → T P β} (h : RunIf Z c R t u)
    (hf : ∀ a b, R a b → Run Z S (f a) (g b)) : RunIf Z c S (t >>= f) (u >>= g) :=
  fun d env τ σ hr hc => (h d env τ σ hr hc).bind fun a b τ' σ' ha hr' => hf a b ha d env τ' σ' hr'

theorem RunIf.tryCatch {c : TSt P → Prop} {t u : T P α} {g h : Exc → T P α} (ht : RunIf Z c R t u)
    (hl : ∀ x, (x.isSourceError || x.isValueError) = false → g x = T.raise x ∧ h x = T.raise x)
    (hh : ∀ x y, X Z x y → Run Z R (g x) (h y)) : RunIf Z c R (T.tryCatch t g) (T.tryCatch u h) :=
  fun d env τ σ hr hc => (ht d env τ σ hr hc).tryCatch hl fun x y τ' σ' hx hr' => hh x y hx d env τ' σ' hr'

/-- The value of the current path is not `None`. -/
def NotNull (I : PathOps P) (τ : TSt P) : Prop :=
  ∀ r p v, τ.path = some (some (r, p)) → (I.value p).1 = .ok v → v.isNull = false

/-- A guarded computation runs where the value is not `None`. -/
theorem Run.guarded {t : T P Val} (h : RunIf Z (fun τ => Z.exact ∨ NotNull I τ) Eq t t) :
    Run Z Eq (Lex.guarded I t) (Lex.guarded I t) := by
  intro d env τ σ hr
  unfold Lex.guarded
  rcases hr.paths with ⟨h1, h2⟩ | ⟨-, h1, h2⟩ | ⟨r, p, r', q, h1, h2, hq⟩
  · have e : ∀ ρ : TSt P, ρ.path = none → T.onPath I.exists_ env ρ = (.error (noCtxAttr "src_path"), ρ) := by
      intro ρ h; unfold T.onPath; rw [h]
    rw [T.bind_error (e τ h1), T.bind_error (e σ h2)]
    exact .of (.error (.refl _ _)) hr
  · have e : ∃ x, ∀ ρ : TSt P, ρ.path = some none → T.onPath I.exists_ env ρ = (.error x, ρ) :=
      ⟨_, by intro ρ h; unfold T.onPath; rw [h]⟩
    obtain ⟨x, e⟩ := e
    rw [T.bind_error (e τ h1), T.bind_error (e σ h2)]
    exact .of (.error (.refl _ _)) hr
  · obtain ⟨h3, h4⟩ := Z.exists_ hq
    have e1 := T.onPath_run (f := I.exists_) (env := env) h1
    have e2 := T.onPath_run (f := I.exists_) (env := env) h2
    rw [← h3] at e2
    have hr1 := hr.setPath (r := r) (r' := r') h4
    cases hx : (I.exists_ p).1 with
    | error e =>
      rw [hx] at e1 e2
      rw [T.bind_error e1, T.bind_error e2]
      exact .of (.error (.refl _ _)) hr1
    | ok ex =>
      rw [hx] at e1 e2
      rw [T.bind_ok e1, T.bind_ok e2]
      cases ex with
      | false => exact .of (.ok rfl) hr1
      | true =>
        obtain ⟨h5, h6⟩ := Z.isNull h4
        have e3 := T.onPath_run (f := I.isNull) (env := env) (τ := { τ with path := some (some (r, (I.exists_ p).2)) }) rfl
        have e4 := T.onPath_run (f := I.isNull) (env := env) (τ := { σ with path := some (some (r', (I.exists_ q).2)) }) rfl
        rw [← h5] at e4
        have hr2 := hr.setPath (r := r) (r' := r') h6
        simp only [Bool.not_true, Bool.false_eq_true, if_false]
        cases hn : (I.isNull (I.exists_ p).2).1 with
        | error e =>
          rw [hn] at e3 e4
          rw [T.bind_error e3, T.bind_error e4]
          exact .of (.error (.refl _ _)) hr2
        | ok nl =>
          rw [hn] at e3 e4
          rw [T.bind_ok e3, T.bind_ok e4]
          cases nl with
          | true => exact .of (.ok rfl) hr2
          | false =>
            simp only [Bool.false_eq_true, if_false]
            refine (h.tryCatch (fun x hx => by simp [hx]) fun x y hx => ?_) d env _ _ hr2 ?_
            · obtain ⟨h1, h2, h3⟩ := hx.str
              rw [h1, h2, h3]
              exact .ite (fun _ => .bind (.report _) fun _ _ _ => .pure rfl) fun _ => .raise hx
            · rcases Z.honest with hz | hz
              · exact .inl hz
              · refine .inr ?_
                intro r0 p0 v hp hv
                cases hp
                exact hz p v hx hn hv

/-- The same path, among errors whose texts are equal or related as by `Z`. -/
def loosen (Z : PathTwin I W) (hx : ¬ Z.exact) : PathTwin I W :=
  .still W (fun a b => Z.Txt a b ∨ a = b) False True (fun h _ => h.elim) (fun _ => .inr rfl)
    (.inr (Z.honest.resolve_left hx))

/-- A field of a single value looked for in an empty source: if it reports errors, it has no value, and the
attribute error that follows goes through all fields. -/
theorem Run.getEmpty (hx : ¬ Z.exact) (hC : C.All (ValueHooks True)) {tf : Field} (htf : tf.All (ValueHooks True))
    (hlf : (tf.kind.leaf = true ∧ tf.Wordless))
    (hr : ∀ (Z' : PathTwin I W), Z'.lax → ∀ v, Run Z' Eq (Lex.mapField I L C n tf v) (Lex.mapField I L C n tf v))
    (id : Nat) : Run Z Eq (Lex.getEmpty I (Lex.mapField I L C n) tf id >>= Lex.getFinish tf id)
      (Lex.getEmpty I (Lex.mapField I L C n) tf id >>= Lex.getFinish tf id) := by
  intro d env τ σ hrel
  have hfin : ∀ v, Run Z Eq (Lex.getFinish tf id v : T P Val) (Lex.getFinish tf id v) := by
    intro v
    unfold Lex.getFinish
    exact .ite (fun _ => .raise (.refl _ _)) fun _ => .bind (.formModify _ _) fun _ _ _ => .pure rfl
  have hmute : Hush W (Lex.mapField I L C n tf .NONE) (·.isIgnore = true) := by
    cases n with
    | zero => exact .raise
    | succ n => exact .leaf htf.node hlf _
  have hkeep := TKeeps.mapField (W := W) (L := L) hC n tf .NONE htf
  let env' : Env := { env with src := some true, form := some id, parent := some (.form id) }
  let τ0 : TSt P := { τ with path := some (some (τ.npaths, I.native (.dict []) none)), npaths := τ.npaths + 1 }
  let σ0 : TSt P := { σ with path := some (some (σ.npaths, I.native (.dict []) none)), npaths := σ.npaths + 1 }
  have eτ : Lex.getEmpty I (Lex.mapField I L C n) tf id env τ =
      ((Lex.mapField I L C n tf .NONE env' τ0).1, { (Lex.mapField I L C n tf .NONE env' τ0).2 with path := τ.path }) := rfl
  have eσ : Lex.getEmpty I (Lex.mapField I L C n) tf id env σ =
      ((Lex.mapField I L C n tf .NONE env' σ0).1, { (Lex.mapField I L C n tf .NONE env' σ0).2 with path := σ.path }) := rfl
  have hrel0 : Rel (loosen Z hx) 0 τ0 σ0 := by
    refine ⟨⟨rfl, W.native_wf, Nat.zero_le _⟩, ?_, hrel.forms⟩
    rcases hrel.errs_cases with ⟨h3, h4⟩ | ⟨b, c, h3, h4, h5, h6, h7⟩
    · simp only [τ0, σ0, h3, h4]
    · simp only [τ0, σ0, h3, h4]
      exact ⟨h5, fun h => hx (h6 h), h7.imp (Z := Z) (Z' := loosen Z hx) fun _ _ h => .inl h⟩
  obtain ⟨hres, hhalf, -⟩ := hr (loosen Z hx) trivial .NONE 0 env' τ0 σ0 hrel0
  have hhalf' : Half Z d { (Lex.mapField I L C n tf .NONE env' τ0).2 with path := τ.path }
      { (Lex.mapField I L C n tf .NONE env' σ0).2 with path := σ.path } := ⟨hrel.path, hhalf.forms⟩
  have key : (∃ v, (Lex.mapField I L C n tf .NONE env' τ0).1 = .ok v ∧ v.isIgnore = true ∧
        (Lex.mapField I L C n tf .NONE env' σ0).1 = .ok v) ∨
      Rel Z d { (Lex.mapField I L C n tf .NONE env' τ0).2 with path := τ.path }
        { (Lex.mapField I L C n tf .NONE env' σ0).2 with path := σ.path } := by
    have wτ : TWF W τ0 := by rintro r p hp; cases hp; exact W.native_wf
    have wσ : TWF W σ0 := by rintro r p hp; cases hp; exact W.native_wf
    rcases hrel.errs_cases with ⟨h3, h4⟩ | ⟨b, c, h3, h4, h5, h6, h7⟩
    · have k1 := (hkeep env' τ0 wτ).errs
      have k2 := (hkeep env' σ0 wσ).errs
      have h3' : τ0.errs = none := h3
      have h4' : σ0.errs = none := h4
      rw [h3'] at k1
      rw [h4'] at k2
      have k1 : (Lex.mapField I L C n tf .NONE env' τ0).2.errs = none := k1
      have k2 : (Lex.mapField I L C n tf .NONE env' σ0).2.errs = none := k2
      exact .inr ⟨hhalf'.path, by simp only [k1, k2], hhalf'.forms⟩
    · have hb : b.raising = false := by
        cases hb : b.raising with
        | false => rfl
        | true => exact absurd (h6 hb) hx
      obtain ⟨es, k1, -, k2⟩ := hmute (W.shape (I.native (.dict []) none)) (I.keys (I.native (.dict []) none)) env' τ0 b
        ⟨_, _, rfl, W.native_wf, rfl, rfl⟩ h3
      obtain ⟨es', k3, -, k4⟩ := hmute (W.shape (I.native (.dict []) none)) (I.keys (I.native (.dict []) none)) env' σ0 c
        ⟨_, _, rfl, W.native_wf, rfl, rfl⟩ h4
      rw [hb] at k2 h5
      rw [← h5] at k4
      have hsame : es = [] → es' = [] → Rel Z d { (Lex.mapField I L C n tf .NONE env' τ0).2 with path := τ.path }
          { (Lex.mapField I L C n tf .NONE env' σ0).2 with path := σ.path } := by
        rintro rfl rfl
        refine ⟨hhalf'.path, ?_, hhalf'.forms⟩
        simp only [k1, k3, List.append_nil]
        exact ⟨by rw [hb, h5], h6, h7⟩
      generalize (Lex.mapField I L C n tf .NONE env' τ0).1 = x at hres k2
      generalize (Lex.mapField I L C n tf .NONE env' σ0).1 = y at hres k4
      cases hres with
      | error he =>
        exact .inr (hsame (k2.resolve_right (fun h => by cases h)) (k4.resolve_right (fun h => by cases h)))
      | @ok v w he =>
        subst he
        rcases k2 with k2 | k2
        · rcases k4 with k4 | k4
          · exact .inr (hsame k2 k4)
          · exact .inl ⟨v, rfl, k4, rfl⟩
        · exact .inl ⟨v, rfl, k2, rfl⟩
  rcases key with ⟨v, h1, h2, h3⟩ | key
  · rw [h1] at eτ
    rw [h3] at eσ
    rw [T.bind_ok eτ, T.bind_ok eσ]
    have e : ∀ ρ : TSt P, (Lex.getFinish tf id v : T P Val) env ρ = (.error (.attributeError "form cannot map field"), ρ) := by
      intro ρ
      unfold Lex.getFinish
      rw [if_pos h2]
      rfl
    rw [e, e]
    refine ⟨.error (.refl _ _), hhalf', fun h => ?_⟩
    rcases h with h | h
    · have hall : Run Z Eq (Lex.getEmpty I (Lex.mapField I L C n) tf id >>= Lex.getFinish tf id)
          (Lex.getEmpty I (Lex.mapField I L C n) tf id >>= Lex.getFinish tf id) :=
        .bind (.withSource h (by rintro p h; cases h; exact W.native_wf)
          (.withEnv _ (hr (Z.among h) trivial _))) fun a _ h => h ▸ hfin a
      have := (hall d env τ σ hrel).rel (.inl h)
      rw [T.bind_ok eτ, T.bind_ok eσ, e, e] at this
      exact this
    · cases h
  · have hp : Post Z Eq d (Lex.getEmpty I (Lex.mapField I L C n) tf id env τ)
        (Lex.getEmpty I (Lex.mapField I L C n) tf id env σ) := by
      rw [eτ, eσ]
      exact .of hres.cast key
    exact hp.bind fun a _ τ' σ' h hr' => h ▸ hfin a d env τ' σ' hr'

theorem RunIf.polyType {tf : Field} (hl : Z.lax ∨ (¬ Z.exact ∧ C.All (ValueHooks True) ∧ tf.All (ValueHooks True) ∧ (tf.kind.leaf = true ∧ tf.Wordless)))
    (hrZ : ∀ v, Run Z Eq (Lex.mapField I L C n tf v) (Lex.mapField I L C n tf v))
    (hr : ∀ (Z' : PathTwin I W), Z'.lax → ∀ v, Run Z' Eq (Lex.mapField I L C n tf v) (Lex.mapField I L C n tf v))
    (hb : ∀ (Z' : PathTwin I W), Z'.lax → ∀ id tags, Run Z' Eq
      (Lex.formMapBody I C (Lex.mapField I L C n) id tags (.str .ignore))
      (Lex.formMapBody I C (Lex.mapField I L C n) id tags (.str .ignore)))
    (pc : Nat) (types : List (Val × Nat)) :
    RunIf Z (fun τ => Z.exact ∨ NotNull I τ) Eq (Lex.polyType I L C (Lex.mapField I L C n) tf pc types)
      (Lex.polyType I L C (Lex.mapField I L C n) tf pc types) := by
  have hfin : ∀ id v, Run Z Eq (Lex.getFinish tf id v : T P Val) (Lex.getFinish tf id v) := by
    intro id v
    unfold Lex.getFinish
    exact .ite (fun _ => .raise (.refl _ _)) fun _ => .bind (.formModify _ _) fun _ _ _ => .pure rfl
  have hempty : ∀ id, Run Z Eq (Lex.getEmpty I (Lex.mapField I L C n) tf id >>= Lex.getFinish tf id)
      (Lex.getEmpty I (Lex.mapField I L C n) tf id >>= Lex.getFinish tf id) := fun id => by
    rcases hl with hl | ⟨hx, hC, htf, hlf⟩
    · exact .bind (.withSource hl (by rintro p h; cases h; exact W.native_wf) (.withEnv _ (hr (Z.among hl) trivial _)))
        fun _ _ h => h ▸ hfin _ _
    · exact .getEmpty hx hC htf hlf hr id
  have hget : ∀ id, Run Z Eq (Lex.fieldGet I (Lex.mapField I L C n) tf id)
      (Lex.fieldGet I (Lex.mapField I L C n) tf id) := by
    intro id
    unfold Lex.fieldGet
    refine .bind (.formItems _) fun items _ h => ?_
    subst h
    split
    · exact .pure rfl
    · refine .bind (.ctxGet? _) fun fm _ h => ?_
      subst h
      split
      · unfold Lex.getEmpty
        refine .bind (.root (R := Eq) (by rintro p h; cases h; exact W.native_wf)
          (.withEnv _ (hr (.same W) trivial _))) fun x y h => ?_
        obtain ⟨a, es⟩ := x
        obtain ⟨b, es'⟩ := y
        obtain ⟨h, -⟩ := h
        dsimp only at h ⊢
        subst h
        exact hfin _ _
      · refine .bind (.ctxGet? _) fun par _ h => ?_
        subst h
        exact .ite (fun _ => .bind (hrZ _) fun _ _ h => h ▸ hfin _ _)
          fun _ => hempty id
  have hsrc : RunIf Z (fun τ => Z.exact ∨ NotNull I τ) (fun a b => SrcEq W a b ∧ (a.isNone = true → Z.exact ∧ Z.lax))
      (Lex.probeSrc I) (Lex.probeSrc I) := by
    intro d env τ σ hrel hc
    have hrun : Run Z (fun a b => SrcEq W a b ∧ ((∃ v, a = .data v) → ∃ v, a = .data v)) (Lex.probeSrc I) (Lex.probeSrc I) := by
      unfold Lex.probeSrc
      refine .bind (.read fun h => Z.value h) fun v _ h => ?_
      subst h
      refine .onPath fun {d p q} hq => ⟨.ok ⟨⟨?_, ?_⟩, id⟩, hq⟩
      · rw [Z.joinPath hq]
      · cases hj : I.joinPath p with
        | none => trivial
        | some mk => cases mk with
          | error e => trivial
          | ok j => exact W.joinPath_wf (Z.wf hq).1 hj
    obtain ⟨h1, h2, h3⟩ := hrun d env τ σ hrel
    refine ⟨?_, h2, h3⟩
    have hnone : ∀ a, (Lex.probeSrc I env τ).1 = .ok a → a.isNone = true → Z.exact ∧ Z.lax := by
      intro a ha hi
      rcases hc with hc | hc
      · exact ⟨hc, hl.resolve_right fun h => h.1 hc⟩
      · exfalso
        unfold Lex.probeSrc at ha
        rcases hrel.paths with ⟨h1, -⟩ | ⟨-, h1, -⟩ | ⟨r, p, r', q, h1, -, -⟩
        · have e1 : ∃ x, T.onPath I.value env τ = (.error x, τ) := ⟨_, by unfold T.onPath; rw [h1]⟩
          obtain ⟨x, e1⟩ := e1
          rw [T.bind_error e1] at ha
          cases ha
        · have e1 : ∃ x, T.onPath I.value env τ = (.error x, τ) := ⟨_, by unfold T.onPath; rw [h1]⟩
          obtain ⟨x, e1⟩ := e1
          rw [T.bind_error e1] at ha
          cases ha
        · have e1 := T.onPath_run (f := I.value) (env := env) h1
          cases hv : (I.value p).1 with
          | error e =>
            rw [hv] at e1
            rw [T.bind_error e1] at ha
            cases ha
          | ok v =>
            rw [hv] at e1
            rw [T.bind_ok e1, T.onPath_run rfl] at ha
            have hnn := hc r p v h1 hv
            cases ha
            split at hi
            · cases hi
            · have hi : v.isNull = true := hi
              rw [hnn] at hi
              cases hi
    generalize hx : (Lex.probeSrc I env τ).1 = x at h1 hnone
    generalize (Lex.probeSrc I env σ).1 = y at h1
    cases h1 with
    | error h => exact .error h
    | ok h => exact .ok ⟨h.1, hnone _ rfl⟩
  unfold Lex.polyType
  refine .bind (R := Eq) (.tryCatch (.bind hsrc fun src _ hs => ?_) (fun x hx => ?_) fun x y he => ?_) fun r _ h => ?_
  · obtain ⟨⟨h1, h2⟩, h3⟩ := hs
    subst h1
    refine .bind (R := Eq) ?_ fun a b h => by rw [h]; exact .pure rfl
    unfold Lex.probe
    refine .bind (.newForm pc) fun id _ h => ?_
    subst h
    refine .bind (.formMap id h2 h3 _ _ _ (fun Z' hx' tags => hb Z' hx' id tags) _) fun es es' he => ?_
    cases es with
    | nil => cases es' with
      | nil => exact hget id
      | cons _ _ => simp [BareEq] at he
    | cons a as => cases es' with
      | nil => simp [BareEq] at he
      | cons b bs =>
        simp only [BareEq, List.map_cons, List.cons.injEq] at he
        exact .raise (by simp only [X, Twin.bare]; rw [he.1])
  · have : (x.isValueError && !x.isSourceError) = false := by simp_all
    simp_all
  · obtain ⟨h1, h2, -⟩ := he.str
    rw [h1, h2]
    exact .ite (fun _ => .bind (.report _) fun _ _ _ => .pure rfl) fun _ => .raise he
  · subst h
    split
    · exact .pure rfl
    · exact .pure rfl
    · refine .ite (fun _ => .raise (.refl _ _)) fun _ => ?_
      split
      · exact .pure rfl
      · exact .bind (.report _) fun _ _ _ => .pure rfl

end

/-- No polymorphic field. -/
def notPoly : Kind → Prop
  | .poly .. => False
  | _ => True

/-- The identity of a polymorphic field is a single value. -/
def single : Kind → Prop
  | .poly tf .. => (tf.kind.leaf = true ∧ tf.Wordless)
  | _ => True

/-- Mapping fields whose hooks are functions of the value respects every path relation.  An identity that is missing after a probe is looked for
in an empty source of its own.  So polymorphic fields (`Sx`) respect the relations that relate equal texts, and those
whose identity is a single value (`Ty`) respect all under which errors are not raised. -/
def closed (W : LawfulPath I) (Sx Ty : Prop) (L : Lib) (C : Classes) : Closed I L C where
  U t := ∀ Z : PathTwin I W, (Sx → Z.lax ∨ (Ty ∧ ¬ Z.exact)) → Run Z Eq t t
  ok k := (Sx ∧ (Ty → single k)) ∨ notPoly k
  okString := .inr trivial
  okBase := .inr trivial
  fok _ := True
  okDict _ _ _ _ := .inr trivial
  okFilter _ _ _ _ _ _ := trivial
  asks := True
  form _ _ _ := .ctxGet _ _
  pure _ _ _ := .pure rfl
  raise _ _ _ := .raise (.refl _ _)
  bind h hf Z hZ := .bind (h Z hZ) fun _ b e => e ▸ hf b Z hZ
  ctxGet _ _ _ _ _ := .ctxGet _ _
  ctxGet? _ _ _ _ := .ctxGet? _
  value Z _ := .read fun h => Z.value h
  exists_ Z _ := .read fun h => Z.exists_ h
  isNull Z _ := .read fun h => Z.isNull h
  mapping Z _ := .read fun h => Z.mapping h
  sequence Z _ := .read fun h => Z.sequence h
  primitive _ Z _ := .read fun h => Z.primitive h
  hasSrc _ _ := .hasSrc
  report _ _ _ := .report _
  seqTry _ _ := .seqTry
  compute h Z hZ := .compute (h Z hZ)
  withEnv _ _ _ _ h Z hZ := .withEnv _ (h Z hZ)
  withKey hk h Z hZ := .withKey hk (h Z hZ)
  rawKey {k n f} hk hf h Z hZ := by
    obtain ⟨x, hx⟩ := dead_map (Z := Z) (L := L) (C := C) hf n
    exact .raw hk (h Z hZ) hx
  rawStart hk hf h Z hZ := .raw hk (h Z hZ) fun _ _ _ _ hp hd => dead_start (Z := Z) hf hp hd
  nested _ h hk Z hZ := .bind (.withErrs (fun h => by cases h) (h Z hZ)) fun x y he =>
    .bind (.extend he.2) fun _ _ _ => he.2.isEmpty ▸ hk _ Z hZ
  root _ h hk Z hZ := .bind (.root (by rintro p h; cases h; exact W.native_wf)
    (h (.same W) fun _ => .inl trivial)) fun x y he => he.2.isEmpty ▸ hk _ Z hZ
  formItems _ _ _ _ := .formItems _
  formCls _ _ _ _ := .formCls _
  formModify _ _ _ _ _ := .formModify _ _
  formParent _ _ _ _ := .formParent _ _
  newForm _ _ _ h Z hZ := .bind (.newForm _) fun _ b e => e ▸ h b trivial Z hZ
  poly := by
    intro tf pc types reset u n hok hr hb hC htf k hk Z hZ
    obtain ⟨hS, hT⟩ : Sx ∧ (Ty → single (.poly tf pc types reset u)) := hok.resolve_right id
    refine .guarded (.bind (.polyType ?_ (fun v => hr tf v htf Z hZ) (fun Z' hZ' v => hr tf v htf Z' fun _ => .inl hZ')
      (fun Z' hZ' id tags => hb id tags _ trivial .str Z' fun _ => .inl hZ') pc types) fun _ b e => e ▸ hk b Z hZ)
    rcases hZ hS with h | ⟨h, h'⟩
    · exact .inl h
    · exact .inr ⟨h', hC.imp fun _ h => h.1, htf.imp fun _ h => h.1, hT h⟩

end Twin
end Pilo
