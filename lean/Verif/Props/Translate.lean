import Verif.Props.Options

/-!
# C65 and C66: ignored values and translations

`pilo/fields.py:453-459,503-527`.
-/

namespace Pilo
variable {P : Type} {α : Type} {I : PathOps P} {L : Lib} {W : LawfulPath I} {C : Classes} {rec : Rec P}
  {f : Field} {s : St P} {r : Nat} {q : P} {text : String} {b : ErrBuf} {w y : Val}

/-- The source holds something the field, one that just reads a primitive, reads as `w`: a null, as `None`, or a value
of the field's type. -/
inductive Finds (I : PathOps P) (f : Field) (q : P) : Val → Prop where
  | null (h : Null I q) : Finds I f q .none
  | value {ty : PTy} {w : Val} (hk : f.kind.prim? = some ty) (hp : Present I q)
      (hv : (I.primitive ty (asked I q)).1 = .ok w) (hw : w.isIgnore = false) : Finds I f q w

/-- The field just reads a primitive. -/
def Kind.Primitive (k : Kind) : Prop := ∃ ty, k.prim? = some ty

theorem Kind.Primitive.leaf {k : Kind} (h : k.Primitive) : k.leaf = true := by
  obtain ⟨ty, h⟩ := h
  cases k <;> first | rfl | cases h

/-- What a field finds goes to the checks. -/
theorem holds_start (hf : HookFree f) (hw : W.WF q) (h : Finds I f q w) : ∃ q2, Same I W.WF W.shape q q2 ∧
    ∀ C' trec env τ, τ.path = some (some (r, q)) → Lex.fieldStart I L C' trec f env τ =
      Lex.fieldCheck I L C' trec f w env { τ with path := some (some (r, q2)) } := by
  cases h with
  | null h => exact ⟨_, asked_same hw, fun _ _ _ _ hp => fieldStart_value hf (fieldCompute_null hp h) rfl⟩
  | @value ty _ hk hpr hv hi =>
    refine ⟨_, Same.trans W (asked_same hw) (W.primitive_keys (ty := ty) (asked_same hw).wf), fun C' trec env τ hp => ?_⟩
    refine fieldStart_value hf ?_ hi
    rw [fieldCompute_present hf hp hpr]
    unfold T.tryCatch
    have hparse : Lex.kindParse I L C' trec f env { τ with path := some (some (r, asked I q)) } = (.ok w,
        { τ with path := some (some (r, (I.primitive ty (asked I q)).2)) }) := by
      have := primitive_parse (env := env) (τ := { τ with path := some (some (r, asked I q)) }) hv rfl
      rw [← this]
      unfold Lex.kindParse
      cases h : f.kind <;> rw [h] at hk <;> simp [Kind.prim?] at hk <;> rw [hk]
    rw [hparse]

section check
variable {trec : TRec P} {env : Env} {τ : TSt P}

theorem check_kept (hf : HookFree f) (hm : fieldMunge f w = .ok y) (hy : y.isIgnore = false)
    (hi : y.inList f.core.ignores = false) : Lex.fieldCheck I L C trec f w = (do
      let ok ← Lex.kindValidate I L f y
      T.pure (if ok then y else .ERROR)) := by
  have hn : y.isNONE = false := by cases y <;> first | rfl | (cases hy)
  funext env τ
  unfold Lex.fieldCheck
  rw [hf.mungeStep, hm]
  refine (T.bind_ok (show T.ofExcept (Except.ok y) env τ = (.ok y, τ) from rfl)).trans ?_
  simp only [hn, hy, Bool.false_eq_true, if_false]
  rw [hf.filterStep, hf.validateStep]
  have : fieldFilter f y = true := by unfold fieldFilter; rw [hi]; rfl
  rw [this]
  refine (T.bind_ok (show T.pure true env τ = (.ok true, τ) from rfl)).trans ?_
  simp only [Bool.not_true, Bool.false_eq_true, if_false]

theorem check_dropped (hf : HookFree f) (hm : fieldMunge f w = .ok y)
    (hy : y = .NONE ∨ y.isIgnore = false ∧ y.inList f.core.ignores = true) :
    Lex.fieldCheck I L C trec f w = Lex.fieldDefault I L C trec f := by
  funext env τ
  unfold Lex.fieldCheck
  rw [hf.mungeStep, hm]
  refine (T.bind_ok (show T.ofExcept (Except.ok y) env τ = (.ok y, τ) from rfl)).trans ?_
  rcases hy with rfl | ⟨hy, hi⟩
  · rfl
  · have hn : y.isNONE = false := by cases y <;> first | rfl | (cases hy)
    simp only [hn, hy, Bool.false_eq_true, if_false]
    rw [hf.filterStep]
    have : fieldFilter f y = false := by unfold fieldFilter; rw [hi]; rfl
    rw [this]
    rfl

theorem default_value {v : Val} (hd : f.core.default = .value v) (hv : PlainDefault v)
    (hctx : env.ignoreDefault = some false) : Lex.fieldDefault I L C trec f env τ = (.ok v, τ) := by
  have h1 : T.ctxGet Env.ignoreDefault "ignore_default" env τ = (.ok false, τ) := by
    unfold T.ctxGet; rw [hctx]
  unfold Lex.fieldDefault
  refine (T.bind_ok h1).trans ?_
  rw [hd]
  obtain ⟨hv1, hv2⟩ := hv
  cases v with
  | const c => cases c <;> first | exact absurd rfl hv1 | rfl
  | func id => exact absurd rfl (hv2 id)
  | _ => rfl

end check

/-- What becomes of a field that is treated as if its source had no value. -/
structure AsAbsent (m : M P Val) (f : Field) (s : St P) (text : String) (r : Nat) : Prop where
  default : ∀ v, f.core.default = .value v → PlainDefault v → s.env.ignoreDefault = some false → Accepts m s v
  missing : NoDefault f s.env → s.env.ignoreMissing = some false →
    Adds m s .NOT_SET { kind := .missing, path := text, field := f.name, pathRef := some r }
  ignoreMissing : NoDefault f s.env → s.env.ignoreMissing = some true → Accepts m s .NOT_SET

theorem holds_dropped (sp : Spot I W f s r q text b) (hf : HookFree f) (hk : f.kind.Primitive)
    (ha : f.core.attachParent = false) (h : Finds I f q w) (hm : fieldMunge f w = .ok y)
    (hy : y = .NONE ∨ y.isIgnore = false ∧ y.inList f.core.ignores = true) :
    AsAbsent (mapFieldF I L C rec f .NONE) f s text r := by
  obtain ⟨q2, hs, hrun⟩ := holds_start (L := L) (r := r) hf sp.wf h
  have hst : ∀ τ : TSt P, τ.errs = some b → ({ τ with path := some (some (r, q2)), errs := some b } : TSt P)
      = { τ with path := some (some (r, q2)) } := by
    intro τ hb; rw [← hb]
  refine ⟨fun v hd hv hctx => ?_, fun hd hctx => ?_, fun hd hctx => ?_⟩
  · refine sp.accepts hf hk.leaf ha fun τ hp hb => ⟨q2, ?_, hs⟩
    rw [hrun _ _ _ _ hp, check_dropped hf hm hy, List.append_nil, hst τ hb]
    exact default_value hd hv ((innerEnv_ignoreDefault _ _).trans hctx)
  · refine sp.adds hf hk.leaf ha fun τ hp hb => ⟨q2, ?_, hs⟩
    rw [hrun _ _ _ _ hp, check_dropped hf hm hy, fieldDefault_missing
      (by unfold NoDefault at hd ⊢; rw [innerEnv_ignoreDefault]; exact hd)
      (by rw [innerEnv_ignoreDefault]; exact sp.live.ignoreDefault)]
    have h1 : ∀ τ : TSt P, T.ctxGet Env.ignoreMissing "ignore_missing" (f.innerEnv s.env) τ = (.ok false, τ) := by
      intro τ
      unfold T.ctxGet; rw [innerEnv_ignoreMissing, hctx]
    unfold Lex.missingNotSet
    refine (T.bind_ok (h1 _)).trans ?_
    simp only [Bool.false_eq_true, if_false]
    exact (T.bind_ok (report_run (τ := { τ with path := some (some (r, q2)) }) .missing rfl (by
      rw [hs.render sp.wf, sp.text]) hb sp.collect (innerEnv_field _ _))).trans rfl
  · refine sp.accepts hf hk.leaf ha fun τ hp hb => ⟨q2, ?_, hs⟩
    rw [hrun _ _ _ _ hp, check_dropped hf hm hy, List.append_nil, hst τ hb, fieldDefault_missing
      (by unfold NoDefault at hd ⊢; rw [innerEnv_ignoreDefault]; exact hd)
      (by rw [innerEnv_ignoreDefault]; exact sp.live.ignoreDefault)]
    have h1 : ∀ τ : TSt P, T.ctxGet Env.ignoreMissing "ignore_missing" (f.innerEnv s.env) τ = (.ok true, τ) := by
      intro τ
      unfold T.ctxGet; rw [innerEnv_ignoreMissing, hctx]
    unfold Lex.missingNotSet
    exact (T.bind_ok (h1 _)).trans rfl

theorem holds_accepted (sp : Spot I W f s r q text b) (hf : HookFree f) (hk : f.kind.Primitive)
    (ha : f.core.attachParent = false) (h : Finds I f q w) (hm : fieldMunge f w = .ok y) (hy : y.isIgnore = false)
    (hi : y.inList f.core.ignores = false) (hv : Lex.kindValidate I L f y = T.pure true) :
    Accepts (mapFieldF I L C rec f .NONE) s y := by
  obtain ⟨q2, hs, hrun⟩ := holds_start (L := L) (r := r) hf sp.wf h
  refine sp.accepts hf hk.leaf ha fun τ hp hb => ⟨q2, ?_, hs⟩
  rw [hrun _ _ _ _ hp, check_kept hf hm hy hi, hv, List.append_nil, ← hb]
  rfl

theorem holds_rejected {msg : String} (sp : Spot I W f s r q text b) (hf : HookFree f) (hk : f.kind.Primitive)
    (ha : f.core.attachParent = false) (h : Finds I f q w) (hm : fieldMunge f w = .ok y) (hy : y.isIgnore = false)
    (hi : y.inList f.core.ignores = false) (hv : Lex.kindValidate I L f y = Lex.rejectWith I msg) :
    Adds (mapFieldF I L C rec f .NONE) s .ERROR
      { kind := .invalid msg, path := text, field := f.name, pathRef := some r } := by
  obtain ⟨q2, hs, hrun⟩ := holds_start (L := L) (r := r) hf sp.wf h
  refine sp.adds hf hk.leaf ha fun τ hp hb => ⟨q2, ?_, hs⟩
  rw [hrun _ _ _ _ hp, check_kept hf hm hy hi, hv]
  exact (T.bind_ok (rejectWith_run (τ := { τ with path := some (some (r, q2)) }) (q := q2) msg rfl
    (by rw [hs.render sp.wf, sp.text]) hb sp.collect (innerEnv_field _ _))).trans rfl

/-! ## What validation of such a field asks for -/

/-- The value satisfies the constraints of the field class. -/
def Kind.Passes (k : Kind) (v : Val) : Prop :=
  match k with
  | .string c => ∃ x, v = .str x ∧ StringOK c x
  | .integer c => ∃ x, v.num? = some x ∧ InRange c x
  | .float c => ∃ x, v.num? = some x ∧ InRange c x
  | _ => True

/-- The value has the type of the field class. -/
def Kind.Typed (k : Kind) (v : Val) : Prop :=
  match k with
  | .string _ => ∃ x, v = .str x
  | .integer c => BoundsOK c ∧ ∃ x, v.num? = some x ∧ x ≠ .nan
  | .float c => BoundsOK c ∧ ∃ x, v.num? = some x ∧ x ≠ .nan
  | _ => v ≠ .none

/-- The class with the values of a translation among the choices. -/
def Kind.widen (k : Kind) (ts : List (Val × Val)) : Kind :=
  match k with
  | .string c => .string (c.widen ts)
  | k => k

theorem validate_typed (hk : f.kind.Primitive) (hy : f.kind.Typed y) :
    ((f.kind.widen f.core.translations).Passes y → Lex.kindValidate I L f y = T.pure true) ∧
    (¬ (f.kind.widen f.core.translations).Passes y → ∃ msg, Lex.kindValidate I L f y = Lex.rejectWith I msg) := by
  obtain ⟨ty, hty⟩ := hk
  have num : ∀ c x, BoundsOK c → y.num? = some x → x ≠ .nan →
      ((∃ x, y.num? = some x ∧ InRange c x) → Lex.numberValidate I L c y = T.pure true) ∧
      (¬ (∃ x, y.num? = some x ∧ InRange c x) → ∃ msg, Lex.numberValidate I L c y = Lex.rejectWith I msg) := by
    intro c x hb hx hn
    obtain ⟨hok, hbad⟩ := rangeValidate_spec (I := I) (L := L)
      (loMsg := fun v b => "\"" ++ L.fmt v ++ "\" must be >= " ++ L.fmt b)
      (hiMsg := fun v b => "\"" ++ L.fmt v ++ "\" must be <= " ++ L.fmt b) hb hx hn
    refine ⟨fun ⟨x', hx', hr⟩ => ?_, fun h => hbad fun hr => h ⟨x, hx, hr⟩⟩
    rw [hx] at hx'
    cases hx'
    exact hok hr
  have hnn : y.isNull = false := by
    cases hkind : f.kind <;> rw [hkind] at hy hty <;> first | (cases hty; done) | skip
    all_goals first
      | (obtain ⟨x, rfl⟩ := hy; rfl)
      | (obtain ⟨_, x, hx, _⟩ := hy; cases y <;> first | rfl | cases hx)
      | (cases y <;> first | rfl | exact absurd rfl hy)
  rw [kindValidate_nonnull hnn]
  cases hkind : f.kind <;> rw [hkind] at hy hty <;> first | (cases hty; done) | skip
  case string c =>
    obtain ⟨x, rfl⟩ := hy
    obtain ⟨hok, hbad⟩ := stringValidate_translated (I := I) (L := L) (f := f) c x
    refine ⟨fun ⟨x', hx', h⟩ => ?_, fun h => hbad fun h' => h ⟨x, rfl, h'⟩⟩
    cases hx'
    exact hok h
  case integer c =>
    obtain ⟨hb, x, hx, hn⟩ := hy
    exact num c x hb hx hn
  case float c =>
    obtain ⟨hb, x, hx, hn⟩ := hy
    exact num c x hb hx hn
  all_goals exact ⟨fun _ => rfl, fun h => absurd trivial h⟩

theorem validate_null :
    (f.core.nullable.truthy = true → Lex.kindValidate I L f .none = T.pure true) ∧
    (f.core.nullable.truthy = false → Lex.kindValidate I L f .none = Lex.rejectWith I "not nullable") := by
  unfold Lex.kindValidate Lex.baseValidate
  refine ⟨fun h => ?_, fun h => ?_⟩
  · simp only [h, Bool.not_true, Bool.and_false, Bool.false_eq_true, if_false, T.pure_bind, Val.isNull, if_true]
  · simp only [h, Bool.not_false, Bool.and_true, Val.isNull, if_true]
    exact rejectWith_bind _ _ rfl

/-! ## C65 -/

variable {g : FieldCore → FieldCore} {vs : List Val} {kvs : List (Val × Val)}

theorem Spot.ignore (sp : Spot I W f s r q text b) (vs : List Val) : Spot I W (f.ignore vs) s r q text b :=
  ⟨sp.inv, sp.live, sp.place, sp.text, sp.errs, sp.collect⟩

theorem HookFree.ignore (h : HookFree f) (vs : List Val) : HookFree (f.ignore vs) :=
  ⟨h.default, h.resolve, h.compute, h.parse, h.munge, h.filter, h.validate, h.keyFilter⟩

theorem Finds.ignore (h : Finds I f q w) (vs : List Val) : Finds I (f.ignore vs) q w := by
  cases h with
  | null h => exact .null h
  | value hk hp hv hw => exact .value hk hp hv hw

/-- C65. `field.ignore(*vs)` on a field without hooks that reads a primitive, whose source holds something that equals
one of `vs`: the source is treated as if it had no value.  Nothing is validated, the default is used where there is one,
and otherwise the field is missing. -/
theorem C65_ignored (sp : Spot I W f s r q text b) (hf : HookFree f) (hk : f.kind.Primitive)
    (ha : f.core.attachParent = false) (ht : f.core.translations = []) (h : Finds I f q w)
    (hw : ∃ v ∈ vs, w.pyEq v = true) : AsAbsent (mapFieldF I L C rec (f.ignore vs) .NONE) f s text r := by
  have hig : w.isIgnore = false := by cases h <;> first | rfl | assumption
  have hm : fieldMunge (f.ignore vs) w = .ok w := by
    have : (f.ignore vs).core.translations = [] := ht
    unfold fieldMunge; rw [this]; rfl
  have hin : w.inList (f.ignore vs).core.ignores = true := by
    show (f.core.ignores ++ vs).any _ = true
    rw [List.any_append, Bool.or_eq_true]
    exact .inr (List.any_eq_true.2 hw)
  obtain ⟨h1, h2, h3⟩ := holds_dropped (L := L) (C := C) (rec := rec) (sp.ignore vs) (hf.ignore vs) hk ha (h.ignore vs) hm (.inr ⟨hig, hin⟩)
  exact ⟨h1, h2, h3⟩

/-- C65. A value that equals none of them is validated and returned as if nothing was ignored; a null is still refused
or let through as `nullable` says. -/
theorem C65_kept (sp : Spot I W f s r q text b) (hf : HookFree f) (hk : f.kind.Primitive)
    (ha : f.core.attachParent = false) (ht : f.core.translations = []) (h : Finds I f q w)
    (hw : ∀ v ∈ f.core.ignores ++ vs, w.pyEq v = false) :
    (f.kind.Typed w → f.kind.Passes w → Accepts (mapFieldF I L C rec (f.ignore vs) .NONE) s w) ∧
    (f.kind.Typed w → ¬ f.kind.Passes w → Rejects (mapFieldF I L C rec (f.ignore vs) .NONE) s f text r) ∧
    (w = .none → f.core.nullable.truthy = true → Accepts (mapFieldF I L C rec (f.ignore vs) .NONE) s .none) ∧
    (w = .none → f.core.nullable.truthy = false → Rejects (mapFieldF I L C rec (f.ignore vs) .NONE) s f text r) := by
  have hig : w.isIgnore = false := by cases h <;> first | rfl | assumption
  have htr : (f.ignore vs).core.translations = [] := ht
  have hm : fieldMunge (f.ignore vs) w = .ok w := by
    unfold fieldMunge; rw [htr]; rfl
  have hin : w.inList (f.ignore vs).core.ignores = false := by
    show (f.core.ignores ++ vs).any _ = false
    rw [List.any_eq_false]
    intro v hv
    rw [hw v hv]
    exact Bool.false_ne_true
  have hwide : (f.ignore vs).kind.widen (f.ignore vs).core.translations = f.kind := by
    rw [htr]
    show f.kind.widen [] = f.kind
    unfold Kind.widen
    cases f.kind <;> first | rfl | (simp only [StrCfg.widen_nil])
  refine ⟨fun hy hp => ?_, fun hy hp => ?_, fun hy hn => ?_, fun hy hn => ?_⟩
  · exact holds_accepted (sp.ignore vs) (hf.ignore vs) hk ha (h.ignore vs) hm hig hin
      ((validate_typed (f := f.ignore vs) hk hy).1 (by rw [hwide]; exact hp))
  · obtain ⟨msg, hv⟩ := (validate_typed (I := I) (L := L) (f := f.ignore vs) hk hy).2 (by rw [hwide]; exact hp)
    exact ⟨msg, holds_rejected (sp.ignore vs) (hf.ignore vs) hk ha (h.ignore vs) hm hig hin hv⟩
  · subst hy
    exact holds_accepted (sp.ignore vs) (hf.ignore vs) hk ha (h.ignore vs) hm hig hin
      ((validate_null (f := f.ignore vs)).1 hn)
  · subst hy
    exact ⟨_, holds_rejected (sp.ignore vs) (hf.ignore vs) hk ha (h.ignore vs) hm hig hin
      ((validate_null (f := f.ignore vs)).2 hn)⟩

/-! ## Lookup in an updated dictionary -/

/-- Neither a container nor a form. -/
def Val.scalar : Val → Bool
  | .list _ | .tuple _ | .dict _ | .form _ => false
  | _ => true

theorem Num.eq_iff {a b : Num} : a.eq b = true ↔ a = b ∧ a ≠ .nan := by
  cases a <;> cases b <;> simp [Num.eq]

theorem pyEq_num {v k : Val} {m : Num} (h : v.num? = some m) : v.pyEq k = match k.num? with
    | some n => m.eq n
    | none => false := by
  cases v <;> simp [Val.num?] at h <;> subst h <;> rw [Val.pyEq] <;> rfl

theorem pyEq_nonnum {v k : Val} {m : Num} (h : v.num? = none) (hk : k.num? = some m) : v.pyEq k = false := by
  cases v <;> first | (cases h; done) | (cases k <;> first | (cases hk; done) | simp [Val.pyEq])

/-- Keys that are equal are equal to the same values. -/
theorem pyEq_congr {k k' : Val} (h : k.pyEq k' = true) (hw : w.scalar = true) : w.pyEq k' = w.pyEq k := by
  cases hk : k.num? with
  | some m =>
    rw [pyEq_num hk] at h
    cases hk' : k'.num? with
    | none => rw [hk'] at h; cases h
    | some n =>
      rw [hk'] at h
      obtain ⟨rfl, _⟩ := Num.eq_iff.1 h
      cases hp : w.num? with
      | none => rw [pyEq_nonnum hp hk, pyEq_nonnum hp hk']
      | some p => rw [pyEq_num hp, pyEq_num hp, hk, hk']
  | none =>
    cases k <;> first | (cases hk; done) | skip
    all_goals cases k' <;> first | (simp [Val.pyEq] at h; done) | skip
    all_goals first
      | rfl
      | (simp only [Val.pyEq, beq_iff_eq, Bool.and_eq_true] at h; first | (obtain ⟨rfl, rfl⟩ := h; rfl) | (subst h; rfl))
      | (cases w <;> first | (cases hw; done) | (simp [Val.pyEq, Val.num?]))

theorem pyEq_swap {k : Val} (hw : w.scalar = true) (h : w.pyEq k = true) : k.scalar = true ∧ k.pyEq w = true := by
  cases hp : w.num? with
  | some m =>
    rw [pyEq_num hp] at h
    cases hk : k.num? with
    | none => rw [hk] at h; cases h
    | some n =>
      rw [hk] at h
      obtain ⟨rfl, hn⟩ := Num.eq_iff.1 h
      refine ⟨?_, ?_⟩
      · cases k <;> first | rfl | cases hk
      · rw [pyEq_num hk, hp]
        exact Num.eq_iff.2 ⟨rfl, hn⟩
  | none =>
    cases w <;> first | (cases hp; done) | (cases hw; done) | skip
    all_goals cases k <;> first | (simp [Val.pyEq] at h; done) | skip
    all_goals first
      | exact ⟨rfl, rfl⟩
      | (simp only [Val.pyEq, beq_iff_eq, Bool.and_eq_true] at h; first | (obtain ⟨rfl, rfl⟩ := h; exact ⟨rfl, by simp [Val.pyEq]⟩) | (subst h; exact ⟨rfl, by simp [Val.pyEq]⟩))

theorem dictGet?_dictSet_scalar (k v : Val) (hw : w.scalar = true) : ∀ d : List (Val × Val),
    dictGet? (dictSet d k v) w = if w.pyEq k then some v else dictGet? d w := by
  intro d
  induction d with
  | nil =>
    unfold dictSet dictGet?
    cases h : w.pyEq k <;> simp [h]
  | cons p d ih =>
    obtain ⟨k', v'⟩ := p
    unfold dictSet
    cases hk : k.pyEq k' with
    | true =>
      have := pyEq_congr (w := w) hk hw
      simp only [if_true]
      unfold dictGet?
      cases h : w.pyEq k <;> rw [h] at this <;> simp [this]
    | false =>
      simp only [Bool.false_eq_true, if_false]
      unfold dictGet? at ih ⊢
      cases h' : w.pyEq k' with
      | false => simpa [h'] using ih
      | true =>
        cases h : w.pyEq k with
        | false => simp [h']
        | true =>
          obtain ⟨hs, hsym⟩ := pyEq_swap hw h
          rw [pyEq_congr h' hs, hsym] at hk
          cases hk

/-- What a list of bindings, later ones first, makes of a value. -/
inductive Renames (kvs : List (Val × Val)) (w : Val) : Val → Prop where
  | last {pre post : List (Val × Val)} {k y : Val} (split : kvs = pre ++ (k, y) :: post) (eq : w.pyEq k = true)
      (rest : ∀ p ∈ post, w.pyEq p.1 = false) : Renames kvs w y

/-- No binding is for this value. -/
def Unnamed (kvs : List (Val × Val)) (w : Val) : Prop := ∀ p ∈ kvs, w.pyEq p.1 = false

theorem dictGet?_unnamed (hw : w.scalar = true) : ∀ (kvs d : List (Val × Val)), Unnamed kvs w →
    dictGet? (dictUpdate d kvs) w = dictGet? d w := by
  intro kvs
  induction kvs with
  | nil => intro d _; rfl
  | cons p kvs ih =>
    intro d h
    show dictGet? (dictUpdate (dictSet d p.1 p.2) kvs) w = _
    rw [ih _ fun p hp => h p (.tail _ hp), dictGet?_dictSet_scalar _ _ hw, h p (.head _)]
    rfl

theorem dictGet?_renames (hw : w.scalar = true) (d : List (Val × Val)) (h : Renames kvs w y) :
    dictGet? (dictUpdate d kvs) w = some y := by
  obtain @⟨pre, post, k, _, rfl, heq, hrest⟩ := h
  have : dictUpdate d (pre ++ (k, y) :: post) = dictUpdate (dictSet (dictUpdate d pre) k y) post := by
    unfold dictUpdate
    rw [List.foldl_append, List.foldl_cons]
  rw [this, dictGet?_unnamed hw post _ hrest, dictGet?_dictSet_scalar _ _ hw, heq]
  rfl

/-- Every value of an updated dictionary was there or is a value of the update. -/
theorem dictUpdate_values : ∀ (kvs d : List (Val × Val)) (v : Val), v ∈ (dictUpdate d kvs).map Prod.snd →
    v ∈ d.map Prod.snd ∨ v ∈ kvs.map Prod.snd := by
  intro kvs
  induction kvs with
  | nil => intro d v h; exact .inl h
  | cons p kvs ih =>
    intro d v h
    rcases ih _ v h with h | h
    · have : ∀ d : List (Val × Val), v ∈ (dictSet d p.1 p.2).map Prod.snd → v ∈ d.map Prod.snd ∨ v = p.2 := by
        intro d
        induction d with
        | nil => intro h; simp [dictSet] at h; exact .inr h
        | cons e d ih =>
          intro h
          unfold dictSet at h
          split at h
          · rcases List.mem_cons.1 h with h | h
            · exact .inr h
            · exact .inl (.tail _ h)
          · rcases List.mem_cons.1 h with h | h
            · exact .inl (h ▸ .head _)
            · rcases ih h with h | h
              · exact .inl (.tail _ h)
              · exact .inr h
      rcases this d h with h | h
      · exact .inl h
      · exact .inr (h ▸ .head _)
    · exact .inr (.tail _ h)

theorem dictSet_ne_nil (d : List (Val × Val)) (k v : Val) : dictSet d k v ≠ [] := by
  cases d with
  | nil => intro h; cases h
  | cons e d => unfold dictSet; split <;> (intro h; cases h)

theorem dictUpdate_isEmpty : ∀ (kvs d : List (Val × Val)), (dictUpdate d kvs).isEmpty = (d.isEmpty && kvs.isEmpty) := by
  intro kvs
  induction kvs with
  | nil => intro d; simp [dictUpdate]
  | cons p kvs ih =>
    intro d
    show (dictUpdate (dictSet d p.1 p.2) kvs).isEmpty = _
    rw [ih]
    cases h : dictSet d p.1 p.2 with
    | nil => exact absurd h (dictSet_ne_nil _ _ _)
    | cons => simp

/-! ## C66 -/

theorem Spot.translate (sp : Spot I W f s r q text b) (kvs : List (Val × Val)) : Spot I W (f.translate kvs) s r q text b :=
  ⟨sp.inv, sp.live, sp.place, sp.text, sp.errs, sp.collect⟩

theorem HookFree.translate (h : HookFree f) (kvs : List (Val × Val)) : HookFree (f.translate kvs) :=
  ⟨h.default, h.resolve, h.compute, h.parse, h.munge, h.filter, h.validate, h.keyFilter⟩

theorem Finds.translate (h : Finds I f q w) (kvs : List (Val × Val)) : Finds I (f.translate kvs) q w := by
  cases h with
  | null h => exact .null h
  | value hk hp hv hw => exact .value hk hp hv hw

theorem scalar_hashable (hw : w.scalar = true) : w.hashable = true := by
  cases w <;> first | rfl | cases hw

theorem munge_renames (hw : w.scalar = true) (h : Renames kvs w y) :
    fieldMunge (f.translate kvs) w = .ok y := by
  unfold fieldMunge
  have hne : (f.translate kvs).core.translations.isEmpty = false := by
    show (dictUpdate _ kvs).isEmpty = false
    rw [dictUpdate_isEmpty]
    obtain ⟨rfl, _, _⟩ := h
    simp
  have hg : dictGet? (f.translate kvs).core.translations w = some y := dictGet?_renames hw _ h
  rw [hne, hg, scalar_hashable hw]
  rfl

theorem munge_unnamed (hw : w.scalar = true) (ht : f.core.translations = [])
    (h : Unnamed kvs w) : fieldMunge (f.translate kvs) w = .ok w := by
  unfold fieldMunge
  have hg : dictGet? (f.translate kvs).core.translations w = none := by
    show dictGet? (dictUpdate f.core.translations kvs) w = none
    rw [dictGet?_unnamed hw _ _ h, ht]
    rfl
  rw [hg, scalar_hashable hw]
  split <;> rfl

/-- The class without its choices. -/
def Kind.anyChoice (k : Kind) : Kind :=
  match k with
  | .string c => .string { c with choices := [] }
  | k => k

theorem widen_passes {k : Kind} {ts : List (Val × Val)} (h : y ∈ ts.map Prod.snd) :
    (k.widen ts).Passes y ↔ k.anyChoice.Passes y := by
  unfold Kind.widen Kind.anyChoice
  cases k <;> try exact Iff.rfl
  rename_i c
  dsimp only [Kind.Passes]
  constructor
  · rintro ⟨x, rfl, h'⟩
    exact ⟨x, rfl, h'.alphabet, h'.min, h'.max, h'.pattern, fun h => absurd rfl h⟩
  · rintro ⟨x, rfl, h'⟩
    refine ⟨x, rfl, h'.alphabet, h'.min, h'.max, h'.pattern, fun hc => ?_⟩
    unfold StrCfg.widen at hc ⊢
    dsimp only at hc ⊢
    split
    · rename_i h0; rw [if_pos h0] at hc; exact absurd rfl hc
    · exact List.mem_append_right _ h

theorem widen_passes_not {k : Kind} {ts : List (Val × Val)} (h : y ∉ ts.map Prod.snd) :
    (k.widen ts).Passes y ↔ k.Passes y := by
  unfold Kind.widen
  cases k <;> try exact Iff.rfl
  rename_i c
  dsimp only [Kind.Passes]
  constructor
  · rintro ⟨x, rfl, h'⟩
    refine ⟨x, rfl, h'.alphabet, h'.min, h'.max, h'.pattern, fun hc => ?_⟩
    have h5 := h'.choices
    unfold StrCfg.widen at h5
    dsimp only at h5
    rw [if_neg hc] at h5
    rcases List.mem_append.1 (h5 (by intro h; exact hc (List.append_eq_nil_iff.1 h).1)) with h6 | h6
    · exact h6
    · exact absurd h6 h
  · rintro ⟨x, rfl, h'⟩
    refine ⟨x, rfl, h'.alphabet, h'.min, h'.max, h'.pattern, fun hc => ?_⟩
    unfold StrCfg.widen at hc ⊢
    dsimp only at hc ⊢
    split
    · rename_i h0; rw [if_pos h0] at hc; exact absurd rfl hc
    · rename_i h0; exact List.mem_append_left _ (h'.choices h0)

theorem renames_value (hw : w.scalar = true) (h : Renames kvs w y) :
    y ∈ (f.translate kvs).core.translations.map Prod.snd := by
  have hg : dictGet? (f.translate kvs).core.translations w = some y := dictGet?_renames hw _ h
  obtain ⟨p, hp, he⟩ := dictGet_mem hg
  exact List.mem_map.2 ⟨p, hp, he⟩

/-- C66. `field.translate(kvs)` on a field without hooks that reads a primitive, whose source holds the scalar `w` that
`kvs` translates to `y`, a value of the field's type that is not ignored: `y` is what is validated, except that it need
not be among the choices of the field, and what is returned. -/
theorem C66_translated (sp : Spot I W f s r q text b) (hf : HookFree f) (hk : f.kind.Primitive)
    (ha : f.core.attachParent = false) (h : Finds I f q w) (hw : w.scalar = true) (hr : Renames kvs w y)
    (hy : f.kind.Typed y) (hyc : y.isIgnore = false) (hi : ∀ v ∈ f.core.ignores, y.pyEq v = false) :
    (f.kind.anyChoice.Passes y → Accepts (mapFieldF I L C rec (f.translate kvs) .NONE) s y) ∧
    (¬ f.kind.anyChoice.Passes y → Rejects (mapFieldF I L C rec (f.translate kvs) .NONE) s f text r) := by
  have hm := munge_renames (f := f) hw hr
  have hin : y.inList (f.translate kvs).core.ignores = false := by
    show f.core.ignores.any _ = false
    rw [List.any_eq_false]
    intro v hv
    rw [hi v hv]
    exact Bool.false_ne_true
  have hp := widen_passes (k := f.kind) (renames_value (f := f) hw hr)
  refine ⟨fun h' => ?_, fun h' => ?_⟩
  · exact holds_accepted (sp.translate kvs) (hf.translate kvs) hk ha (h.translate kvs) hm hyc hin
      ((validate_typed (f := f.translate kvs) hk hy).1 (hp.2 h'))
  · obtain ⟨msg, hv⟩ := (validate_typed (I := I) (L := L) (f := f.translate kvs) hk hy).2 fun h'' => h' (hp.1 h'')
    exact ⟨msg, holds_rejected (sp.translate kvs) (hf.translate kvs) hk ha (h.translate kvs) hm hyc hin hv⟩

/-- C66. A `String` field with no constraint but choices: a translation may also give something that is not a string. -/
theorem C66_other_type {c : StrCfg} (sp : Spot I W f s r q text b) (hf : HookFree f) (hk : f.kind = .string c)
    (ha : f.core.attachParent = false) (h : Finds I f q w) (hw : w.scalar = true) (hr : Renames kvs w y)
    (hyn : y ≠ .none) (hyc : y.isIgnore = false) (hye : y.pyEq y = true) (hi : ∀ v ∈ f.core.ignores, y.pyEq v = false)
    (h1 : c.alphabet = []) (h2 : c.minLength = none) (h3 : c.maxLength = none) (h4 : c.pattern = none) :
    Accepts (mapFieldF I L C rec (f.translate kvs) .NONE) s y := by
  have hm := munge_renames (f := f) hw hr
  have hin : y.inList (f.translate kvs).core.ignores = false := by
    show f.core.ignores.any _ = false
    rw [List.any_eq_false]
    intro v hv
    rw [hi v hv]
    exact Bool.false_ne_true
  have hmem : y.inList (c.choices ++ (f.translate kvs).core.translations.map Prod.snd) = true := by
    unfold Val.inList
    rw [List.any_append, Bool.or_eq_true]
    exact .inr (List.any_eq_true.2 ⟨y, renames_value hw hr, hye⟩)
  have hnull : y.isNull = false := by cases y <;> first | rfl | exact absurd rfl hyn
  have hk' : (f.translate kvs).kind = .string c := hk
  refine holds_accepted (sp.translate kvs) (hf.translate kvs) (by rw [hk']; exact ⟨_, rfl⟩) ha (h.translate kvs) hm hyc hin ?_
  rw [kindValidate_nonnull hnull, hk']
  dsimp only
  unfold Lex.stringValidate badChars lenBad patternOk
  rw [h1, h2, h3, h4, hmem]
  simp [T.ofExcept_ok_bind]

/-- C66. A value translated to `None` is a null: let through or refused as `nullable` says. -/
theorem C66_to_none (sp : Spot I W f s r q text b) (hf : HookFree f) (hk : f.kind.Primitive)
    (ha : f.core.attachParent = false) (h : Finds I f q w) (hw : w.scalar = true) (hr : Renames kvs w .none)
    (hi : ∀ v ∈ f.core.ignores, Val.none.pyEq v = false) :
    (f.core.nullable.truthy = true → Accepts (mapFieldF I L C rec (f.translate kvs) .NONE) s .none) ∧
    (f.core.nullable.truthy = false → Adds (mapFieldF I L C rec (f.translate kvs) .NONE) s .ERROR
      { kind := .invalid "not nullable", path := text, field := f.name, pathRef := some r }) := by
  have hm := munge_renames (f := f) hw hr
  have hin : Val.none.inList (f.translate kvs).core.ignores = false := by
    show f.core.ignores.any _ = false
    rw [List.any_eq_false]
    intro v hv
    rw [hi v hv]
    exact Bool.false_ne_true
  exact ⟨fun hn => holds_accepted (sp.translate kvs) (hf.translate kvs) hk ha (h.translate kvs) hm rfl hin
      ((validate_null (f := f.translate kvs)).1 hn),
    fun hn => holds_rejected (sp.translate kvs) (hf.translate kvs) hk ha (h.translate kvs) hm rfl hin
      ((validate_null (f := f.translate kvs)).2 hn)⟩

/-- C66. A value translated to `NONE`, or to one the field ignores, is treated as if the source had no value. -/
theorem C66_dropped (sp : Spot I W f s r q text b) (hf : HookFree f) (hk : f.kind.Primitive)
    (ha : f.core.attachParent = false) (h : Finds I f q w) (hw : w.scalar = true) (hr : Renames kvs w y)
    (hy : y = .NONE ∨ y.isIgnore = false ∧ ∃ v ∈ f.core.ignores, y.pyEq v = true) :
    AsAbsent (mapFieldF I L C rec (f.translate kvs) .NONE) f s text r := by
  have hm := munge_renames (f := f) hw hr
  obtain ⟨h1, h2, h3⟩ := holds_dropped (L := L) (C := C) (rec := rec) (sp.translate kvs) (hf.translate kvs) hk ha
    (h.translate kvs) hm (hy.imp id fun ⟨h1, h2⟩ => ⟨h1, List.any_eq_true.2 h2⟩)
  exact ⟨h1, h2, h3⟩

/-- C66. A value there is no translation for is validated and returned as it is. (That the values translated to are
choices, too, shows only for a value that is one of them.) -/
theorem C66_untranslated (sp : Spot I W f s r q text b) (hf : HookFree f) (hk : f.kind.Primitive)
    (ha : f.core.attachParent = false) (ht : f.core.translations = []) (h : Finds I f q w) (hw : w.scalar = true)
    (hu : Unnamed kvs w) (hi : ∀ v ∈ f.core.ignores, w.pyEq v = false) (hy : f.kind.Typed w)
    (hc : w ∉ kvs.map Prod.snd) :
    (f.kind.Passes w → Accepts (mapFieldF I L C rec (f.translate kvs) .NONE) s w) ∧
    (¬ f.kind.Passes w → Rejects (mapFieldF I L C rec (f.translate kvs) .NONE) s f text r) := by
  have hig : w.isIgnore = false := by cases h <;> first | rfl | assumption
  have hm := munge_unnamed (f := f) hw ht hu
  have hin : w.inList (f.translate kvs).core.ignores = false := by
    show f.core.ignores.any _ = false
    rw [List.any_eq_false]
    intro v hv
    rw [hi v hv]
    exact Bool.false_ne_true
  have hnot : w ∉ (f.translate kvs).core.translations.map Prod.snd := by
    intro hmem
    rcases dictUpdate_values _ _ _ hmem with h | h
    · rw [ht] at h; cases h
    · exact hc h
  have hp := widen_passes_not (k := f.kind) hnot
  refine ⟨fun h' => ?_, fun h' => ?_⟩
  · exact holds_accepted (sp.translate kvs) (hf.translate kvs) hk ha (h.translate kvs) hm hig hin
      ((validate_typed (f := f.translate kvs) hk hy).1 (hp.2 h'))
  · obtain ⟨msg, hv⟩ := (validate_typed (I := I) (L := L) (f := f.translate kvs) hk hy).2 fun h'' => h' (hp.1 h'')
    exact ⟨msg, holds_rejected (sp.translate kvs) (hf.translate kvs) hk ha (h.translate kvs) hm hig hin hv⟩

/-- Two calls are one with both lists. -/
theorem C66_twice (f : Field) (a b : List (Val × Val)) : (f.translate a).translate b = f.translate (a ++ b) := by
  unfold Field.translate Field.with
  have : dictUpdate (dictUpdate f.core.translations a) b = dictUpdate f.core.translations (a ++ b) := by
    unfold dictUpdate
    rw [List.foldl_append]
  show Field.mk { f.core with translations := dictUpdate (dictUpdate f.core.translations a) b } f.kind = _
  rw [this]

/-- C66, the negation for values that cannot be hashed: a plain field with a translation that finds a list or a mapping
raises `TypeError`; nothing is collected. -/
theorem C66_counterexample_unhashable (sp : Spot I W f s r q text b) (hf : HookFree f) (hk : f.kind.Primitive)
    (ha : f.core.attachParent = false) (h : Finds I f q w) (hw : w.hashable = false) (hne : kvs ≠ []) :
    (mapFieldF I L C rec (f.translate kvs) .NONE s).1 = .error (.typeError "unhashable type") ∧
    curErrs (mapFieldF I L C rec (f.translate kvs) .NONE s).2 = curErrs s := by
  have hm : fieldMunge (f.translate kvs) w = .error (.typeError "unhashable type") := by
    unfold fieldMunge
    have : (f.translate kvs).core.translations.isEmpty = false := by
      show (dictUpdate _ kvs).isEmpty = false
      rw [dictUpdate_isEmpty]
      cases kvs with
      | nil => exact absurd rfl hne
      | cons => simp
    rw [this, hw]
    rfl
  obtain ⟨q2, hs, hrun⟩ := holds_start (L := L) (r := r) (hf.translate kvs) sp.wf (h.translate kvs)
  have hrun2 : StartsWith W L noClasses (Lex.mapField I L noClasses 0) (f.translate kvs) r q
      ((f.translate kvs).innerEnv s.env) b (.error (.typeError "unhashable type")) [] := by
    intro τ hp hb
    refine ⟨q2, ?_, hs⟩
    rw [hrun _ _ _ _ hp, List.append_nil, ← hb]
    unfold Lex.fieldCheck
    refine T.bind_error ?_
    rw [(hf.translate kvs).mungeStep, hm]
    rfl
  obtain ⟨h1, h2, _⟩ := (sp.translate kvs).run (hf.translate kvs).resolve ha
    (leaf_ref (C := C) (rec := rec) (hf.translate kvs) hk.leaf .NONE) hrun2
  exact ⟨h1, by rw [h2, sp.errs]; simp⟩

namespace Demo

/-- A `String` field named `a` at `{"a": x}` finds `x`. -/
theorem holds_str (c : StrCfg) (x : String) :
    Finds (SPath.ops lib) (strA c) (placeOf (.dict [(.str "a", .str x)]) "a") (.str x) :=
  .value rfl (present_str x) (read_str x) rfl

/-- C64: `options(default=None, nullable=False)` at `{}`. -/
example (rec : Rec SPath) : Accepts (mapFieldF (SPath.ops lib) lib classes rec
      ((strA {}).options { default := some (.value .none), nullable := some (.bool false) }) .NONE)
    (here (SPath.ops lib) (.dict [])) .none :=
  (C64_default_none (here_spot lib _ _ rfl (by intro _ h; cases h)) (free_str {}) rfl rfl).1
    (by unfold Absent; decide +kernel) rfl

/-- C64: the same at `{"a": None}`. -/
example (rec : Rec SPath) : Accepts (mapFieldF (SPath.ops lib) lib classes rec
      ((strA {}).options { default := some (.value .none), nullable := some (.bool false) }) .NONE)
    (given lib .none) .none :=
  (C64_default_none (at_a lib _ _ rfl (by intro _ h; cases h)) (free_str {}) rfl rfl).2
    ⟨rfl, rfl⟩ rfl rfl rfl

/-- C64: `options(optional=True)`. -/
example (rec : Rec SPath) : Accepts (mapFieldF (SPath.ops lib) lib classes rec
      ((strA {}).options { optional := some (.bool true) }) .NONE) (here (SPath.ops lib) (.dict [])) .NONE :=
  C64_optional (here_spot lib _ _ rfl (by intro _ h; cases h)) (free_str {}) rfl rfl rfl rfl
    (by unfold Absent; decide +kernel) rfl

/-- C64: `options(optional=True, default=7)`. -/
example (rec : Rec SPath) : Accepts (mapFieldF (SPath.ops lib) lib classes rec
      ((strA {}).options { optional := some (.bool true), default := some (.value (.int 7)) }) .NONE)
    (here (SPath.ops lib) (.dict [])) (.int 7) :=
  C64_default_wins (here_spot lib _ _ rfl (by intro _ h; cases h)) (free_str {}) rfl
    ⟨(by intro h; cases h), (by intro _ h; cases h)⟩ rfl (by unfold Absent; decide +kernel) rfl

/-- C64: `options(optional=False)`. -/
example (rec : Rec SPath) : Adds (mapFieldF (SPath.ops lib) lib classes rec
      ((strA {}).options { optional := some (.bool false) }) .NONE)
    (here (SPath.ops lib) (.dict [])) .NOT_SET ⟨.missing, "a", some "a", some 0⟩ :=
  C64_required (here_spot lib _ _ rfl (by intro _ h; cases h)) (free_str {}) rfl
    (by intro v h; cases h; rfl) (.inl rfl) rfl (by unfold Absent; decide +kernel) rfl

/-- C64: `options(nullable=False)`. -/
example (rec : Rec SPath) : Adds (mapFieldF (SPath.ops lib) lib classes rec
      ((strA {}).options { nullable := some (.bool false) }) .NONE)
    (given lib .none) .ERROR ⟨.invalid "not nullable", "a", some "a", some 0⟩ :=
  C64_not_nullable (at_a lib _ _ rfl (by intro _ h; cases h)) (free_str {}) (by intro _ h; cases h)
    (by intro h; cases h) rfl rfl rfl ⟨rfl, rfl⟩ rfl rfl rfl

/-- C65: `String(min_length=2).ignore("", "-")` at `{"a": "-"}`: missing, not too short. -/
example (rec : Rec SPath) : Adds (mapFieldF (SPath.ops lib) lib classes rec
      ((strA { minLength := some 2 }).ignore [.str "", .str "-"]) .NONE)
    (given lib (.str "-")) .NOT_SET ⟨.missing, "a", some "a", some 0⟩ :=
  (C65_ignored (at_a lib _ _ rfl (by intro _ h; cases h)) (free_str _) ⟨_, rfl⟩ rfl rfl (holds_str _ "-")
    ⟨.str "-", by simp, by decide +kernel⟩).missing (.inl rfl) rfl

/-- C65: the same field at `{"a": "xy"}`. -/
example (rec : Rec SPath) : Accepts (mapFieldF (SPath.ops lib) lib classes rec
      ((strA { minLength := some 2 }).ignore [.str "", .str "-"]) .NONE)
    (given lib (.str "xy")) (.str "xy") := by
  refine (C65_kept (at_a lib _ _ rfl (by intro _ h; cases h)) (free_str _) ⟨_, rfl⟩ rfl rfl (holds_str _ "xy") ?_).1
    ⟨_, rfl⟩ ⟨_, rfl, ?_⟩
  · intro v hv
    rcases List.mem_cons.1 hv with rfl | hv
    · decide +kernel
    · rcases List.mem_cons.1 hv with rfl | hv
      · decide +kernel
      · cases hv
  · exact ⟨(by intro h; exact absurd rfl h), (by intro n h; cases h; decide), (by intro n h; cases h),
      (by intro _ _ h; cases h), (by intro h; exact absurd rfl h)⟩

/-- C65, the negation for the `ignore` option: `options(ignore=["", "-"])` does not ignore `"-"`; it ignores the list
(`pilo/fields.py:387-388` passes the option on without unpacking it). -/
theorem C65_counterexample_option (rec : Rec SPath) : Accepts (mapFieldF (SPath.ops lib) lib classes rec
      ((strA {}).options { ignore := some (.list [.str "", .str "-"]) }) .NONE)
    (given lib (.str "-")) (.str "-") := by
  refine (C65_kept (vs := [.list [.str "", .str "-"]]) (at_a lib _ _ rfl (by intro _ h; cases h)) (free_str {}) ⟨_, rfl⟩ rfl rfl (holds_str _ "-") ?_).1
    ⟨_, rfl⟩ ⟨_, rfl, ?_⟩
  · intro v hv
    rcases List.mem_cons.1 hv with rfl | hv
    · decide +kernel
    · cases hv
  · exact ⟨(by intro h; exact absurd rfl h), (by intro n h; cases h), (by intro n h; cases h),
      (by intro _ _ h; cases h), (by intro h; exact absurd rfl h)⟩

/-- `{"y": "n", "y": "yes"}`, as two calls would give it. -/
def yes : List (Val × Val) := [(.str "y", .str "n"), (.str "x", .none), (.str "y", .str "yes")]

theorem yes_y : Renames yes (.str "y") (.str "yes") :=
  .last (pre := [(.str "y", .str "n"), (.str "x", .none)]) (post := []) rfl (by decide +kernel) (by intro _ h; cases h)

/-- C66: `String(choices=["no"]).translate({"y": "n", ...}).translate({"y": "yes"})` at `{"a": "y"}`: the last binding
counts, and what it gives need not be a choice. -/
example (rec : Rec SPath) : Accepts (mapFieldF (SPath.ops lib) lib classes rec
      ((strA { choices := [.str "no"], minLength := some 2 }).translate yes) .NONE)
    (given lib (.str "y")) (.str "yes") := by
  refine (C66_translated (at_a lib _ _ rfl (by intro _ h; cases h)) (free_str _) ⟨_, rfl⟩ rfl (holds_str _ "y") rfl yes_y
    ⟨_, rfl⟩ rfl (by intro _ h; cases h)).1 ⟨_, rfl, ?_⟩
  exact ⟨(by intro h; exact absurd rfl h), (by intro n h; cases h; decide), (by intro n h; cases h),
      (by intro _ _ h; cases h), (by intro h; exact absurd rfl h)⟩

/-- C66: the example of the documentation (`pilo/fields.py:308-314`). -/
example (rec : Rec SPath) : Accepts (mapFieldF (SPath.ops lib) lib classes rec
      ((strA { choices := [.str "one", .str "two"] }).translate [(.str "one", .int 1), (.str "two", .int 2)]) .NONE)
    (given lib (.str "two")) (.int 2) :=
  C66_other_type (at_a lib _ _ rfl (by intro _ h; cases h)) (free_str _) rfl rfl (holds_str _ "two") rfl
    (.last (pre := [(.str "one", .int 1)]) (post := []) rfl (by decide +kernel) (by intro _ h; cases h))
    (by intro h; cases h) rfl (by decide +kernel) (by intro _ h; cases h) rfl rfl rfl rfl

/-- C66: what a translation gives must still be short enough. -/
example (rec : Rec SPath) : Rejects (mapFieldF (SPath.ops lib) lib classes rec
      ((strA { maxLength := some 2 }).translate yes) .NONE)
    (given lib (.str "y")) (strA { maxLength := some 2 }) "a" 0 := by
  refine (C66_translated (at_a lib _ _ rfl (by intro _ h; cases h)) (free_str _) ⟨_, rfl⟩ rfl (holds_str _ "y") rfl yes_y
    ⟨_, rfl⟩ rfl (by intro _ h; cases h)).2 ?_
  rintro ⟨x, hx, h⟩
  cases hx
  exact absurd (h.max 2 rfl) (by decide)

/-- C66: `"x"` is translated to `None`, which is not nullable here. -/
example (rec : Rec SPath) : Adds (mapFieldF (SPath.ops lib) lib classes rec
      (Field.translate (.mk { name := some "a", src := .str "a", nullable := .bool false } (.string {})) yes) .NONE)
    (given lib (.str "x")) .ERROR ⟨.invalid "not nullable", "a", some "a", some 0⟩ :=
  (C66_to_none (at_a lib _ _ rfl (by intro _ h; cases h))
    ⟨.inl rfl, rfl, rfl, rfl, rfl, rfl, rfl, by intro _ _ _ _ _ h; cases h⟩ ⟨_, rfl⟩ rfl
    (.value rfl (present_str _) (read_str _) rfl) rfl
    (.last (pre := [(.str "y", .str "n")]) (post := [(.str "y", .str "yes")]) rfl (by decide +kernel)
      (by intro _ h; rcases List.mem_cons.1 h with rfl | h; · decide +kernel
          · cases h)) (by intro _ h; cases h)).2 rfl

/-- C66: a translation to `NONE` makes the field missing. -/
example (rec : Rec SPath) : Adds (mapFieldF (SPath.ops lib) lib classes rec
      ((strA {}).translate [(.str "x", .NONE)]) .NONE)
    (given lib (.str "x")) .NOT_SET ⟨.missing, "a", some "a", some 0⟩ :=
  (C66_dropped (at_a lib _ _ rfl (by intro _ h; cases h)) (free_str _) ⟨_, rfl⟩ rfl (holds_str _ "x") rfl
    (.last (pre := []) (post := []) rfl (by decide +kernel) (by intro _ h; cases h)) (.inl rfl)).missing (.inl rfl) rfl

/-- C66: no translation for `"z"`, which is not a choice. -/
example (rec : Rec SPath) : Rejects (mapFieldF (SPath.ops lib) lib classes rec
      ((strA { choices := [.str "no"] }).translate yes) .NONE)
    (given lib (.str "z")) (strA { choices := [.str "no"] }) "a" 0 := by
  refine (C66_untranslated (at_a lib _ _ rfl (by intro _ h; cases h)) (free_str _) ⟨_, rfl⟩ rfl rfl (holds_str _ "z") rfl
    ?_ (by intro _ h; cases h) ⟨_, rfl⟩ (by simp [yes])).2 ?_
  · intro p hp
    simp only [yes, List.mem_cons, List.not_mem_nil, or_false] at hp
    rcases hp with rfl | rfl | rfl <;> decide +kernel
  · rintro ⟨x, hx, h⟩
    cases hx
    exact absurd (h.choices (by intro h; cases h)) (by simp)

/-- C66: a plain field with a translation at `{"a": []}` raises `TypeError`. -/
example (rec : Rec SPath) : (mapFieldF (SPath.ops lib) lib classes rec ((field "a" .base).translate yes) .NONE
    (given lib (.list []))).1 = .error (.typeError "unhashable type") :=
  (C66_counterexample_unhashable (at_a lib _ _ rfl (by intro _ h; cases h)) (free _ _ (by intro _ _ _ _ _ h; cases h))
    ⟨_, rfl⟩ rfl (.value (w := .list []) rfl ⟨rfl, rfl⟩ rfl rfl) rfl (by intro h; cases h)).1

end Demo
end Pilo
