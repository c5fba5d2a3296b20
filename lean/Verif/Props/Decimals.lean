import Verif.Props.Unparsable

/-!
# C87: what a Decimal field reads
-/

namespace Pilo
section
variable {P : Type} {I : PathOps P} {W : LawfulPath I} {L : Lib} {C : Classes} {rec : Rec P}
  {f : Field} {s : St P} {r : Nat} {q : P} {text : String} {b : ErrBuf}

/-- The number a value stands for, to a `Decimal` field: decimals, integers, booleans and floats stand for
themselves. -/
inductive DecimalOf : Val → Num → Prop
  | decimal (x : Num) : DecimalOf (.decimal x) x
  | int (i : Int) : DecimalOf (.int i) (.fin (i : Rat))
  | yes : DecimalOf (.bool true) (.fin 1)
  | no : DecimalOf (.bool false) (.fin 0)
  | float (x : Num) : DecimalOf (.float x) x

/-- The path holds something that stands for the number `x`: a number, or text `Decimal()` reads as `x`. -/
inductive HoldsDecimal (I : PathOps P) (L : Lib) (q : P) (x : Num) : Prop
  | number {v : Val} : Present I q → (I.value (asked I q)).1 = .ok v → DecimalOf v x → HoldsDecimal I L q x
  | text {t : String} : HoldsStr I q t → L.decimalOfStr t = some x → HoldsDecimal I L q x

theorem HoldsDecimal.present {x : Num} (h : HoldsDecimal I L q x) : Present I q := by
  cases h with
  | number h _ _ => exact h
  | text h _ => exact h.present

/-- What a `Decimal` field parses. -/
theorem HoldsDecimal.parse {x : Num} (h : HoldsDecimal I L q x) (hw : W.WF q) {c : NumCfg}
    (hk : f.kind = .decimal c) :
    ∃ q2, Same I W.WF W.shape (asked I q) q2 ∧
      ∀ (env : Env) (τ : TSt P), τ.path = some (some (r, asked I q)) →
        Lex.kindParse I L noClasses (Lex.mapField I L noClasses 0) f env τ
          = (.ok (.decimal x), { τ with path := some (some (r, q2)) }) := by
  cases h with
  | @number v hp hv hd =>
    refine ⟨(I.value (asked I q)).2, W.value_keys (asked_same hw).wf, ?_⟩
    intro env τ hpath
    unfold Lex.kindParse
    rw [hk]
    simp only
    unfold Lex.decimalParse
    rw [T.onPath_eq hpath hv]
    cases hd <;> rfl
  | @text t ht hx =>
    refine ⟨seen I q, seen_same hw, ?_⟩
    intro env τ hpath
    unfold Lex.kindParse
    rw [hk]
    simp only
    unfold Lex.decimalParse
    rw [T.onPath_eq hpath ht.value]
    simp only
    rw [T.onPath_eq (r := r) rfl ht.str_value]
    simp only [hx]
    rfl

/-- C87 (partial: the number is not `nan`, or there are no bounds).  A hook-free `Decimal` field whose source
holds a number, or text that `Decimal()` reads, gives the decimal of exactly that value and no error if it
lies within the bounds, inclusively; otherwise `ERROR` and one `Invalid` error. -/
theorem C87_partial {c : NumCfg} {x : Num} (sp : Spot I W f s r q text b) (hf : HookFree f)
    (hk : f.kind = .decimal c) (ha : f.core.attachParent = false) (ht : f.core.translations = [])
    (hi : (Val.decimal x).inList f.core.ignores = false) (hx : HoldsDecimal I L q x)
    (hnan : x ≠ .nan) (hb : BoundsOK c) :
    (InRange c x → Accepts (mapFieldF I L C rec f .NONE) s (.decimal x)) ∧
    (¬ InRange c x → Rejects (mapFieldF I L C rec f .NONE) s f text r) := by
  have hleaf : f.kind.leaf = true := by rw [hk]; rfl
  obtain ⟨q2, hs, hparse⟩ := hx.parse (r := r) sp.wf hk
  have hval : Lex.kindValidate I L f (.decimal x) = Lex.numberValidate I L c (.decimal x) := by
    rw [kindValidate_nonnull rfl, hk]
  obtain ⟨hok, hbad⟩ := rangeValidate_spec (I := I) (L := L) (v := .decimal x)
    (loMsg := fun v b => "\"" ++ L.fmt v ++ "\" must be >= " ++ L.fmt b)
    (hiMsg := fun v b => "\"" ++ L.fmt v ++ "\" must be <= " ++ L.fmt b) hb rfl hnan
  refine ⟨fun h => ?_, fun h => ?_⟩
  · refine sp.accepts hf hleaf ha (starts_accept hf sp.wf hx.present ht rfl hi hs (hparse _) ?_)
    intro τ _ _
    rw [hval]
    unfold Lex.numberValidate
    rw [hok h]
    rfl
  · obtain ⟨msg, hm⟩ := hbad h
    exact ⟨msg, sp.adds hf hleaf ha (starts_reject hf sp.wf hx.present ht rfl hi hs sp.text sp.collect
      (innerEnv_field _ _) (hparse _) (hval.trans hm))⟩

/-- C87, `nan` without bounds: it is taken as it is. -/
theorem C87_nan_unbounded {c : NumCfg} (sp : Spot I W f s r q text b) (hf : HookFree f)
    (hk : f.kind = .decimal c) (ha : f.core.attachParent = false) (ht : f.core.translations = [])
    (hi : (Val.decimal .nan).inList f.core.ignores = false) (hx : HoldsDecimal I L q .nan)
    (hlo : c.min = none) (hhi : c.max = none) :
    Accepts (mapFieldF I L C rec f .NONE) s (.decimal .nan) := by
  have hleaf : f.kind.leaf = true := by rw [hk]; rfl
  obtain ⟨q2, hs, hparse⟩ := hx.parse (r := r) sp.wf hk
  refine sp.accepts hf hleaf ha (starts_accept hf sp.wf hx.present ht rfl hi hs (hparse _) ?_)
  intro τ _ _
  rw [kindValidate_nonnull rfl, hk]
  simp only [Lex.numberValidate, Lex.rangeValidate, hlo, hhi, boundBad]
  rfl

/-- Present value, parser returns a usable value, validation raises an exception that is not reported. -/
theorem starts_validate_escape (hf : HookFree f) (hw : W.WF q) (hpr : Present I q)
    (ht : f.core.translations = []) {v : Val} (hv : v.isIgnore = false)
    (hi : v.inList f.core.ignores = false) {env : Env} {b : ErrBuf} {q2 : P} {trec : TRec P} {e : Exc}
    (hs : Same I W.WF W.shape (asked I q) q2)
    (hparse : ∀ τ : TSt P, τ.path = some (some (r, asked I q)) →
      Lex.kindParse I L C trec f env τ = (.ok v, { τ with path := some (some (r, q2)) }))
    (hval : ∀ τ : TSt P, Lex.kindValidate I L f v env τ = (.error e, τ)) :
    StartsWith W L C trec f r q env b (.error e) [] := by
  intro τ hp hb
  refine ⟨q2, ?_, Same.trans W (asked_same hw) hs⟩
  have hc : Lex.fieldCompute I L C trec f env τ = (.ok v, { τ with path := some (some (r, q2)) }) := by
    rw [fieldCompute_present hf hp hpr]
    unfold T.tryCatch
    rw [hparse { τ with path := some (some (r, asked I q)) } rfl]
  rw [fieldStart_value hf hc hv, fieldCheck_plain hf ht hv hi]
  refine (T.bind_error (hval { τ with path := some (some (r, q2)) })).trans ?_
  simp only [List.append_nil]
  rw [← hb]

/-- C87 fails for `nan`: comparing a `nan` decimal with a bound raises `decimal.InvalidOperation`, which is
neither a `ValueError` nor a `SourceError`; it leaves `map` and nothing is reported. -/
theorem C87_nan_counterexample {c : NumCfg} (sp : Spot I W f s r q text b) (hf : HookFree f)
    (hk : f.kind = .decimal c) (ha : f.core.attachParent = false) (ht : f.core.translations = [])
    (hi : (Val.decimal .nan).inList f.core.ignores = false) (hx : HoldsDecimal I L q .nan)
    (hb : BoundsOK c) (hbound : c.min ≠ none ∨ c.max ≠ none) :
    (mapFieldF I L C rec f .NONE s).1 = .error (.other "InvalidOperation" "comparison involving NaN") ∧
      curErrs (mapFieldF I L C rec f .NONE s).2 = curErrs s := by
  have hleaf : f.kind.leaf = true := by rw [hk]; rfl
  obtain ⟨q2, hs, hparse⟩ := hx.parse (r := r) sp.wf hk
  have hlt : ∀ w : Val, pyLt L (.decimal .nan) w
      = .error (.other "InvalidOperation" "comparison involving NaN") := by intro w; rfl
  have hgt : ∀ {w : Val} {y : Num}, w.num? = some y → pyLt L w (.decimal .nan)
      = .error (.other "InvalidOperation" "comparison involving NaN") := by
    intro w y hw
    cases w <;> simp [Val.num?] at hw
    all_goals first | rfl | (rename_i a; cases a <;> rfl)
  have hval : ∀ (env : Env) (τ : TSt P), Lex.kindValidate I L f (.decimal .nan) env τ
      = (.error (.other "InvalidOperation" "comparison involving NaN"), τ) := by
    intro env τ
    rw [kindValidate_nonnull rfl, hk]
    simp only [Lex.numberValidate, Lex.rangeValidate]
    cases hlo : c.min with
    | some lo =>
      simp only [boundBad, hlt]
      rfl
    | none =>
      cases hhi : c.max with
      | none => simp [hlo, hhi] at hbound
      | some hi =>
        obtain ⟨y, hy, _⟩ := hb.max hi hhi
        simp only [boundBad, hgt hy]
        rfl
  obtain ⟨h1, h2, _⟩ := sp.run hf.resolve ha (leaf_ref (C := C) (rec := rec) hf hleaf .NONE)
    (starts_validate_escape (L := L) (C := noClasses) (trec := Lex.mapField I L noClasses 0) hf sp.wf hx.present
      ht rfl hi (env := f.innerEnv s.env) (b := b) hs (hparse _) (hval _))
  exact ⟨h1, by rw [h2, sp.errs]; simp⟩

end

/-! ## Concrete cases -/

section
open Demo

/-- A decimal field with a lower bound: a float within it, a bool below it, text above it, `nan`. -/
example : mapAt (field "a" (.decimal { min := some (.int 1) })) (.dict [(.str "a", .float (.fin (3/2)))])
      = (.ok (.decimal (.fin (3/2))), [[]]) ∧
    (mapAt (field "a" (.decimal { min := some (.int 1) })) (.dict [(.str "a", .bool false)])).1
      = .ok .ERROR ∧
    (mapAt (field "a" (.decimal { min := some (.int 1) })) (.dict [(.str "a", .decimal .nan)])).1
      = .error (.other "InvalidOperation" "comparison involving NaN") := by decide +kernel

/-- The hypotheses, at a path that holds a boolean. -/
example (rec : Rec SPath) : Accepts (mapFieldF (SPath.ops lib) lib classes rec
    (field "a" (.decimal { max := some (.int 1) })) .NONE)
    (here (SPath.ops lib) (.dict [(.str "a", .bool true)])) (.decimal (.fin 1)) := by
  refine (C87_partial (x := .fin 1) (here_spot lib _ _ rfl (by intro _ h; cases h))
    (free _ _ (by intro _ _ _ _ _ h; cases h)) rfl rfl rfl rfl ?_ (by intro h; cases h) ?_).1 ?_
  · have hv : (SPath.value lib (placeOf (.dict [(.str "a", .bool true)]) "a")).1 = .ok (.bool true) := by
      decide +kernel
    obtain ⟨hs, _⟩ := settled_dflt hv rfl
    exact .number (hs.present rfl) (congrArg Prod.fst hs.value) .yes
  · exact ⟨by rintro lo ⟨⟩, by rintro hi ⟨⟩; exact ⟨_, rfl, by intro h; cases h⟩⟩
  · exact ⟨by rintro lo y ⟨⟩, by rintro hi y ⟨⟩ ⟨⟩; exact Rat.le_refl⟩

end

end Pilo
