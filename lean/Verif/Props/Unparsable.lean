import Verif.Props.Fields

/-!
# C47, C48: strings a field cannot parse; C24: list bounds; examples for C11 to C14
-/

namespace Pilo
variable {P : Type} {α : Type} {I : PathOps P} {L : Lib} {W : LawfulPath I} {C : Classes} {rec : Rec P}
  {f : Field} {s : St P} {r : Nat} {q : P} {text : String} {b : ErrBuf}

/-- The path holds the string `x`, whichever way it is read. -/
structure HoldsStr (I : PathOps P) (q : P) (x : String) : Prop where
  present : Present I q
  value : (I.value (asked I q)).1 = .ok (.str x)
  auto : (I.primitive .auto (asked I q)).1 = .ok (.str x)
  str : (I.primitive .str (asked I q)).1 = .ok (.str x)
  str_value : (I.primitive .str (I.value (asked I q)).2).1 = .ok (.str x)
  str_auto : (I.primitive .str (I.primitive .auto (asked I q)).2).1 = .ok (.str x)

/-- A path of a default source whose value is a string holds that string. -/
theorem holdsStr_dflt {cfg : DefaultCfg} {st : PathSt Val} {x : String}
    (hv : (SPath.value L (.dflt cfg st)).1 = .ok (.str x)) : HoldsStr (SPath.ops L) (.dflt cfg st) x := by
  obtain ⟨hs, hp⟩ := settled_dflt hv rfl
  have hprim : ∀ ty, ∀ q', SPath.value L q' = (.ok (.str x), q') → (SPath.primitive L ty q').2 = q' := by
    intro ty q' h
    unfold SPath.primitive
    unfold SPath.value at h
    cases q' with
    | dflt c st =>
      simp only [SPath.withValue] at h ⊢
      rcases hr : SPath.valueDflt L c st with ⟨r, st'⟩
      rw [hr] at h
      cases r <;> simp_all
    | json c l st =>
      simp only [SPath.withValue] at h ⊢
      rcases hr : SPath.valueJson st with ⟨r, st'⟩
      rw [hr] at h
      cases r <;> simp_all
    | config c st =>
      simp only [SPath.withValue] at h ⊢
      rcases hr : SPath.valueCfg L c st with ⟨r, st'⟩
      rw [hr] at h
      cases r <;> simp_all
  have hauto := hprim .auto _ hs.value
  refine ⟨hs.present rfl, ?_, hp .auto, hp .str, ?_, ?_⟩
  · show (SPath.value L _).1 = _; rw [hs.value]
  · show (SPath.primitive L .str (SPath.value L _).2).1 = _; rw [hs.value]; exact hp .str
  · show (SPath.primitive L .str (SPath.primitive L .auto _).2).1 = _; rw [hauto]; exact hp .str

theorem T.onPath_eq {β : Type} {g : P → Except Exc α × P} {k : α → T P β} {env : Env} {τ : TSt P} {p : P}
    {a : α} (hp : τ.path = some (some (r, p))) (h : (g p).1 = .ok a) :
    (T.onPath g >>= k) env τ = k a env { τ with path := some (some (r, (g p).2)) } := by
  refine T.bind_ok ?_
  rw [T.onPath_run hp, h]

/-! ## C47 -/

/-- The path after a parser looked at the value and then read it as a string. -/
def seen (I : PathOps P) (q : P) : P := (I.primitive .str (I.value (asked I q)).2).2

theorem seen_same (hw : W.WF q) : Same I W.WF W.shape (asked I q) (seen I q) :=
  Same.trans W (W.value_keys (asked_same hw).wf) (W.primitive_keys (W.value_keys (asked_same hw).wf).wf)

theorem Spot.rejects_fail (sp : Spot I W f s r q text b) (hf : HookFree f) (hk : f.kind.leaf = true)
    (ha : f.core.attachParent = false) (hpr : Present I q) {q2 : P} {msg : String}
    (hs : Same I W.WF W.shape (asked I q) q2)
    (hparse : ∀ (env : Env) (τ : TSt P), τ.path = some (some (r, asked I q)) →
      Lex.kindParse I L noClasses (Lex.mapField I L noClasses 0) f env τ =
        Lex.failWith I msg env { τ with path := some (some (r, q2)) }) :
    Rejects (mapFieldF I L C rec f .NONE) s f text r := by
  refine ⟨msg, sp.adds hf hk ha (starts_fail hf sp.wf hpr hs ?_)⟩
  intro τ hp hb
  rw [hparse _ _ hp]
  exact failWith_run (τ := { τ with path := some (some (r, q2)) }) (q := q2) _ rfl
    (by rw [Same.render hs (asked_same sp.wf).wf, Same.render (asked_same sp.wf) sp.wf, sp.text]) hb
    sp.collect (innerEnv_field _ _)

/-- C47 for `Time`: a string its format does not match, or any string when there is no format, is
reported. -/
theorem C47_time {c : DateCfg} {x : String} (sp : Spot I W f s r q text b) (hf : HookFree f)
    (hk : f.kind = .time c) (ha : f.core.attachParent = false) (hx : HoldsStr I q x)
    (hbad : ∀ spec, c.format.head? = some spec → L.strptimeTime spec x = none) :
    Rejects (mapFieldF I L C rec f .NONE) s f text r := by
  have hleaf : f.kind.leaf = true := by rw [hk]; rfl
  cases hc : c.format with
  | nil =>
    refine sp.rejects_fail hf hleaf ha hx.present (q2 := seen I q)
      (msg := "Unknown format for value \"" ++ L.fmt (.str x) ++ "\"") (seen_same sp.wf) ?_
    intro env τ hp
    unfold Lex.kindParse
    rw [hk]
    simp only
    unfold Lex.timeParse
    rw [T.onPath_eq hp hx.value]
    simp only
    rw [T.onPath_eq (r := r) rfl hx.str_value, hc]
    rfl
  | cons spec rest =>
    have hnone := hbad spec (by rw [hc]; rfl)
    refine sp.rejects_raise hf hleaf ha hx.present (q2 := seen I q)
      (e := .valueError "time data does not match format") rfl (seen_same sp.wf) ?_
    intro env τ hp
    unfold Lex.kindParse
    rw [hk]
    simp only
    unfold Lex.timeParse
    rw [T.onPath_eq hp hx.value]
    simp only
    rw [T.onPath_eq (r := r) rfl hx.str_value, hc]
    simp only [hnone]
    rfl

/-- How a `Datetime` field reads a string in a given format (`pilo/fields.py:1006-1013`). -/
def datetimeOf (L : Lib) (spec x : String) : Option Int :=
  if spec = "iso8601" then L.iso8601 x else L.strptimeDatetime spec x

/-- How a `Date` field reads a string in a given format (`pilo/fields.py:916-931`). -/
def dateOf (L : Lib) (spec x : String) : Option Int :=
  if spec = "iso8601" then (L.iso8601 x).map L.isoDate else L.strptimeDate spec x

theorem dateTry_eq (spec x : String) : dateTry L spec x = dateOf L spec x := rfl

/-- C47 for `Datetime`. -/
theorem C47_datetime {c : DateCfg} {x : String} (sp : Spot I W f s r q text b) (hf : HookFree f)
    (hk : f.kind = .datetime c) (ha : f.core.attachParent = false) (hx : HoldsStr I q x)
    (hbad : ∀ spec, c.format.head? = some spec → datetimeOf L spec x = none) :
    Rejects (mapFieldF I L C rec f .NONE) s f text r := by
  have hleaf : f.kind.leaf = true := by rw [hk]; rfl
  cases hc : c.format with
  | nil =>
    refine sp.rejects_fail hf hleaf ha hx.present (q2 := seen I q)
      (msg := "Unknown format for value \"" ++ L.fmt (.str x) ++ "\"") (seen_same sp.wf) ?_
    intro env τ hp
    unfold Lex.kindParse
    rw [hk]
    simp only
    unfold Lex.datetimeParse
    rw [T.onPath_eq hp hx.value]
    simp only
    rw [T.onPath_eq (r := r) rfl hx.str_value, hc]
    rfl
  | cons spec rest =>
    have hnone := hbad spec (by rw [hc]; rfl)
    unfold datetimeOf at hnone
    by_cases hiso : spec = "iso8601"
    · rw [if_pos hiso] at hnone
      refine sp.rejects_fail hf hleaf ha hx.present (q2 := seen I q)
        (msg := "Unable to parse date string") (seen_same sp.wf) ?_
      intro env τ hp
      unfold Lex.kindParse
      rw [hk]
      simp only
      unfold Lex.datetimeParse
      rw [T.onPath_eq hp hx.value]
      simp only
      rw [T.onPath_eq (r := r) rfl hx.str_value, hc]
      simp only [if_pos hiso, hnone]
      rfl
    · rw [if_neg hiso] at hnone
      refine sp.rejects_raise hf hleaf ha hx.present (q2 := seen I q)
        (e := .valueError "time data does not match format") rfl (seen_same sp.wf) ?_
      intro env τ hp
      unfold Lex.kindParse
      rw [hk]
      simp only
      unfold Lex.datetimeParse
      rw [T.onPath_eq hp hx.value]
      simp only
      rw [T.onPath_eq (r := r) rfl hx.str_value, hc]
      simp only [if_neg hiso, hnone]
      rfl

/-- C47 for `Date` (partial: only a field without formats reports; see the counterexample). -/
theorem C47_date_partial {c : DateCfg} {x : String} (sp : Spot I W f s r q text b) (hf : HookFree f)
    (hk : f.kind = .date c) (ha : f.core.attachParent = false) (hx : HoldsStr I q x)
    (hc : c.format = []) : Rejects (mapFieldF I L C rec f .NONE) s f text r := by
  have hleaf : f.kind.leaf = true := by rw [hk]; rfl
  refine sp.rejects_fail hf hleaf ha hx.present (q2 := seen I q)
    (msg := "Unknown format for value \"" ++ L.fmt (.str x) ++ "\"") (seen_same sp.wf) ?_
  intro env τ hp
  unfold Lex.kindParse
  rw [hk]
  simp only
  unfold Lex.dateParse
  rw [T.onPath_eq hp hx.value]
  simp only
  rw [T.onPath_eq (r := r) rfl hx.str_value, hc]
  rfl

theorem dateLoop_none {x : String} {fmts : List String} (h : ∀ spec ∈ fmts, dateOf L spec x = none) :
    dateLoop L x fmts = .none := by
  induction fmts with
  | nil => rfl
  | cons spec rest ih =>
    unfold dateLoop
    rw [dateTry_eq, h spec (by simp)]
    exact ih fun sp hs => h sp (by simp [hs])

/-- C47 fails for `Date`: whatever the string, if none of the (one or more) formats matches, a nullable
`Date` field returns `None` and adds no error (`pilo/fields.py:916-931`: the `else` of the loop is never
taken). -/
theorem C47_date_counterexample {c : DateCfg} {x : String} (sp : Spot I W f s r q text b) (hf : HookFree f)
    (hk : f.kind = .date c) (ha : f.core.attachParent = false) (hx : HoldsStr I q x)
    (ht : f.core.translations = []) (hi : Val.none.inList f.core.ignores = false)
    (hn : f.core.nullable.truthy = true) (hc : c.format ≠ [])
    (hbad : ∀ spec ∈ c.format, dateOf L spec x = none) :
    Accepts (mapFieldF I L C rec f .NONE) s .none := by
  have hleaf : f.kind.leaf = true := by rw [hk]; rfl
  refine sp.accepts hf hleaf ha (starts_accept hf sp.wf hx.present ht rfl hi (seen_same sp.wf) ?_ ?_)
  · intro τ hp
    unfold Lex.kindParse
    rw [hk]
    simp only
    unfold Lex.dateParse
    rw [T.onPath_eq hp hx.value]
    simp only
    rw [T.onPath_eq (r := r) rfl hx.str_value]
    have he : c.format.isEmpty = false := by cases h : c.format <;> simp_all
    simp only [he, Bool.false_eq_true, if_false, dateLoop_none hbad]
    rfl
  · intro τ _ _
    unfold Lex.kindValidate Lex.baseValidate
    simp only [hn, Bool.not_true, Bool.and_false, Bool.false_eq_true, if_false, T.pure_bind, Val.isNull,
      if_true]
    rfl

/-! ## C48 -/

/-- C48 for `Integer` and `Float` on native data: a string `int()`/`float()` rejects is reported. -/
theorem C48_number {cfg : DefaultCfg} {st : PathSt Val} {x : String} {s : St SPath}
    {rec : Rec SPath} {c : NumCfg}
    (sp : Spot (SPath.ops L) (SPath.lawful L) f s r (.dflt cfg st) text b) (hf : HookFree f)
    (ha : f.core.attachParent = false) (hv : (SPath.value L (.dflt cfg st)).1 = .ok (.str x))
    (hk : (f.kind = .integer c ∧ L.intOfStr x = none) ∨ (f.kind = .float c ∧ L.floatOfStr x = none)) :
    Rejects (mapFieldF (SPath.ops L) L C rec f .NONE) s f text r := by
  obtain ⟨hs, hp⟩ := settled_dflt hv rfl
  rcases hk with ⟨hk, hx⟩ | ⟨hk, hx⟩
  · refine unreadable_reported (ty := .int) sp hf (by rw [hk]; rfl) ha (hs.present rfl)
      (m := "\"" ++ L.fmt (.str x) ++ "\" is not " ++ "an integer") ?_
    refine (hp .int).trans ?_
    simp only [parseNative, asInt, hx, notA]
  · refine unreadable_reported (ty := .float) sp hf (by rw [hk]; rfl) ha (hs.present rfl)
      (m := "\"" ++ L.fmt (.str x) ++ "\" is not " ++ "a float") ?_
    refine (hp .float).trans ?_
    simp only [parseNative, asFloat, hx, notA]

/-- C48 for `UUID`. -/
theorem C48_uuid {x : String} (sp : Spot I W f s r q text b) (hf : HookFree f) (hk : f.kind = .uuid)
    (ha : f.core.attachParent = false) (hx : HoldsStr I q x) (hbad : L.uuidOfStr x = none) :
    Rejects (mapFieldF I L C rec f .NONE) s f text r := by
  have hleaf : f.kind.leaf = true := by rw [hk]; rfl
  refine sp.rejects_raise hf hleaf ha hx.present
    (q2 := (I.primitive .str (I.primitive .auto (asked I q)).2).2)
    (e := .valueError "badly formed hexadecimal UUID string") rfl
    (Same.trans W (W.primitive_keys (asked_same sp.wf).wf)
      (W.primitive_keys (W.primitive_keys (asked_same sp.wf).wf).wf)) ?_
  intro env τ hp
  unfold Lex.kindParse
  rw [hk]
  simp only
  unfold Lex.uuidParse
  rw [T.onPath_eq hp hx.auto]
  simp only
  rw [T.onPath_eq (r := r) rfl hx.str_auto]
  simp only [hbad]
  rfl

/-- C48 fails for `Decimal`: a string `Decimal()` rejects makes `map` raise `decimal.InvalidOperation`,
which is neither a `ValueError` nor a `SourceError`; nothing is reported (`pilo/fields.py:852-860`). -/
theorem C48_decimal_counterexample {c : NumCfg} {x : String} (sp : Spot I W f s r q text b) (hf : HookFree f)
    (hk : f.kind = .decimal c) (ha : f.core.attachParent = false) (hx : HoldsStr I q x)
    (hbad : L.decimalOfStr x = none) :
    (mapFieldF I L C rec f .NONE s).1 = .error (.other "InvalidOperation" "Invalid literal for Decimal") ∧
      curErrs (mapFieldF I L C rec f .NONE s).2 = curErrs s := by
  have hleaf : f.kind.leaf = true := by rw [hk]; rfl
  obtain ⟨h1, h2, _⟩ := sp.run hf.resolve ha (leaf_ref (C := C) (rec := rec) hf hleaf .NONE)
    (starts_escape (L := L) (C := noClasses) (trec := Lex.mapField I L noClasses 0) hf sp.wf hx.present
      (e := .other "InvalidOperation" "Invalid literal for Decimal") rfl (env := f.innerEnv s.env) (b := b)
      (seen_same sp.wf) (by
        intro τ hp
        unfold Lex.kindParse
        rw [hk]
        simp only
        unfold Lex.decimalParse
        rw [T.onPath_eq hp hx.value]
        simp only
        rw [T.onPath_eq (r := r) rfl hx.str_value]
        simp only [hbad]
        rfl))
  exact ⟨h1, by rw [h2, sp.errs]; simp⟩

/-- C48 also fails for `Float` given an integer too large for a float. -/
theorem C48_overflow_counterexample {cfg : DefaultCfg} {st : PathSt Val} {i : Int} {s : St SPath}
    {rec : Rec SPath} {c : NumCfg}
    (sp : Spot (SPath.ops L) (SPath.lawful L) f s r (.dflt cfg st) text b) (hf : HookFree f)
    (hk : f.kind = .float c) (ha : f.core.attachParent = false)
    (hv : (SPath.value L (.dflt cfg st)).1 = .ok (.int i)) (hbad : L.floatOfInt i = none) :
    (mapFieldF (SPath.ops L) L C rec f .NONE s).1 =
      .error (.other "OverflowError" "int too large to convert to float") := by
  have hleaf : f.kind.leaf = true := by rw [hk]; rfl
  obtain ⟨hs, hp⟩ := settled_dflt hv rfl
  obtain ⟨h1, _⟩ := sp.run hf.resolve ha (leaf_ref (C := C) (rec := rec) hf hleaf .NONE)
    (starts_escape (L := L) (C := noClasses) (trec := Lex.mapField (SPath.ops L) L noClasses 0) hf sp.wf
      (hs.present rfl)
      (e := .other "OverflowError" "int too large to convert to float") rfl (env := f.innerEnv s.env) (b := b)
      ((SPath.lawful L).primitive_keys (ty := .float) (asked_same sp.wf).wf) (by
        intro τ hpath
        unfold Lex.kindParse
        rw [hk]
        refine primitive_parse ?_ hpath
        refine (hp .float).trans ?_
        simp only [parseNative, asFloat, floatInt, hbad]))
  exact h1

/-! ## C12 and C13 on native data -/

/-- C12 on native data: the source holds the string `x`. -/
theorem C12_native {cfg : DefaultCfg} {st : PathSt Val} {x : String} {s : St SPath} {rec : Rec SPath}
    {c : StrCfg} (sp : Spot (SPath.ops L) (SPath.lawful L) f s r (.dflt cfg st) text b) (hf : HookFree f)
    (hk : f.kind = .string c) (ha : f.core.attachParent = false) (ht : f.core.translations = [])
    (hi : Val.str x ∉ f.core.ignores)
    (hv : (SPath.value L (.dflt cfg st)).1 = .ok (.str x)) :
    (StringOK c x → Accepts (mapFieldF (SPath.ops L) L C rec f .NONE) s (.str x)) ∧
    (¬ StringOK c x → Rejects (mapFieldF (SPath.ops L) L C rec f .NONE) s f text r) := by
  obtain ⟨hs, hp⟩ := settled_dflt hv rfl
  exact C12_string sp hf hk ha ht hi (hs.present rfl) (hp .str)

/-- C13 for `Integer` on native data: the source holds something that denotes the integer `i`. -/
theorem C13_integer {cfg : DefaultCfg} {st : PathSt Val} {v : Val} {i : Int} {s : St SPath}
    {rec : Rec SPath} {c : NumCfg}
    (sp : Spot (SPath.ops L) (SPath.lawful L) f s r (.dflt cfg st) text b) (hf : HookFree f)
    (hk : f.kind = .integer c) (ha : f.core.attachParent = false) (ht : f.core.translations = [])
    (hi : (Val.int i).inList f.core.ignores = false)
    (hv : (SPath.value L (.dflt cfg st)).1 = .ok v) (hint : IntOf L v i) (hb : BoundsOK c) :
    (InRange c (.fin i) → Accepts (mapFieldF (SPath.ops L) L C rec f .NONE) s (.int i)) ∧
    (¬ InRange c (.fin i) → Rejects (mapFieldF (SPath.ops L) L C rec f .NONE) s f text r) := by
  have hn : v.isNONE = false := by cases hint <;> rfl
  have hnn : v.isNull = false := by cases hint <;> rfl
  obtain ⟨hs, hp⟩ := settled_dflt hv hn
  refine C13_number_partial (ty := .int) sp hf (by rw [hk]; rfl) ha ht hi (hs.present hnn) ?_ rfl
    (by intro h; cases h) hb
  refine (hp .int).trans ?_
  exact (asInt_ok v (.int i)).2 ⟨i, rfl, hint⟩

/-! ## C24 -/

/-- The bounds of a `List` field. -/
def LenOK (lo hi : Option Nat) (n : Nat) : Prop := (∀ l, lo = some l → l ≤ n) ∧ (∀ h, hi = some h → n ≤ h)

theorem listValidate_spec {lo hi : Option Nat} (xs : List Val) :
    (LenOK lo hi xs.length → Lex.listValidate I lo hi (.list xs) = T.pure true) ∧
    (¬ LenOK lo hi xs.length → ∃ msg, Lex.listValidate I lo hi (.list xs) = Lex.rejectWith I msg) := by
  have hlen : pyLen (.list xs) = .ok xs.length := rfl
  have h1 : ∃ p, lenBad lo (fun n b => decide (n < b)) (.list xs) = .ok p ∧
      (p = false ↔ ∀ l, lo = some l → l ≤ xs.length) := by
    unfold lenBad
    cases lo with
    | none => exact ⟨false, rfl, by simp⟩
    | some l => exact ⟨_, rfl, by simp⟩
  have h2 : ∃ p, lenBad hi (fun n b => decide (b < n)) (.list xs) = .ok p ∧
      (p = false ↔ ∀ h, hi = some h → xs.length ≤ h) := by
    unfold lenBad
    cases hi with
    | none => exact ⟨false, rfl, by simp⟩
    | some l => exact ⟨_, rfl, by simp⟩
  obtain ⟨a, ha1, ha2⟩ := h1
  obtain ⟨d, hd1, hd2⟩ := h2
  unfold Lex.listValidate
  rw [ha1, hd1]
  simp only [T.ofExcept_ok_bind]
  cases a with
  | true =>
    simp only [if_true]
    exact ⟨fun h => absurd (ha2.2 h.1) (by simp), fun _ => ⟨_, rfl⟩⟩
  | false =>
    cases d with
    | true =>
      simp only [if_true, Bool.false_eq_true, if_false]
      exact ⟨fun h => absurd (hd2.2 h.2) (by simp), fun _ => ⟨_, rfl⟩⟩
    | false =>
      simp only [Bool.false_eq_true, if_false]
      exact ⟨fun _ => trivial, fun h => absurd ⟨ha2.1 rfl, hd2.1 rfl⟩ h⟩

/-- From the parse of a present value to the outcome of `field.map()`. -/
theorem Spot.parsed {n : Nat} (sp : Spot I W f s r q text b) (hC : C.All HookFree) (hfa : f.All HookFree)
    (ha : f.core.attachParent = false) (ht : f.core.translations = []) (hpr : Present I q) {v : Val}
    (hv : v.isIgnore = false) (hi : v.inList f.core.ignores = false) {τ2 τ3 : TSt P} {ok : Bool}
    (hparse : Lex.kindParse I L C (Lex.mapField I L C n) f (f.innerEnv s.env)
      { s.view with path := some (some (r, asked I q)) } = (.ok v, τ2))
    (hval : Lex.kindValidate I L f v (f.innerEnv s.env) τ2 = (.ok ok, τ3)) (hpath : τ3.path = τ2.path) :
    (mapField I L C (n + 1) f .NONE s).1 = .ok (if ok then v else .ERROR) ∧
      curErrs (mapField I L C (n + 1) f .NONE s).2 = τ3.errs := by
  have hf := hfa.node
  obtain ⟨p, hp, hpl⟩ := sp.place
  have hwp := curPathObj_wf sp.inv hp
  have hasked := asked_same (W := W) sp.wf
  have hkeep := TKeeps.kindParse (W := W) (ok := fun _ => True) (L := L) hC.calm (TKeeps.mapField (L := L) hC.calm n) hfa.calm
    (f.innerEnv s.env) { s.view with path := some (some (r, asked I q)) }
    (by intro r' p' h; cases h; exact hasked.wf)
  rw [hparse] at hkeep
  obtain ⟨q2, hq2, hs2⟩ := hkeep.path
  have hc : Lex.fieldCompute I L C (Lex.mapField I L C n) f (f.innerEnv s.env)
      { s.view with path := some (some (r, q)) } = (.ok v, τ2) := by
    rw [fieldCompute_present (τ := { s.view with path := some (some (r, q)) }) hf rfl hpr]
    unfold T.tryCatch
    rw [hparse]
  have hrun : Lex.fieldStart I L C (Lex.mapField I L C n) f (f.innerEnv s.env)
      { s.view with path := some (some (r, q)) } = (.ok (if ok then v else .ERROR), τ3) := by
    rw [fieldStart_value hf hc hv, fieldCheck_plain hf ht hv hi]
    exact (T.bind_ok hval).trans rfl
  obtain ⟨p', hfin⟩ := lexMap_run (W := W) (τ := s.view) hf.resolve ha hwp hp hpl hrun (hpath.trans hq2)
    (Same.trans W hasked hs2)
  have href := Ref.mapField (I := I) (L := L) (hC.imp fun _ h => h.lexNode) (n + 1) f .NONE
    (hfa.imp fun _ h => h.lexNode)
  obtain ⟨h1, h2, _⟩ := href.run sp.live
  have he : Lex.mapField I L C (n + 1) f .NONE s.env s.view =
    (.ok (if ok then v else .ERROR), { τ3 with path := some (some (r, p')) }) := hfin
  rw [he] at h1 h2
  exact ⟨h1, h2⟩

/-- C24. A `List` field parses its source to the items `xs` (C23 says which), in a state `τ2` whose error
list `b2` holds whatever the items reported. If the number of items is within the bounds the list is
returned and nothing further is reported; otherwise the result is `ERROR` and one further `Invalid` error
with the path of the list is added. -/
theorem C24_list_bounds {n : Nat} {g : Field} {lo hi : Option Nat} {allow : Bool} {xs : List Val}
    {τ2 : TSt P} {b2 : ErrBuf} (sp : Spot I W f s r q text b) (hC : C.All HookFree) (hfa : f.All HookFree)
    (hk : f.kind = .list g lo hi allow) (ha : f.core.attachParent = false) (ht : f.core.translations = [])
    (hi' : (Val.list xs).inList f.core.ignores = false) (hpr : Present I q)
    (hparse : Lex.listParse I (Lex.mapField I L C n) g allow (f.innerEnv s.env)
      { s.view with path := some (some (r, asked I q)) } = (.ok (.list xs), τ2))
    (hb2 : τ2.errs = some b2) :
    (LenOK lo hi xs.length → (mapField I L C (n + 1) f .NONE s).1 = .ok (.list xs) ∧
      curErrs (mapField I L C (n + 1) f .NONE s).2 = some b2) ∧
    (¬ LenOK lo hi xs.length → (mapField I L C (n + 1) f .NONE s).1 = .ok .ERROR ∧
      ∃ msg, curErrs (mapField I L C (n + 1) f .NONE s).2 = some { b2 with items := b2.items ++
        [{ kind := .invalid msg, path := text, field := f.name, pathRef := some r }] }) := by
  have hparse' : Lex.kindParse I L C (Lex.mapField I L C n) f (f.innerEnv s.env)
      { s.view with path := some (some (r, asked I q)) } = (.ok (.list xs), τ2) := by
    unfold Lex.kindParse; rw [hk]; exact hparse
  have hval : Lex.kindValidate I L f (.list xs) = Lex.listValidate I lo hi (.list xs) := by
    rw [kindValidate_nonnull rfl, hk]
  obtain ⟨hok, hbad⟩ := listValidate_spec (I := I) (lo := lo) (hi := hi) xs
  have hkeep := TKeeps.kindParse (W := W) (ok := fun _ => True) (L := L) hC.calm (TKeeps.mapField (L := L) hC.calm n) hfa.calm
    (f.innerEnv s.env) { s.view with path := some (some (r, asked I q)) }
    (by intro r' p' h; cases h; exact (asked_same sp.wf).wf)
  rw [hparse'] at hkeep
  obtain ⟨q2, hq2, hs2⟩ := hkeep.path
  have hcol : b2.raising = false := by
    have := hkeep.errs
    unfold ErrKeep St.view at this
    simp only [sp.errs, hb2] at this
    obtain ⟨es, he⟩ := this
    cases he
    exact sp.collect
  refine ⟨fun h => ?_, fun h => ?_⟩
  · have hv : Lex.kindValidate I L f (.list xs) (f.innerEnv s.env) τ2 = (.ok true, τ2) := by
      rw [hval, hok h]; rfl
    obtain ⟨h1, h2⟩ := sp.parsed hC hfa ha ht hpr rfl hi' hparse' hv rfl
    exact ⟨h1, by rw [h2, hb2]⟩
  · obtain ⟨msg, hm⟩ := hbad h
    have hv := rejectWith_run (env := f.innerEnv s.env) msg hq2
      (by rw [hs2.render (asked_same sp.wf).wf, Same.render (asked_same sp.wf) sp.wf, sp.text]) hb2 hcol
      (innerEnv_field _ _)
    rw [← hm, ← hval] at hv
    obtain ⟨h1, h2⟩ := sp.parsed hC hfa ha ht hpr rfl hi' hparse' hv rfl
    exact ⟨h1, msg, h2⟩

/-! ## Examples -/

namespace Demo

/-- A context whose source is native data, collecting errors. -/
def here (I : PathOps P) (v : Val) : St P where
  stack := [{ src := .source 0, errors := some 0, form := some 0, parent := some (.form 0) }, rootFrame]
  paths := [I.native v none]
  errs := [⟨false, []⟩]
  forms := [⟨0, [], none⟩]

theorem here_inv (W : LawfulPath I) (v : Val) : Inv W (here I v) where
  wf := by intro p hp; simp [here] at hp; subst hp; exact W.native_wf
  seg := by simp [here, SegOK, rootFrame]
  nodup := by simp [here, srcRefs, rootFrame]
  root := ⟨rootFrame, rfl, rfl⟩

theorem here_live (v : Val) : Live (here I v) where
  root := by simp [here]
  path := by
    intro r h
    simp [here, curPath, lookup, FrameSrc.path?] at h
    subst h; simp [here]
  errs := by
    intro e h
    simp [here, lookup] at h
    subst h; simp [here]
  ids := by
    intro fr hfr id h
    simp [here] at hfr
    rcases hfr with rfl | rfl
    · cases h; simp [here]
    · simp [rootFrame] at h

/-- The place of a field that reads the key `k` of native data. -/
def placeOf (v : Val) (k : String) : SPath := .dflt {} { root := v, parts := [Part.ofKey (.str k)] }

theorem here_spot (L : Lib) (f : Field) (v : Val) {k : String} (hf : f.core.src = .str k)
    (hg : ∀ fs, f.kind ≠ .group fs) :
    Spot (SPath.ops L) (SPath.lawful L) f (here (SPath.ops L) v) 0 (placeOf v k) k ⟨false, []⟩ where
  inv := here_inv _ v
  live := here_live v
  place := by
    refine ⟨SPath.native v none, rfl, ?_⟩
    unfold Field.place
    have : noSrc f.core.src = false := by rw [hf]; rfl
    cases h : f.kind <;> first | exact absurd h (hg _) | (rw [this, hf]; rfl)
  text := by
    show withLocation none (Except.ok (k ++ "")) = _
    simp [withLocation]
  errs := rfl
  collect := rfl

theorem free (n : String) (k : Kind) (hk : ∀ kf vf h r m, k ≠ .dict kf vf (some h) r m) :
    HookFree (field n k) := hookFree_plain hk

end Demo

section
open Demo

/-- C12: `min_length=2` accepts `"xy"` and rejects `"x"`. -/
example (rec : Rec SPath) : Accepts (mapFieldF (SPath.ops lib) lib classes rec
      (field "a" (.string { minLength := some 2 })) .NONE)
    (here (SPath.ops lib) (.dict [(.str "a", .str "xy")])) (.str "xy") :=
  (C12_native (here_spot lib _ _ rfl (by intro _ h; cases h)) (free _ _ (by intro _ _ _ _ _ h; cases h)) rfl
    rfl rfl (x := "xy") (by intro h; cases h) (by decide +kernel)).1
    ⟨fun h => absurd rfl h, by rintro n ⟨⟩; decide, (by intro n h; cases h), (by intro m t h; cases h),
      fun h => absurd rfl h⟩

example (rec : Rec SPath) : ∃ s', Rejects (mapFieldF (SPath.ops lib) lib classes rec
      (field "a" (.string { minLength := some 2 })) .NONE)
    (here (SPath.ops lib) (.dict [(.str "a", .str "x")])) (field "a" (.string { minLength := some 2 })) "a" s' :=
  ⟨_, (C12_native (here_spot lib _ _ rfl (by intro _ h; cases h)) (free _ _ (by intro _ _ _ _ _ h; cases h))
    rfl rfl rfl (x := "x") (by intro h; cases h) (by decide +kernel)).2 fun h => absurd (h.min 2 rfl) (by decide)⟩

/-- C13: `min_value=3` accepts the string `"3"` (the bound is inclusive) and rejects `2.0`. -/
example (rec : Rec SPath) : Accepts (mapFieldF (SPath.ops lib) lib classes rec
      (field "a" (.integer { min := some (.int 3) })) .NONE)
    (here (SPath.ops lib) (.dict [(.str "a", .str "3")])) (.int 3) :=
  (C13_integer (here_spot lib _ _ rfl (by intro _ h; cases h)) (free _ _ (by intro _ _ _ _ _ h; cases h)) rfl
    rfl rfl rfl (v := .str "3") (by decide +kernel) (.str (by decide +kernel))
    ⟨by rintro lo ⟨⟩; exact ⟨_, rfl, by intro h; cases h⟩, by intro hi h; cases h⟩).1
    ⟨by rintro lo y ⟨⟩ ⟨⟩; exact Rat.le_refl, by intro hi y h; cases h⟩

example (rec : Rec SPath) : ∃ s', Rejects (mapFieldF (SPath.ops lib) lib classes rec
      (field "a" (.integer { min := some (.int 3) })) .NONE)
    (here (SPath.ops lib) (.dict [(.str "a", .float (.fin 2))])) (field "a" (.integer { min := some (.int 3) })) "a" s' :=
  ⟨_, (C13_integer (here_spot lib _ _ rfl (by intro _ h; cases h)) (free _ _ (by intro _ _ _ _ _ h; cases h))
    rfl rfl rfl rfl (v := .float (.fin 2)) (by decide +kernel) (.float 2)
    ⟨by rintro lo ⟨⟩; exact ⟨_, rfl, by intro h; cases h⟩, by intro hi h; cases h⟩).2
    fun h => absurd (h.min _ _ rfl rfl) (by unfold Num.Le; decide +kernel)⟩

/-- C13 is false for `nan`: it passes both bounds. -/
theorem C13_nan_counterexample :
    (mapAt (field "a" (.float { min := some (.int 3), max := some (.int 4) }))
      (.dict [(.str "a", .float .nan)])) = (.ok (.float .nan), [[]]) ∧
    ¬ InRange { min := some (.int 3), max := some (.int 4) } .nan := by
  refine ⟨by decide +kernel, fun h => ?_⟩
  exact h.min _ _ rfl rfl

/-- C11: a default that breaks the field's own constraint is returned as it is. -/
example (rec : Rec SPath) : Accepts (mapFieldF (SPath.ops lib) lib classes rec
      (.mk { name := some "a", src := .str "a", default := .value (.str "x") } (.string { minLength := some 2 }))
      .NONE)
    (here (SPath.ops lib) (.dict [])) (.str "x") :=
  C11_default (here_spot lib _ _ rfl (by intro _ h; cases h))
    ⟨.inr ⟨_, rfl⟩, rfl, rfl, rfl, rfl, rfl, rfl, by intro _ _ _ _ _ h; cases h⟩ rfl (by unfold Absent; decide +kernel) rfl
    ⟨(by intro h; cases h), (by intro i h; cases h)⟩ rfl

example (rec : Rec SPath) : Adds (mapFieldF (SPath.ops lib) lib classes rec
      (field "f" (.subform 0 false (.str .ignore))) .NONE)
    (here (SPath.ops lib) (.dict [])) .NOT_SET ⟨.missing, "f", some "f", some 0⟩ :=
  C11_missing (here_spot lib _ _ rfl (by intro _ h; cases h)) (free _ _ (by intro _ _ _ _ _ h; cases h)) rfl
    (by unfold Absent; decide +kernel) (.inl rfl) rfl

/-- C14: null with `nullable` left unset, and with `nullable=False`. -/
example (rec : Rec SPath) : Accepts (mapFieldF (SPath.ops lib) lib classes rec
      (field "a" (.integer { min := some (.int 3) })) .NONE)
    (here (SPath.ops lib) (.dict [(.str "a", .none)])) .none :=
  C14_nullable (here_spot lib _ _ rfl (by intro _ h; cases h)) (free _ _ (by intro _ _ _ _ _ h; cases h)) rfl
    rfl rfl ⟨by decide +kernel, by decide +kernel⟩ rfl

example (rec : Rec SPath) : Adds (mapFieldF (SPath.ops lib) lib classes rec
      (.mk { name := some "a", src := .str "a", nullable := .bool false } (.integer {})) .NONE)
    (here (SPath.ops lib) (.dict [(.str "a", .none)])) .ERROR ⟨.invalid "not nullable", "a", some "a", some 0⟩ :=
  C14_not_nullable (here_spot lib _ _ rfl (by intro _ h; cases h))
    (hookFree_plain (by intro _ _ _ _ _ h; cases h)) rfl rfl rfl ⟨by decide +kernel, by decide +kernel⟩ rfl

/-- C47: `Time(format='%H')` and `Datetime(format='iso8601')` given `"noon"`. -/
example (rec : Rec SPath) : Rejects (mapFieldF (SPath.ops lib) lib classes rec
      (field "a" (.time { format := ["%H"] })) .NONE)
    (here (SPath.ops lib) (.dict [(.str "a", .str "noon")])) (field "a" (.time { format := ["%H"] })) "a" 0 :=
  C47_time (here_spot lib _ _ rfl (by intro _ h; cases h)) (free _ _ (by intro _ _ _ _ _ h; cases h)) rfl rfl
    (holdsStr_dflt (x := "noon") (by decide +kernel)) fun _ _ => rfl

example (rec : Rec SPath) : Rejects (mapFieldF (SPath.ops lib) lib classes rec
      (field "a" (.datetime { format := ["iso8601"] })) .NONE)
    (here (SPath.ops lib) (.dict [(.str "a", .str "noon")])) (field "a" (.datetime { format := ["iso8601"] })) "a" 0 :=
  C47_datetime (here_spot lib _ _ rfl (by intro _ h; cases h)) (free _ _ (by intro _ _ _ _ _ h; cases h)) rfl rfl
    (holdsStr_dflt (x := "noon") (by decide +kernel)) fun spec _ => by
      unfold datetimeOf; split <;> rfl

/-- C47 is false: `Date(format='%Y')` given `"noon"`. -/
example (rec : Rec SPath) : Accepts (mapFieldF (SPath.ops lib) lib classes rec
      (field "a" (.date { format := ["%Y"] })) .NONE)
    (here (SPath.ops lib) (.dict [(.str "a", .str "noon")])) .none :=
  C47_date_counterexample (here_spot lib _ _ rfl (by intro _ h; cases h))
    (free _ _ (by intro _ _ _ _ _ h; cases h)) rfl rfl (holdsStr_dflt (x := "noon") (by decide +kernel)) rfl
    rfl rfl (by simp) (by intro spec h; unfold dateOf; split <;> rfl)

/-- C48: `Integer()`, `UUID()` and `Decimal()` given `"x"`. -/
example (rec : Rec SPath) : Rejects (mapFieldF (SPath.ops lib) lib classes rec (field "a" (.integer {})) .NONE)
    (here (SPath.ops lib) (.dict [(.str "a", .str "x")])) (field "a" (.integer {})) "a" 0 :=
  C48_number (here_spot lib _ _ rfl (by intro _ h; cases h)) (free _ _ (by intro _ _ _ _ _ h; cases h)) rfl
    (x := "x") (by decide +kernel) (.inl ⟨rfl, by decide +kernel⟩)

example (rec : Rec SPath) : Rejects (mapFieldF (SPath.ops lib) lib classes rec (field "a" .uuid) .NONE)
    (here (SPath.ops lib) (.dict [(.str "a", .str "x")])) (field "a" .uuid) "a" 0 :=
  C48_uuid (here_spot lib _ _ rfl (by intro _ h; cases h)) (free _ _ (by intro _ _ _ _ _ h; cases h)) rfl rfl
    (holdsStr_dflt (x := "x") (by decide +kernel)) rfl

example (rec : Rec SPath) : (mapFieldF (SPath.ops lib) lib classes rec (field "a" (.decimal {})) .NONE
    (here (SPath.ops lib) (.dict [(.str "a", .str "x")]))).1 =
      .error (.other "InvalidOperation" "Invalid literal for Decimal") :=
  (C48_decimal_counterexample (here_spot lib _ _ rfl (by intro _ h; cases h))
    (free _ _ (by intro _ _ _ _ _ h; cases h)) rfl rfl (holdsStr_dflt (x := "x") (by decide +kernel))
    (by decide +kernel)).1

/-- C24: `List(Integer(), max_length=1)` given two good items and a bad one. -/
example : mapAt (field "a" (.list (.mk {} (.integer {})) none (some 1) false))
    (.dict [(.str "a", .list [.int 1, .str "x", .int 2])]) =
    (.ok .ERROR, [[(.invalid "\"x\" is not an integer", "a[1]"),
      (.invalid "Must have 1 or fewer items", "a")]]) := by decide +kernel

end

end Pilo
