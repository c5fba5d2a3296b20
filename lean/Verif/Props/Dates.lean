import Verif.Props.Unparsable

/-!
# C54: the window of a `Date`, `Time` or `Datetime` field
-/

namespace Pilo
variable {P : Type} {I : PathOps P} {L : Lib} {W : LawfulPath I} {C : Classes} {rec : Rec P}
  {f : Field} {s : St P} {r : Nat} {q : P} {text : String} {b : ErrBuf}

/-- The options of a `Date`, `Time` or `Datetime` field. -/
def Kind.window? : Kind → Option DateCfg
  | .date c => some c
  | .time c => some c
  | .datetime c => some c
  | _ => none

/-- What such a field makes of a value of the source: an object of its own type is taken as it is, a string is
read with the first format that matches (`Date`) or with the only format there is. -/
inductive Reads (L : Lib) : Kind → Val → ExtTy → Int → Prop where
  | date {c : DateCfg} (d : Int) : Reads L (.date c) (.ext .date d) .date d
  | dateDatetime {c : DateCfg} (d : Int) : Reads L (.date c) (.ext .datetime d) .datetime d
  | dateStr {c : DateCfg} {pre post : List String} {spec x : String} {d : Int} (hc : c.format = pre ++ spec :: post)
      (hpre : ∀ spec ∈ pre, dateOf L spec x = none) (h : dateOf L spec x = some d) :
      Reads L (.date c) (.str x) .date d
  | time {c : DateCfg} (d : Int) : Reads L (.time c) (.ext .time d) .time d
  | timeStruct {c : DateCfg} (d : Int) : Reads L (.time c) (.ext .structTime d) .structTime d
  | timeStr {c : DateCfg} {spec x : String} {d : Int} (hc : c.format = [spec])
      (h : L.strptimeTime spec x = some d) : Reads L (.time c) (.str x) .structTime d
  | datetime {c : DateCfg} (d : Int) : Reads L (.datetime c) (.ext .datetime d) .datetime d
  | datetimeStr {c : DateCfg} {spec x : String} {d : Int} (hc : c.format = [spec])
      (h : datetimeOf L spec x = some d) : Reads L (.datetime c) (.str x) .datetime d

/-- The moment lies between the configured bounds, inclusively. -/
structure InWindow (c : DateCfg) (t : ExtTy) (d : Int) : Prop where
  after : ∀ n, c.after = some (.ext t n) → n ≤ d
  before : ∀ n, c.before = some (.ext t n) → d ≤ n

/-- The bounds are of the given type. -/
structure WindowOf (c : DateCfg) (t : ExtTy) : Prop where
  after : ∀ b, c.after = some b → ∃ n, b = .ext t n
  before : ∀ b, c.before = some b → ∃ n, b = .ext t n

/-- The path holds the value `v`. -/
structure Holds (I : PathOps P) (q : P) (v : Val) : Prop where
  present : Present I q
  value : (I.value (asked I q)).1 = .ok v
  str : ∀ x, v = .str x → (I.primitive .str (I.value (asked I q)).2).1 = .ok (.str x)

theorem holds_dflt {cfg : DefaultCfg} {st : PathSt Val} {v : Val} (hn : v.isNONE = false) (hu : v.isNull = false)
    (hv : (SPath.value L (.dflt cfg st)).1 = .ok v) : Holds (SPath.ops L) (.dflt cfg st) v := by
  obtain ⟨hs, -⟩ := settled_dflt hv hn
  refine ⟨hs.present hu, ?_, ?_⟩
  · show (SPath.value L _).1 = _; rw [hs.value]
  · rintro x rfl
    exact (holdsStr_dflt hv).str_value

theorem dateLoop_first {x : String} {pre post : List String} {spec : String} {d : Int}
    (hpre : ∀ spec ∈ pre, dateOf L spec x = none) (h : dateOf L spec x = some d) :
    dateLoop L x (pre ++ spec :: post) = .ext .date d := by
  induction pre with
  | nil => simp only [List.nil_append, dateLoop, dateTry_eq, h]
  | cons a pre ih =>
    simp only [List.cons_append, dateLoop, dateTry_eq, hpre a (by simp)]
    exact ih fun s hs => hpre s (by simp [hs])

theorem Reads.parse {v : Val} {t : ExtTy} {d : Int} (hr : Reads L f.kind v t d) (hw : W.WF q)
    (hx : Holds I q v) : ∃ q2, Same I W.WF W.shape (asked I q) q2 ∧
      ∀ (env : Env) (τ : TSt P), τ.path = some (some (r, asked I q)) →
        Lex.kindParse I L noClasses (Lex.mapField I L noClasses 0) f env τ =
          (.ok (.ext t d), { τ with path := some (some (r, q2)) }) := by
  have hv := W.value_keys (asked_same hw).wf
  generalize hk : f.kind = k at hr
  cases hr
  case date | dateDatetime | time | timeStruct | datetime =>
    refine ⟨_, hv, fun env τ hp => ?_⟩
    unfold Lex.kindParse
    rw [hk]
    simp only
    first | unfold Lex.dateParse | unfold Lex.timeParse | unfold Lex.datetimeParse
    rw [T.onPath_eq hp hx.value]
    rfl
  case dateStr hc hpre h =>
    refine ⟨_, seen_same hw, fun env τ hp => ?_⟩
    unfold Lex.kindParse
    rw [hk]
    simp only
    unfold Lex.dateParse
    rw [T.onPath_eq hp hx.value]
    simp only
    rw [T.onPath_eq (r := r) rfl (hx.str _ rfl), hc]
    rw [if_neg (by simp)]
    simp only [dateLoop_first hpre h]
    rfl
  case timeStr hc h =>
    refine ⟨_, seen_same hw, fun env τ hp => ?_⟩
    unfold Lex.kindParse
    rw [hk]
    simp only
    unfold Lex.timeParse
    rw [T.onPath_eq hp hx.value]
    simp only
    rw [T.onPath_eq (r := r) rfl (hx.str _ rfl), hc]
    simp only [h]
    rfl
  case datetimeStr spec x hc h =>
    refine ⟨_, seen_same hw, fun env τ hp => ?_⟩
    unfold Lex.kindParse
    rw [hk]
    simp only
    unfold Lex.datetimeParse
    rw [T.onPath_eq hp hx.value]
    simp only
    rw [T.onPath_eq (r := r) rfl (hx.str _ rfl), hc]
    unfold datetimeOf at h
    by_cases hs : spec = "iso8601"
    · simp only [hs, if_true] at h ⊢
      simp only [h]
      rfl
    · simp only [hs, if_false] at h ⊢
      simp only [h]
      rfl

theorem dateValidate_spec {c : DateCfg} {t : ExtTy} {d : Int} (hb : WindowOf c t) :
    (InWindow c t d → Lex.dateValidate I L c (.ext t d) = T.pure true) ∧
    (¬ InWindow c t d → ∃ msg, Lex.dateValidate I L c (.ext t d) = Lex.rejectWith I msg) := by
  have hlo : ∃ p, boundBad (fun v b => pyLt L v b) c.after (.ext t d) = .ok p ∧
      (p = false ↔ ∀ n, c.after = some (.ext t n) → n ≤ d) := by
    unfold boundBad
    cases h : c.after with
    | none => exact ⟨false, rfl, by simp⟩
    | some lo =>
      obtain ⟨n, rfl⟩ := hb.after lo h
      exact ⟨decide (d < n), by simp [pyLt], by simp⟩
  have hhi : ∃ p, boundBad (fun v b => pyLt L b v) c.before (.ext t d) = .ok p ∧
      (p = false ↔ ∀ n, c.before = some (.ext t n) → d ≤ n) := by
    unfold boundBad
    cases h : c.before with
    | none => exact ⟨false, rfl, by simp⟩
    | some lo =>
      obtain ⟨n, rfl⟩ := hb.before lo h
      exact ⟨decide (n < d), by simp [pyLt], by simp⟩
  obtain ⟨a, ha1, ha2⟩ := hlo
  obtain ⟨e, hd1, hd2⟩ := hhi
  unfold Lex.dateValidate Lex.rangeValidate
  rw [ha1, hd1]
  simp only [T.ofExcept_ok_bind]
  cases a with
  | true =>
    simp only [if_true]
    exact ⟨fun h => absurd (ha2.2 h.after) (by simp), fun _ => ⟨_, rfl⟩⟩
  | false =>
    cases e with
    | true =>
      simp only [if_true, Bool.false_eq_true, if_false]
      exact ⟨fun h => absurd (hd2.2 h.before) (by simp), fun _ => ⟨_, rfl⟩⟩
    | false =>
      simp only [Bool.false_eq_true, if_false]
      exact ⟨fun _ => trivial, fun h => absurd ⟨ha2.1 rfl, hd2.1 rfl⟩ h⟩

/-- C54 (partial: the bounds are of the type of the value read, which a `datetime` given to a `Date` field need
not be; see the counterexample).  A `Date`, `Time` or `Datetime` field without hooks, translations and ignored
values that reads the moment `d`: the moment is returned and no error added if it lies between the bounds,
inclusively; otherwise the result is `ERROR` and exactly one `Invalid` error is added. -/
theorem C54_window_partial {c : DateCfg} {v : Val} {t : ExtTy} {d : Int} (sp : Spot I W f s r q text b)
    (hf : HookFree f) (hk : f.kind.window? = some c) (ha : f.core.attachParent = false)
    (ht : f.core.translations = []) (hi : (Val.ext t d).inList f.core.ignores = false) (hx : Holds I q v)
    (hr : Reads L f.kind v t d) (hb : WindowOf c t) :
    (InWindow c t d → Accepts (mapFieldF I L C rec f .NONE) s (.ext t d)) ∧
    (¬ InWindow c t d → Rejects (mapFieldF I L C rec f .NONE) s f text r) := by
  have hleaf : f.kind.leaf = true := by
    cases h : f.kind <;> rw [h] at hk <;> simp [Kind.window?] at hk <;> rfl
  have hval : Lex.kindValidate I L f (.ext t d) = Lex.dateValidate I L c (.ext t d) := by
    rw [kindValidate_nonnull rfl]
    cases h : f.kind <;> rw [h] at hk <;> simp [Kind.window?] at hk <;> rw [hk]
  obtain ⟨q2, hs, hparse⟩ := hr.parse (r := r) sp.wf hx
  obtain ⟨hok, hbad⟩ := dateValidate_spec (I := I) (L := L) (d := d) hb
  refine ⟨fun h => ?_, fun h => ?_⟩
  · refine sp.accepts hf hleaf ha (starts_accept hf sp.wf hx.present ht rfl hi hs (hparse _) ?_)
    intro τ _ _
    rw [hval, hok h]
    rfl
  · obtain ⟨msg, hm⟩ := hbad h
    exact ⟨msg, sp.adds hf hleaf ha (starts_reject hf sp.wf hx.present ht rfl hi hs sp.text sp.collect
      (innerEnv_field _ _) (hparse _) (hval.trans hm))⟩

section
open Demo

/-- `Date(after=date(5), before=date(7))`: both bounds are inside. -/
def dateField : Field :=
  field "a" (.date { after := some (.ext .date 5), before := some (.ext .date 7), format := ["%Y"] })

theorem dateField_window : WindowOf { after := some (.ext .date 5), before := some (.ext .date 7), format := ["%Y"] }
    .date := ⟨by rintro _ ⟨⟩; exact ⟨_, rfl⟩, by rintro _ ⟨⟩; exact ⟨_, rfl⟩⟩

example (rec : Rec SPath) : Accepts (mapFieldF (SPath.ops lib) lib classes rec dateField .NONE)
    (here (SPath.ops lib) (.dict [(.str "a", .ext .date 7)])) (.ext .date 7) :=
  (C54_window_partial (here_spot lib _ _ rfl (by intro _ h; cases h)) (free _ _ (by intro _ _ _ _ _ h; cases h)) rfl
    rfl rfl rfl (holds_dflt (v := .ext .date 7) rfl rfl (by decide +kernel)) (.date 7) dateField_window).1
    ⟨by rintro n ⟨⟩; decide, by rintro n ⟨⟩; decide⟩

example (rec : Rec SPath) : Rejects (mapFieldF (SPath.ops lib) lib classes rec dateField .NONE)
    (here (SPath.ops lib) (.dict [(.str "a", .ext .date 8)])) dateField "a" 0 :=
  (C54_window_partial (here_spot lib _ _ rfl (by intro _ h; cases h)) (free _ _ (by intro _ _ _ _ _ h; cases h)) rfl
    rfl rfl rfl (holds_dflt (v := .ext .date 8) rfl rfl (by decide +kernel)) (.date 8) dateField_window).2
    fun h => absurd (h.before 7 rfl) (by decide)

/-- A library that reads years. -/
def yearLib : Lib := { lib with strptimeDate := fun spec x => if spec = "%Y" && x = "1970" then some 6 else none }

example (rec : Rec SPath) : Accepts (mapFieldF (SPath.ops yearLib) yearLib classes rec
      (field "a" (.date { before := some (.ext .date 6), format := ["%m", "%Y"] })) .NONE)
    (here (SPath.ops yearLib) (.dict [(.str "a", .str "1970")])) (.ext .date 6) :=
  (C54_window_partial (here_spot yearLib _ _ rfl (by intro _ h; cases h)) (free _ _ (by intro _ _ _ _ _ h; cases h)) rfl
    rfl rfl rfl (holds_dflt (v := .str "1970") rfl rfl (by decide +kernel))
    (.dateStr (pre := ["%m"]) (post := []) (spec := "%Y") rfl
      (by intro spec h; simp at h; subst h; decide +kernel) (by decide +kernel))
    ⟨(by intro _ h; cases h), by rintro _ ⟨⟩; exact ⟨_, rfl⟩⟩).1
    ⟨(by intro n h; cases h), by rintro n ⟨⟩; decide⟩

/-- C54 fails when a `datetime`, which a `Date` field takes as it is (a `datetime` is a `date`), meets a `date`
bound: the comparison raises and the exception leaves `map`. -/
theorem C54_datetime_counterexample :
    (mapAt dateField (.dict [(.str "a", .ext .datetime 6)])).1 = .error (.typeError "unorderable types") := by
  decide +kernel

end

end Pilo
