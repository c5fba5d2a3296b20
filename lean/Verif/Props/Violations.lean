import Verif.Props.Container

/-!
# C82: a value that is rejected is told why

`pilo/fields.py:525-531,729-765,792-806,936-943,975-982,1019-1026,1128-1139,1174-1190`.  `Violates L f v msg` says, class by
class, what the first constraint is that `v` breaks, and the text for it.  It is stated with the configuration of the field
only; the theorems say that this text is what the error reported carries.
-/

namespace Pilo
variable {P : Type} {I : PathOps P} {L : Lib} {W : LawfulPath I} {C : Classes} {rec : Rec P}
  {f : Field} {s : St P} {r : Nat} {q : P} {text : String} {b : ErrBuf}

/-! ## The texts -/

namespace Violation

/-- The characters of the string that are not in the alphabet, from left to right. -/
def foreign (c : StrCfg) (x : String) : List String :=
  (x.toList.map fun ch => String.ofList [ch]).filter fun t => decide (t ∉ c.alphabet)

/-- Every character is in the alphabet, if there is one. -/
def Spelt (c : StrCfg) (x : String) : Prop := c.alphabet = [] ∨ foreign c x = []

/-- The lengths allowed. -/
def Sized (lo hi : Option Nat) (n : Nat) : Prop := (∀ l, lo = some l → l ≤ n) ∧ ∀ h, hi = some h → n ≤ h

/-- The text of a list of choices. -/
def listed (L : Lib) : List Val → String
  | [] => ""
  | [y] => "\"" ++ L.fmt y ++ "\""
  | y :: ys => "\"" ++ L.fmt y ++ "\", " ++ listed L ys

/-- A string `x` breaks a constraint of a `String` field; `more` are the values translated to. -/
inductive OfString (L : Lib) (c : StrCfg) (more : List Val) (x : String) : String → Prop
  | chars (ha : c.alphabet ≠ []) (hx : foreign c x ≠ []) :
      OfString L c more x ("has invalid characters \"" ++ L.joinSet (foreign c x) ++ "\"")
  | short {n : Nat} (ha : Spelt c x) (hn : c.minLength = some n) (hx : x.length < n) :
      OfString L c more x ("\"" ++ L.fmt (.str x) ++ "\" must have length >= " ++ toString n)
  | long {n : Nat} (ha : Spelt c x) (hs : Sized c.minLength none x.length) (hn : c.maxLength = some n) (hx : n < x.length) :
      OfString L c more x ("\"" ++ L.fmt (.str x) ++ "\" must have length <= " ++ toString n)
  | pattern {m : String → Bool} {t : String} (ha : Spelt c x) (hs : Sized c.minLength c.maxLength x.length)
      (hp : c.pattern = some (m, t)) (hx : m x = false) :
      OfString L c more x ("\"" ++ L.fmt (.str x) ++ "\" must match pattern \"" ++ t ++ "\"")
  | choice {y : Val} (ha : Spelt c x) (hs : Sized c.minLength c.maxLength x.length)
      (hp : ∀ m t, c.pattern = some (m, t) → m x = true) (hc : c.choices = [y]) (hx : Val.str x ∉ y :: more) :
      OfString L c more x ("\"" ++ L.fmt (.str x) ++ "\" is not \"" ++ L.fmt y ++ "\"")
  | choices (ha : Spelt c x) (hs : Sized c.minLength c.maxLength x.length)
      (hp : ∀ m t, c.pattern = some (m, t) → m x = true) (hc : 2 ≤ c.choices.length) (hx : Val.str x ∉ c.choices ++ more) :
      OfString L c more x ("\"" ++ L.fmt (.str x) ++ "\" is not one of " ++ listed L c.choices)

/-- A bound is a number, other than `nan`. -/
def IsNum (b : Val) (y : Num) : Prop := b.num? = some y ∧ y ≠ .nan

/-- A number breaks a bound. -/
inductive OfNumber (L : Lib) (c : NumCfg) (v : Val) : String → Prop
  | small {lo : Val} {x y : Num} (hv : IsNum v x) (hc : c.min = some lo) (hl : IsNum lo y) (hx : ¬ y.Le x) :
      OfNumber L c v ("\"" ++ L.fmt v ++ "\" must be >= " ++ L.fmt lo)
  | large {hi : Val} {x y : Num} (hv : IsNum v x) (hm : ∀ lo, c.min = some lo → ∃ y, IsNum lo y ∧ y.Le x)
      (hc : c.max = some hi) (hl : IsNum hi y) (hx : ¬ x.Le y) :
      OfNumber L c v ("\"" ++ L.fmt v ++ "\" must be <= " ++ L.fmt hi)

/-- A moment breaks a bound of its type. -/
inductive OfMoment (L : Lib) (c : DateCfg) (t : ExtTy) (d : Int) : String → Prop
  | early {n : Int} (hc : c.after = some (.ext t n)) (hd : d < n) : OfMoment L c t d ("Must be after " ++ L.fmt (.ext t n))
  | late {n : Int} (ha : ∀ b, c.after = some b → ∃ m, b = .ext t m ∧ m ≤ d) (hc : c.before = some (.ext t n)) (hd : n < d) :
      OfMoment L c t d ("Must be before " ++ L.fmt (.ext t n))

/-- A list has the wrong number of items. -/
inductive OfList (lo hi : Option Nat) (n : Nat) : String → Prop
  | few {l : Nat} (h : lo = some l) (hn : n < l) : OfList lo hi n ("Must have " ++ toString l ++ " or more items")
  | many {h : Nat} (hl : ∀ l, lo = some l → l ≤ n) (hh : hi = some h) (hn : h < n) :
      OfList lo hi n ("Must have " ++ toString h ++ " or fewer items")

/-- A dict lacks a key, or has too many. -/
inductive OfDict (L : Lib) (ks : List Val) (mx : Option Nat) (kvs : List (Val × Val)) : String → Prop
  | lacks {t : String} {ms : List Val} (hm : ms = ks.filter fun k => decide (∀ e ∈ kvs, k.pyEq e.1 = false)) (h0 : ms ≠ [])
      (ht : L.joinKeys ms = some t) : OfDict L ks mx kvs ("Missing required keys " ++ t)
  | many {m : Nat} (hk : ∀ k ∈ ks, ∃ e ∈ kvs, k.pyEq e.1 = true) (hm : mx = some m) (h0 : m ≠ 0) (hn : m < kvs.length) :
      OfDict L ks mx kvs ("Cannot have more than " ++ toString m ++ " key(s)")

end Violation

open Violation

/-- The first constraint of the field that the value breaks, in words. -/
inductive Violates (L : Lib) (f : Field) : Val → String → Prop
  | null (h : f.core.nullable.truthy = false) : Violates L f .none "not nullable"
  | string {c : StrCfg} {x msg : String} (hk : f.kind = .string c) (h : OfString L c (f.core.translations.map Prod.snd) x msg) :
      Violates L f (.str x) msg
  | number {c : NumCfg} {v : Val} {msg : String} (hk : f.kind = .integer c ∨ f.kind = .float c ∨ f.kind = .decimal c)
      (h : OfNumber L c v msg) : Violates L f v msg
  | moment {c : DateCfg} {t : ExtTy} {d : Int} {msg : String} (hk : f.kind.window? = some c) (h : OfMoment L c t d msg) :
      Violates L f (.ext t d) msg
  | list {g : Field} {lo hi : Option Nat} {allow : Bool} {xs : List Val} {msg : String} (hk : f.kind = .list g lo hi allow)
      (h : OfList lo hi xs.length msg) : Violates L f (.list xs) msg
  | dict {kf vf : Field} {kfl : Option (Hook (Val → Prog))} {req : Required} {ks : List Val} {mx : Option Nat}
      {kvs : List (Val × Val)} {msg : String} (hk : f.kind = .dict kf vf kfl req mx) (hr : req.Asks ks)
      (h : OfDict L ks mx kvs msg) : Violates L f (.dict kvs) msg

/-! ## `_validate` reports it -/

theorem listed_eq (L : Lib) (ys : List Val) : quoteJoin L ys = listed L ys := by
  unfold quoteJoin
  induction ys with
  | nil => rfl
  | cons y ys ih =>
    cases ys with
    | nil => exact String.intercalate_singleton
    | cons z zs =>
      rw [List.map_cons, List.map_cons, String.intercalate_cons_cons, ← List.map_cons (f := fun c => "\"" ++ L.fmt c ++ "\""), ih]
      simp only [listed, String.append_assoc]
      rfl

theorem badChars_foreign {c : StrCfg} (ha : c.alphabet ≠ []) (x : String) :
    badChars c (.str x) = .ok ((foreign c x).map Val.str) := by
  unfold badChars foreign
  rw [if_neg (by simpa using ha)]
  simp only [iterVals]
  congr 1
  induction x.toList with
  | nil => rfl
  | cons ch cs ih =>
    simp only [List.map_cons, List.filter_cons]
    have : (!(Val.str (String.ofList [ch])).inList (c.alphabet.map Val.str)) = decide (String.ofList [ch] ∉ c.alphabet) := by
      by_cases h : String.ofList [ch] ∈ c.alphabet
      · have := (str_inList (String.ofList [ch]) (c.alphabet.map Val.str)).2 (List.mem_map_of_mem h)
        rw [this]; exact (decide_eq_false (fun h' => h' h)).symm
      · have : (Val.str (String.ofList [ch])).inList (c.alphabet.map Val.str) = false := by
          cases h' : (Val.str (String.ofList [ch])).inList (c.alphabet.map Val.str) with
          | false => rfl
          | true =>
            obtain ⟨y, hy, he⟩ := List.mem_map.1 ((str_inList _ _).1 h')
            cases he
            exact absurd hy h
        rw [this]; exact (decide_eq_true h).symm
    rw [this]
    split
    · simp only [List.map_cons, ih]
    · exact ih

theorem badChars_spelt {c : StrCfg} {x : String} (h : Spelt c x) : badChars c (.str x) = .ok [] := by
  by_cases ha : c.alphabet = []
  · unfold badChars; rw [ha]; rfl
  · rcases h with h | h
    · exact absurd h ha
    · rw [badChars_foreign ha, h]; rfl

theorem strItems_map (xs : List String) : strItems (xs.map Val.str) = .ok xs := by
  induction xs with
  | nil => rfl
  | cons x xs ih => simp only [List.map_cons, strItems, ih]

theorem lenBad_min {lo : Option Nat} {v : Val} {n : Nat} (hv : pyLen v = .ok n) (h : ∀ l, lo = some l → l ≤ n) :
    lenBad lo (fun n b => decide (n < b)) v = .ok false := by
  unfold lenBad
  cases lo with
  | none => rfl
  | some l => simp only [hv]; have := h l rfl; simp; omega

theorem lenBad_max {hi : Option Nat} {v : Val} {n : Nat} (hv : pyLen v = .ok n) (h : ∀ l, hi = some l → n ≤ l) :
    lenBad hi (fun n b => decide (b < n)) v = .ok false := by
  unfold lenBad
  cases hi with
  | none => rfl
  | some l => simp only [hv]; have := h l rfl; simp; omega

theorem OfString.told {c : StrCfg} {x msg : String} (h : OfString L c (f.core.translations.map Prod.snd) x msg) :
    Lex.stringValidate I L f c (.str x) = Lex.rejectWith I msg := by
  have hlen : pyLen (.str x) = .ok x.length := rfl
  unfold Lex.stringValidate
  cases h with
  | chars ha hx =>
    rw [badChars_foreign ha, T.ofExcept_ok_bind]
    have : ((foreign c x).map Val.str).isEmpty = false := by
      cases h : foreign c x with
      | nil => exact absurd h hx
      | cons _ _ => rfl
    simp only [this, Bool.not_false, if_true, strItems_map, T.ofExcept_ok_bind]
  | short ha hn hx =>
    have : lenBad c.minLength (fun n b => decide (n < b)) (.str x) = .ok true := by
      unfold lenBad; rw [hn]; simp only [hlen]; simp [hx]
    simp only [badChars_spelt ha, T.ofExcept_ok_bind, List.isEmpty_nil, Bool.not_true, Bool.false_eq_true, if_false, this,
      if_true]
    rw [hn]; rfl
  | long ha hs hn hx =>
    have : lenBad c.maxLength (fun n b => decide (b < n)) (.str x) = .ok true := by
      unfold lenBad; rw [hn]; simp only [hlen]; simp [hx]
    simp only [badChars_spelt ha, T.ofExcept_ok_bind, List.isEmpty_nil, Bool.not_true, Bool.false_eq_true, if_false,
      lenBad_min hlen hs.1, this, if_true]
    rw [hn]; rfl
  | pattern ha hs hp hx =>
    have : patternOk c (.str x) = .ok false := by unfold patternOk; rw [hp]; simp only [hx]
    simp only [badChars_spelt ha, T.ofExcept_ok_bind, List.isEmpty_nil, Bool.not_true, Bool.false_eq_true, if_false,
      lenBad_min hlen hs.1, lenBad_max hlen hs.2, this, Bool.not_false, if_true, hp, Option.elim_some]
  | choice ha hs hp hc hx =>
    have h1 : patternOk c (.str x) = .ok true := by
      unfold patternOk
      cases h : c.pattern with
      | none => rfl
      | some mt => simp only [hp mt.1 mt.2 h]
    have h2 : (Val.str x).inList (c.choices ++ f.core.translations.map Prod.snd) = false := by
      cases h : (Val.str x).inList (c.choices ++ f.core.translations.map Prod.snd) with
      | false => rfl
      | true => rw [hc] at h; exact absurd ((str_inList _ _).1 h) hx
    simp only [badChars_spelt ha, T.ofExcept_ok_bind, List.isEmpty_nil, Bool.not_true, Bool.false_eq_true, if_false,
      lenBad_min hlen hs.1, lenBad_max hlen hs.2, h1, h2]
    simp only [hc, List.isEmpty_cons, Bool.not_false, Bool.and_self, if_true]
  | choices ha hs hp hc hx =>
    have h1 : patternOk c (.str x) = .ok true := by
      unfold patternOk
      cases h : c.pattern with
      | none => rfl
      | some mt => simp only [hp mt.1 mt.2 h]
    have h2 : (Val.str x).inList (c.choices ++ f.core.translations.map Prod.snd) = false := by
      cases h : (Val.str x).inList (c.choices ++ f.core.translations.map Prod.snd) with
      | false => rfl
      | true => exact absurd ((str_inList _ _).1 h) hx
    simp only [badChars_spelt ha, T.ofExcept_ok_bind, List.isEmpty_nil, Bool.not_true, Bool.false_eq_true, if_false,
      lenBad_min hlen hs.1, lenBad_max hlen hs.2, h1, h2]
    cases hy : c.choices with
    | nil => rw [hy] at hc; simp at hc
    | cons y ys =>
      cases ys with
      | nil => rw [hy] at hc; simp at hc
      | cons z zs =>
        simp only [List.isEmpty_cons, Bool.not_false, Bool.and_self, if_true, listed_eq]

theorem OfNumber.told {c : NumCfg} {v : Val} {msg : String} (h : OfNumber L c v msg) :
    Lex.numberValidate I L c v = Lex.rejectWith I msg := by
  have lt : ∀ {a b : Val} {x y : Num}, IsNum a x → IsNum b y → ¬ y.Le x → pyLt L a b = .ok true := by
    intro a b x y ha hb h
    rw [pyLt_num ha.1 hb.1 ha.2 hb.2]
    cases h' : x.lt y with
    | true => rfl
    | false => exact absurd ((Num.not_lt ha.2 hb.2).1 h') h
  have ge : ∀ {a b : Val} {x y : Num}, IsNum a x → IsNum b y → y.Le x → pyLt L a b = .ok false := by
    intro a b x y ha hb h
    rw [pyLt_num ha.1 hb.1 ha.2 hb.2, (Num.not_lt ha.2 hb.2).2 h]
  unfold Lex.numberValidate Lex.rangeValidate
  cases h with
  | small hv hc hl hx =>
    have : boundBad (fun v b => pyLt L v b) c.min v = .ok true := by
      unfold boundBad; rw [hc]; exact lt hv hl hx
    simp only [this, T.ofExcept_ok_bind, if_true]
    rw [hc]; rfl
  | large hv hm hc hl hx =>
    have h1 : boundBad (fun v b => pyLt L v b) c.min v = .ok false := by
      unfold boundBad
      cases h : c.min with
      | none => rfl
      | some lo =>
        obtain ⟨y, hy, hle⟩ := hm lo h
        exact ge hv hy hle
    have h2 : boundBad (fun v b => pyLt L b v) c.max v = .ok true := by
      unfold boundBad; rw [hc]; exact lt hl hv hx
    simp only [h1, h2, T.ofExcept_ok_bind, Bool.false_eq_true, if_false, if_true]
    rw [hc]; rfl

theorem OfMoment.told {c : DateCfg} {t : ExtTy} {d : Int} {msg : String} (h : OfMoment L c t d msg) :
    Lex.dateValidate I L c (.ext t d) = Lex.rejectWith I msg := by
  unfold Lex.dateValidate Lex.rangeValidate
  cases h with
  | early hc hd =>
    have : boundBad (fun v b => pyLt L v b) c.after (.ext t d) = .ok true := by
      unfold boundBad; rw [hc]; simp [pyLt, hd]
    simp only [this, T.ofExcept_ok_bind, if_true]
    rw [hc]; rfl
  | late ha hc hd =>
    have h1 : boundBad (fun v b => pyLt L v b) c.after (.ext t d) = .ok false := by
      unfold boundBad
      cases h : c.after with
      | none => rfl
      | some lo =>
        obtain ⟨m, rfl, hle⟩ := ha lo h
        simp [pyLt, hle]
    have h2 : boundBad (fun v b => pyLt L b v) c.before (.ext t d) = .ok true := by
      unfold boundBad; rw [hc]; simp [pyLt, hd]
    simp only [h1, h2, T.ofExcept_ok_bind, Bool.false_eq_true, if_false, if_true]
    rw [hc]; rfl

theorem OfList.told {lo hi : Option Nat} {xs : List Val} {msg : String} (h : OfList lo hi xs.length msg) :
    Lex.listValidate I lo hi (.list xs) = Lex.rejectWith I msg := by
  have hlen : pyLen (.list xs) = .ok xs.length := rfl
  unfold Lex.listValidate
  cases h with
  | few h hn =>
    have : lenBad lo (fun n b => decide (n < b)) (.list xs) = .ok true := by
      unfold lenBad; rw [h]; simp only [hlen]; simp [hn]
    simp only [this, T.ofExcept_ok_bind, if_true]
    rw [h]; rfl
  | many hl hh hn =>
    have : lenBad hi (fun n b => decide (b < n)) (.list xs) = .ok true := by
      unfold lenBad; rw [hh]; simp only [hlen]; simp [hn]
    simp only [lenBad_min hlen hl, this, T.ofExcept_ok_bind, Bool.false_eq_true, if_false, if_true]
    rw [hh]; rfl

theorem OfDict.told {req : Required} {ks : List Val} {mx : Option Nat} {kvs : List (Val × Val)} {msg : String}
    (hr : req.Asks ks) (h : OfDict L ks mx kvs msg) : Lex.dictValidate I L req mx (.dict kvs) = Lex.rejectWith I msg := by
  have hin : ∀ k : Val, (!k.inList (kvs.map Prod.fst)) = decide (∀ e ∈ kvs, k.pyEq e.1 = false) := by
    intro k
    unfold Val.inList
    rw [List.any_map, Bool.eq_iff_iff]
    simp
  have hmiss : missingKeys req (.dict kvs) = .ok (ks.filter fun k => decide (∀ e ∈ kvs, k.pyEq e.1 = false)) := by
    cases hr with
    | nothing => rfl
    | set ks =>
      cases ks with
      | nil => rfl
      | cons a as =>
        show Except.ok ((a :: as).filter fun k => !(k.inList (kvs.map Prod.fst))) = _
        congr 1
        exact List.filter_congr fun k _ => hin k
  unfold Lex.dictValidate
  rw [hmiss]
  simp only [T.ofExcept_ok_bind]
  cases h with
  | lacks hm h0 ht =>
    cases ms0 : (ks.filter fun k => decide (∀ e ∈ kvs, k.pyEq e.1 = false)) with
    | nil => exact absurd (hm.trans ms0) h0
    | cons x xs =>
      rw [hm, ms0] at ht
      simp only [List.isEmpty_cons, Bool.not_false, if_true, ht]
  | many hk hm h0 hn =>
    have : ks.filter (fun k => decide (∀ e ∈ kvs, k.pyEq e.1 = false)) = [] := by
      rw [List.filter_eq_nil_iff]
      intro k hk'
      obtain ⟨e, he, h⟩ := hk k hk'
      rw [decide_eq_true_eq]
      intro hall
      rw [hall e he] at h
      cases h
    rw [this, hm]
    simp only [List.isEmpty_nil, Bool.not_true, Bool.false_eq_true, if_false]
    rename_i m
    cases m with
    | zero => exact absurd rfl h0
    | succ m =>
      rw [show pyLen (.dict kvs) = .ok kvs.length from rfl]
      simp only [T.ofExcept_ok_bind]
      rw [if_pos hn]

/-- `_validate` reports the violation. -/
theorem Violates.told {v : Val} {msg : String} (h : Violates L f v msg) :
    Lex.kindValidate I L f v = Lex.rejectWith I msg := by
  cases h with
  | null h =>
    unfold Lex.kindValidate Lex.baseValidate Lex.rejectWith
    simp only [Val.isNull, h, Bool.not_false, Bool.and_self, if_true, T.bind_assoc, T.pure_bind]
  | string hk h => rw [kindValidate_nonnull rfl, hk]; exact OfString.told h
  | number hk h =>
    have hn : v.isNull = false := by
      have : ∃ x, v.num? = some x := by
        cases h with
        | small hv _ _ _ => exact ⟨_, hv.1⟩
        | large hv _ _ _ _ => exact ⟨_, hv.1⟩
      obtain ⟨x, hx⟩ := this
      cases v <;> first | rfl | cases hx
    rw [kindValidate_nonnull hn]
    rcases hk with hk | hk | hk <;> rw [hk] <;> exact OfNumber.told h
  | moment hk h =>
    rw [kindValidate_nonnull rfl]
    cases hf : f.kind <;> rw [hf] at hk <;> simp [Kind.window?] at hk <;> subst hk <;> exact OfMoment.told h
  | list hk h => rw [kindValidate_nonnull rfl, hk]; exact OfList.told h
  | dict hk hr h => rw [kindValidate_nonnull rfl, hk]; exact OfDict.told hr h

/-! ## There is one text, and there is one exactly when the value is bad -/

theorem rejectWith_inj {m1 m2 : String} (h : Lex.rejectWith (SPath.ops L) m1 = Lex.rejectWith (SPath.ops L) m2) : m1 = m2 := by
  have run : ∀ m, ∃ t, Lex.rejectWith (SPath.ops L) m { src := none, form := none, parent := none, tags := none, ignoreDefault := none, ignoreMissing := none, field := some none }
      { path := some (some (0, (SPath.ops L).native .none none)), errs := some { raising := false, items := [] }, forms := [], npaths := 0 } =
        (.ok false, t) ∧ t.errs = some { raising := false, items :=
          [{ kind := .invalid m, path := "", field := none, pathRef := some 0 }] } :=
    fun m => ⟨_, rejectWith_run m rfl rfl rfl rfl rfl, rfl⟩
  obtain ⟨t1, h1, e1⟩ := run m1
  obtain ⟨t2, h2, e2⟩ := run m2
  rw [h, h2] at h1
  cases h1
  rw [e2] at e1
  simp at e1
  exact e1.symm

/-- No value is told two things. -/
theorem Violates.unique {v : Val} {m1 m2 : String} (h1 : Violates L f v m1) (h2 : Violates L f v m2) : m1 = m2 :=
  rejectWith_inj ((h1.told (I := SPath.ops L)).symm.trans h2.told)

theorem spelt_iff {c : StrCfg} {x : String} :
    Spelt c x ↔ (c.alphabet ≠ [] → ∀ ch ∈ x.toList, String.ofList [ch] ∈ c.alphabet) := by
  unfold Spelt foreign
  by_cases ha : c.alphabet = []
  · simp [ha]
  · simp only [ha, false_or, ne_eq, not_false_eq_true, true_implies, List.filter_eq_nil_iff, List.mem_map, decide_eq_true_eq,
      Decidable.not_not]
    exact ⟨fun h ch hch => h _ ⟨ch, hch, rfl⟩, fun h t ⟨ch, hch, e⟩ => e ▸ h ch hch⟩

/-- A string breaks a constraint exactly when it is not one the field accepts (C12). -/
theorem ofString_iff {c : StrCfg} {ts : List (Val × Val)} {x : String} :
    (∃ msg, OfString L c (ts.map Prod.snd) x msg) ↔ ¬ StringOK (c.widen ts) x := by
  constructor
  · rintro ⟨msg, h⟩ ok
    cases h with
    | chars ha hx =>
      rcases spelt_iff.2 ok.alphabet with h | h
      · exact ha h
      · exact hx h
    | short _ hn hx => have := ok.min _ hn; omega
    | long _ _ hn hx => have := ok.max _ hn; omega
    | pattern _ _ hp hx => rw [ok.pattern _ _ hp] at hx; cases hx
    | choice _ _ _ hc hx =>
      have := ok.choices
      unfold StrCfg.widen at this
      simp only [hc] at this
      exact hx (this (by simp))
    | choices _ _ _ hc hx =>
      have := ok.choices
      unfold StrCfg.widen at this
      have hne : c.choices ≠ [] := by intro h; rw [h] at hc; simp at hc
      simp only [hne, if_false] at this
      exact hx (this (by simp [hne]))
  · intro hbad
    by_cases ha : Spelt c x
    · by_cases hmin : ∀ l, c.minLength = some l → l ≤ x.length
      · by_cases hmax : ∀ l, c.maxLength = some l → x.length ≤ l
        · by_cases hp : ∀ m t, c.pattern = some (m, t) → m x = true
          · by_cases hc : c.choices = []
            · refine absurd ⟨spelt_iff.1 ha, hmin, hmax, hp, ?_⟩ hbad
              unfold StrCfg.widen
              simp [hc]
            · have hx : Val.str x ∉ c.choices ++ ts.map Prod.snd := by
                intro h
                refine hbad ⟨spelt_iff.1 ha, hmin, hmax, hp, fun _ => ?_⟩
                unfold StrCfg.widen
                simpa only [hc, if_false] using h
              cases hy : c.choices with
              | nil => exact absurd hy hc
              | cons y ys =>
                cases ys with
                | nil => exact ⟨_, .choice ha ⟨hmin, hmax⟩ hp hy (by rw [hy] at hx; exact hx)⟩
                | cons z zs => exact ⟨_, .choices ha ⟨hmin, hmax⟩ hp (by rw [hy]; simp) hx⟩
          · cases h : c.pattern with
            | none => exact absurd (by intro m t h'; rw [h] at h'; cases h') hp
            | some mt =>
              refine ⟨_, .pattern (m := mt.1) (t := mt.2) ha ⟨hmin, hmax⟩ h ?_⟩
              cases hb : mt.1 x with
              | false => rfl
              | true => exact absurd (by intro m t h'; rw [h] at h'; cases h'; exact hb) hp
        · cases h : c.maxLength with
          | none => exact absurd (by intro l h'; rw [h] at h'; cases h') hmax
          | some n =>
            refine ⟨_, .long ha ⟨hmin, (by intro _ h; cases h)⟩ h ?_⟩
            apply Nat.lt_of_not_le
            intro hle
            exact hmax (by intro l h'; rw [h] at h'; cases h'; exact hle)
      · cases h : c.minLength with
        | none => exact absurd (by intro l h'; rw [h] at h'; cases h') hmin
        | some n =>
          refine ⟨_, .short ha h ?_⟩
          apply Nat.lt_of_not_le
          intro hle
          exact hmin (by intro l h'; rw [h] at h'; cases h'; exact hle)
    · refine ⟨_, .chars (fun h => ha (.inl h)) (fun h => ha (.inr h))⟩

/-- A number breaks a bound exactly when it is not in the range (C13). -/
theorem ofNumber_iff {c : NumCfg} {v : Val} {x : Num} (hb : BoundsOK c) (hv : v.num? = some x) (hx : x ≠ .nan) :
    (∃ msg, OfNumber L c v msg) ↔ ¬ InRange c x := by
  constructor
  · rintro ⟨msg, h⟩ ok
    cases h with
    | small hv' hc hl h =>
      have := hv'.1
      rw [hv] at this
      cases this
      exact h (ok.min _ _ hc hl.1)
    | large hv' _ hc hl h =>
      have := hv'.1
      rw [hv] at this
      cases this
      exact h (ok.max _ _ hc hl.1)
  · intro hbad
    by_cases hmin : ∀ lo y, c.min = some lo → lo.num? = some y → y.Le x
    · cases h : c.max with
      | none => exact absurd ⟨hmin, fun hi y h' => by rw [h] at h'; cases h'⟩ hbad
      | some hi =>
        obtain ⟨y, hy, hn⟩ := hb.max hi h
        refine ⟨_, .large ⟨hv, hx⟩ (fun lo hlo => ?_) h ⟨hy, hn⟩ fun hle => ?_⟩
        · obtain ⟨z, hz, hzn⟩ := hb.min lo hlo
          exact ⟨z, ⟨hz, hzn⟩, hmin lo z hlo hz⟩
        · refine hbad ⟨hmin, fun hi' y' h1 h2 => ?_⟩
          rw [h] at h1
          cases h1
          rw [hy] at h2
          cases h2
          exact hle
    · cases h : c.min with
      | none => exact absurd (by intro lo y h'; rw [h] at h'; cases h') hmin
      | some lo =>
        obtain ⟨y, hy, hn⟩ := hb.min lo h
        refine ⟨_, .small ⟨hv, hx⟩ h ⟨hy, hn⟩ fun hle => ?_⟩
        refine hmin fun lo' y' h1 h2 => ?_
        rw [h] at h1
        cases h1
        rw [hy] at h2
        cases h2
        exact hle

/-- A moment breaks a bound exactly when it is not in the window (C54). -/
theorem ofMoment_iff {c : DateCfg} {t : ExtTy} {d : Int} (hb : WindowOf c t) :
    (∃ msg, OfMoment L c t d msg) ↔ ¬ InWindow c t d := by
  constructor
  · rintro ⟨msg, h⟩ ok
    cases h with
    | early hc hd => have := ok.after _ hc; omega
    | late _ hc hd => have := ok.before _ hc; omega
  · intro hbad
    by_cases ha : ∀ n, c.after = some (.ext t n) → n ≤ d
    · cases h : c.before with
      | none => exact absurd ⟨ha, fun n h' => by rw [h] at h'; cases h'⟩ hbad
      | some hi =>
        obtain ⟨n, rfl⟩ := hb.before hi h
        refine ⟨_, .late (fun b hb' => ?_) h ?_⟩
        · obtain ⟨m, rfl⟩ := hb.after b hb'
          exact ⟨m, rfl, ha m hb'⟩
        · apply Int.lt_of_not_ge
          intro hle
          exact hbad ⟨ha, fun n' h' => by rw [h] at h'; cases h'; exact hle⟩
    · cases h : c.after with
      | none => exact absurd (by intro n h'; rw [h] at h'; cases h') ha
      | some lo =>
        obtain ⟨n, rfl⟩ := hb.after lo h
        refine ⟨_, .early h ?_⟩
        apply Int.lt_of_not_ge
        intro hle
        exact ha (by intro n' h'; rw [h] at h'; cases h'; exact hle)

/-- A list has the wrong number of items exactly when its length is out of bounds (C24). -/
theorem ofList_iff {lo hi : Option Nat} {n : Nat} : (∃ msg, OfList lo hi n msg) ↔ ¬ LenOK lo hi n := by
  constructor
  · rintro ⟨msg, h⟩ ok
    cases h with
    | few h hn => have := ok.1 _ h; omega
    | many _ h hn => have := ok.2 _ h; omega
  · intro hbad
    by_cases hl : ∀ l, lo = some l → l ≤ n
    · cases h : hi with
      | none => exact absurd ⟨hl, fun l h' => by rw [h] at h'; cases h'⟩ hbad
      | some l =>
        refine ⟨_, .many hl rfl ?_⟩
        apply Nat.lt_of_not_le
        intro hle
        exact hbad ⟨hl, fun l' h' => by rw [h] at h'; cases h'; exact hle⟩
    · cases h : lo with
      | none => exact absurd (by intro l h'; rw [h] at h'; cases h') hl
      | some l =>
        refine ⟨_, .few rfl ?_⟩
        apply Nat.lt_of_not_le
        intro hle
        exact hl (by intro l' h'; rw [h] at h'; cases h'; exact hle)

/-- A dict lacks a key or has too many exactly when it is not one the field accepts (C26). -/
theorem ofDict_iff {ks : List Val} {mx : Option Nat} {kvs : List (Val × Val)} (hm : mx ≠ some 0)
    (hj : ∀ ms, ms ≠ [] → ms ⊆ ks → ∃ t, L.joinKeys ms = some t) :
    (∃ msg, OfDict L ks mx kvs msg) ↔ ¬ DictOK ks mx kvs := by
  have hin : ∀ k : Val, k.inList (kvs.map Prod.fst) = true ↔ ∃ e ∈ kvs, k.pyEq e.1 = true := by
    intro k
    unfold Val.inList
    rw [List.any_map]
    simp
  constructor
  · rintro ⟨msg, h⟩ ok
    cases h with
    | lacks hms h0 _ =>
      refine h0 (hms.trans ?_)
      rw [List.filter_eq_nil_iff]
      intro k hk
      obtain ⟨e, he, h⟩ := (hin k).1 (ok.1 k hk)
      rw [decide_eq_true_eq]
      intro hall
      rw [hall e he] at h
      cases h
    | many _ hm' _ hn => have := ok.2 _ hm'; omega
  · intro hbad
    by_cases hk : ∀ k ∈ ks, ∃ e ∈ kvs, k.pyEq e.1 = true
    · cases h : mx with
      | none => exact absurd ⟨fun k h' => (hin k).2 (hk k h'), fun m h' => by rw [h] at h'; cases h'⟩ hbad
      | some m =>
        refine ⟨_, .many hk rfl (fun h0 => hm (by rw [h, h0])) ?_⟩
        apply Nat.lt_of_not_le
        intro hle
        exact hbad ⟨fun k h' => (hin k).2 (hk k h'), fun m' h' => by rw [h] at h'; cases h'; exact hle⟩
    · have h0 : (ks.filter fun k => decide (∀ e ∈ kvs, k.pyEq e.1 = false)) ≠ [] := by
        intro h0
        apply hk
        intro k hk'
        have := (List.filter_eq_nil_iff.1 h0) k hk'
        rw [decide_eq_true_eq] at this
        apply Classical.byContradiction
        intro hno
        apply this
        intro e he
        cases h : k.pyEq e.1 with
        | false => rfl
        | true => exact absurd ⟨e, he, h⟩ hno
      obtain ⟨t, ht⟩ := hj _ h0 (fun _ h => (List.mem_filter.1 h).1)
      exact ⟨_, .lacks rfl h0 ht⟩

/-! ## `field.map` -/

/-- What a field of one of these classes reads from its path. -/
inductive Gets (I : PathOps P) (L : Lib) (q : P) (f : Field) : Val → Prop
  | string {c : StrCfg} {v : Val} (hk : f.kind = .string c) (hp : Present I q) (h : (I.primitive .str (asked I q)).1 = .ok v) :
      Gets I L q f v
  | number {c : NumCfg} {ty : PTy} {v : Val} (hk : f.kind.number? = some (c, ty)) (hp : Present I q)
      (h : (I.primitive ty (asked I q)).1 = .ok v) : Gets I L q f v
  | moment {w : Val} {t : ExtTy} {d : Int} (h : Holds I q w) (hr : Reads L f.kind w t d) : Gets I L q f (.ext t d)

theorem Gets.parse (hw : W.WF q) {v : Val} (h : Gets I L q f v) : f.kind.leaf = true ∧ Present I q ∧
    ∃ q2, Same I W.WF W.shape (asked I q) q2 ∧ ∀ (env : Env) (τ : TSt P), τ.path = some (some (r, asked I q)) →
      Lex.kindParse I L noClasses (Lex.mapField I L noClasses 0) f env τ = (.ok v, { τ with path := some (some (r, q2)) }) := by
  cases h with
  | string hk hp h =>
    refine ⟨by rw [hk]; rfl, hp, _, W.primitive_keys (ty := .str) (asked_same hw).wf, fun env τ hτ => ?_⟩
    unfold Lex.kindParse
    rw [hk]
    exact primitive_parse h hτ
  | @number c ty v hk hp h =>
    refine ⟨?_, hp, _, W.primitive_keys (ty := ty) (asked_same hw).wf, fun env τ hτ => ?_⟩
    · cases h : f.kind <;> rw [h] at hk <;> simp [Kind.number?] at hk <;> rfl
    · unfold Lex.kindParse
      cases hf : f.kind <;> rw [hf] at hk <;> simp [Kind.number?] at hk <;> obtain ⟨rfl, rfl⟩ := hk <;>
        exact primitive_parse h hτ
  | moment h hr =>
    refine ⟨?_, h.present, hr.parse (r := r) hw h⟩
    cases hf : f.kind <;> rw [hf] at hr <;> first | rfl | cases hr

/-- C82.  A field without hooks, translations and ignored values reads `v`, and `v` breaks a constraint: the error reported
says which one it is. -/
theorem C82_read {v : Val} {msg : String} (sp : Spot I W f s r q text b) (hf : HookFree f) (ha : f.core.attachParent = false)
    (ht : f.core.translations = []) (hv : v.isIgnore = false) (hi : v.inList f.core.ignores = false) (hg : Gets I L q f v)
    (h : Violates L f v msg) :
    Adds (mapFieldF I L C rec f .NONE) s .ERROR { kind := .invalid msg, path := text, field := f.name, pathRef := some r } := by
  obtain ⟨hleaf, hpr, q2, hs, hparse⟩ := hg.parse (W := W) (r := r) sp.wf
  exact sp.adds hf hleaf ha (starts_reject hf sp.wf hpr ht hv hi hs sp.text sp.collect (innerEnv_field _ _) (hparse _) h.told)

/-- C82 for a field of any class: the source does not matter but for the value `v` parsed from it (and the errors `b2` of its
parts). -/
theorem C82_parsed {n : Nat} {v : Val} {msg : String} {τ2 : TSt P} {b2 : ErrBuf} (sp : Spot I W f s r q text b)
    (hC : C.All HookFree) (hfa : f.All HookFree) (ha : f.core.attachParent = false) (ht : f.core.translations = [])
    (hi : v.inList f.core.ignores = false) (hv : v.isIgnore = false) (hpr : Present I q)
    (hparse : Lex.kindParse I L C (Lex.mapField I L C n) f (f.innerEnv s.env)
      { s.view with path := some (some (r, asked I q)) } = (.ok v, τ2)) (hb2 : τ2.errs = some b2)
    (h : Violates L f v msg) :
    (mapField I L C (n + 1) f .NONE s).1 = .ok .ERROR ∧
      curErrs (mapField I L C (n + 1) f .NONE s).2 = some { b2 with items := b2.items ++
        [{ kind := .invalid msg, path := text, field := f.name, pathRef := some r }] } :=
  (parsed_checked sp hC hfa ha ht hi hv hpr hparse hb2).2 msg h.told

/-- C82 for a value that is handed to the field (`field.map(value)`, as is done for the keys of a dict), for every class. -/
theorem C82_value {n : Nat} {v : Val} {msg : String} {p : P} (hl : Live s)
    (hp : curPathObj s = some (some (r, p))) (htx : I.render p = .ok text) (hb : curErrs s = some b) (hcol : b.raising = false)
    (hC : C.All HookFree) (hfa : f.All HookFree) (ha : f.core.attachParent = false) (ht : f.core.translations = [])
    (hi : v.inList f.core.ignores = false) (hv : v.isIgnore = false) (h : Violates L f v msg) :
    Adds (mapField I L C (n + 1) f v) s .ERROR { kind := .invalid msg, path := text, field := f.name, pathRef := some r } := by
  have hf := hfa.node
  have hn : v.isNONE = false := by cases v <;> first | rfl | (cases hv)
  have href := Ref.mapField (I := I) (L := L) (hC.imp fun _ => HookFree.lexNode) (n + 1) f v (hfa.imp fun _ => HookFree.lexNode)
  have hrun : ∃ τ, Lex.mapField I L C (n + 1) f v s.env s.view = (.ok .ERROR, τ) ∧ τ.errs = some { b with items := b.items ++
      [{ kind := .invalid msg, path := text, field := f.name, pathRef := some r }] } := by
    refine ⟨{ s.view with errs := some { b with items := b.items ++
      [{ kind := .invalid msg, path := text, field := f.name, pathRef := some r }] } }, ?_, rfl⟩
    show Lex.mapFieldF I L C (Lex.mapField I L C n) f v s.env s.view = _
    unfold Lex.mapFieldF
    have hin : T.withEnv (fun env => { env with field := some f.name, parent := some .field })
        (Lex.fieldMapInner I L C (Lex.mapField I L C n) f v) s.env s.view = (.ok .ERROR, { s.view with errs := some { b with
          items := b.items ++ [{ kind := .invalid msg, path := text, field := f.name, pathRef := some r }] } }) := by
      unfold T.withEnv Lex.fieldMapInner
      simp only [hn, Bool.false_eq_true, if_false]
      rw [fieldCheck_plain hf ht hv hi, h.told]
      exact (T.bind_ok (rejectWith_run msg hp htx hb hcol rfl)).trans rfl
    refine (T.bind_ok hin).trans ?_
    simp only [ha, Bool.false_and, Bool.false_eq_true, if_false]
    rfl
  obtain ⟨τ, h1, h2⟩ := hrun
  obtain ⟨g1, g2, -⟩ := href.run hl
  rw [h1] at g1 g2
  exact ⟨g1, by rw [g2, h2, hb]; rfl⟩

/-! ## Examples -/

section
open Demo

/-- `String(min_length=3, max_length=4, choices=['abc', 'abcd'])` given `"ab"`: too short, and not a choice; it is told the
former. -/
example (rec : Rec SPath) : Adds (mapFieldF (SPath.ops lib) lib classes rec
      (field "a" (.string { minLength := some 3, maxLength := some 4, choices := [.str "abc", .str "abcd"] })) .NONE)
    (here (SPath.ops lib) (.dict [(.str "a", .str "ab")])) .ERROR
    { kind := .invalid "\"ab\" must have length >= 3", path := "a", field := some "a", pathRef := some 0 } :=
  C82_read (here_spot lib _ _ rfl (by intro _ h; cases h)) (free _ _ (by intro _ _ _ _ _ h; cases h)) rfl rfl rfl rfl
    (.string rfl ((settled_dflt (v := .str "ab") (by decide +kernel) rfl).1.present rfl)
      ((settled_dflt (v := .str "ab") (by decide +kernel) rfl).2 .str))
    (.string rfl (.short (n := 3) (.inl rfl) rfl (by decide)))

/-- `Integer(max_value=4)` given `"5"`. -/
example (rec : Rec SPath) : Adds (mapFieldF (SPath.ops lib) lib classes rec
      (field "a" (.integer { min := some (.int 3), max := some (.int 4) })) .NONE)
    (here (SPath.ops lib) (.dict [(.str "a", .str "5")])) .ERROR
    { kind := .invalid "\"5\" must be <= 4", path := "a", field := some "a", pathRef := some 0 } :=
  C82_read (here_spot lib _ _ rfl (by intro _ h; cases h)) (free _ _ (by intro _ _ _ _ _ h; cases h)) rfl rfl
    (v := .int 5) rfl rfl
    (.number rfl ((settled_dflt (v := .str "5") (by decide +kernel) rfl).1.present rfl) (by decide +kernel))
    (.number (c := { min := some (.int 3), max := some (.int 4) }) (.inl rfl) (.large (L := lib) (v := .int 5) (c := { min := some (.int 3), max := some (.int 4) })
      (x := .fin 5) (y := .fin 4) ⟨rfl, by intro h; cases h⟩
      (by intro lo h; cases h; exact ⟨.fin 3, ⟨rfl, by intro h; cases h⟩, by unfold Num.Le; decide +kernel⟩) rfl
      ⟨rfl, by intro h; cases h⟩ (by unfold Num.Le; decide +kernel)))

/-- `List(String(), max_length=1).map(['x', 'y'])` and `Dict(String(), String(), required_keys=['k'], max_keys=1)`. -/
example : Adds (mapField (SPath.ops lib) lib noClasses 3 (field "a" (.list (field "i" (.string {})) none (some 1) false))
      (.list [.str "x", .str "y"])) (here (SPath.ops lib) (.dict [])) .ERROR
    { kind := .invalid "Must have 1 or fewer items", path := "", field := some "a", pathRef := some 0 } :=
  C82_value (here_live _) rfl rfl rfl rfl (by intro cls cd h; cases h)
    (.mk (free _ _ (by intro _ _ _ _ _ h; cases h)) (.list (.mk (free _ _ (by intro _ _ _ _ _ h; cases h)) .string)))
    rfl rfl rfl rfl (.list rfl (.many (by intro l h; cases h) rfl (by decide)))

end

end Pilo
