import Verif.Leaf
import Verif.Props.Loops
import Verif.Props.Parse

/-!
# C11 to C14, C47, C48: what one field accepts and rejects

`Spot` says which path a field reads and that errors are being collected; the theorems say what
`field.map()` returns there and which error it adds.
-/

namespace Pilo
variable {P : Type} {α : Type} {I : PathOps P} {L : Lib} {W : LawfulPath I} {C : Classes} {rec : Rec P}
  {f : Field} {s : St P} {r : Nat} {q : P} {text : String} {b : ErrBuf}

/-! ## From lexical runs to contexts -/

theorem Spot.accepts (sp : Spot I W f s r q text b) (hf : HookFree f) (hk : f.kind.leaf = true)
    (ha : f.core.attachParent = false) {v : Val}
    (h : StartsWith W L noClasses (Lex.mapField I L noClasses 0) f r q (f.innerEnv s.env) b (.ok v) []) :
    Accepts (mapFieldF I L C rec f .NONE) s v := by
  obtain ⟨h1, h2, _⟩ := sp.run hf.resolve ha (leaf_ref (C := C) (rec := rec) hf hk .NONE) h
  exact ⟨h1, by rw [h2, sp.errs]; simp⟩

theorem Spot.adds (sp : Spot I W f s r q text b) (hf : HookFree f) (hk : f.kind.leaf = true)
    (ha : f.core.attachParent = false) {v : Val} {e : Err}
    (h : StartsWith W L noClasses (Lex.mapField I L noClasses 0) f r q (f.innerEnv s.env) b (.ok v) [e]) :
    Adds (mapFieldF I L C rec f .NONE) s v e := by
  obtain ⟨h1, h2, _⟩ := sp.run hf.resolve ha (leaf_ref (C := C) (rec := rec) hf hk .NONE) h
  exact ⟨h1, by rw [h2, sp.errs]; simp⟩

theorem kindValidate_nonnull {v : Val} (hv : v.isNull = false) :
    Lex.kindValidate I L f v = match f.kind with
    | .string c => Lex.stringValidate I L f c v
    | .integer c => Lex.numberValidate I L c v
    | .float c => Lex.numberValidate I L c v
    | .decimal c => Lex.numberValidate I L c v
    | .date c => Lex.dateValidate I L c v
    | .time c => Lex.dateValidate I L c v
    | .datetime c => Lex.dateValidate I L c v
    | .list _ lo hi _ => Lex.listValidate I lo hi v
    | .dict _ _ _ req mx => Lex.dictValidate I L req mx v
    | _ => T.pure true := by
  unfold Lex.kindValidate Lex.baseValidate
  simp only [hv, Bool.false_and, Bool.false_eq_true, if_false, T.pure_bind, Bool.not_true]
  cases f.kind <;> rfl

/-! ## C12 -/

/-- What a `String` field demands of a string. -/
structure StringOK (c : StrCfg) (x : String) : Prop where
  alphabet : c.alphabet ≠ [] → ∀ ch ∈ x.toList, String.ofList [ch] ∈ c.alphabet
  min : ∀ n, c.minLength = some n → n ≤ x.length
  max : ∀ n, c.maxLength = some n → x.length ≤ n
  pattern : ∀ m t, c.pattern = some (m, t) → m x = true
  choices : c.choices ≠ [] → Val.str x ∈ c.choices

theorem str_inList (x : String) (xs : List Val) : (Val.str x).inList xs = true ↔ Val.str x ∈ xs := by
  unfold Val.inList
  rw [List.any_eq_true]
  constructor
  · rintro ⟨y, hy, h⟩
    cases y <;> simp [Val.pyEq] at h
    subst h; exact hy
  · intro h
    exact ⟨_, h, by simp [Val.pyEq]⟩

theorem badChars_str (c : StrCfg) (x : String) : ∃ cs : List Char,
    badChars c (.str x) = .ok (cs.map fun ch => .str (String.ofList [ch])) ∧
      (cs = [] ↔ (c.alphabet ≠ [] → ∀ ch ∈ x.toList, String.ofList [ch] ∈ c.alphabet)) := by
  unfold badChars
  cases ha : c.alphabet with
  | nil => exact ⟨[], rfl, by simp⟩
  | cons a as =>
    refine ⟨x.toList.filter fun ch => !((Val.str (String.ofList [ch])).inList ((a :: as).map Val.str)), ?_, ?_⟩
    · simp only [List.isEmpty_cons, Bool.false_eq_true, if_false, iterVals, List.filter_map]
      rfl
    · have : ∀ ch, (Val.str (String.ofList [ch])).inList ((a :: as).map Val.str) = true ↔
          String.ofList [ch] ∈ a :: as := by
        intro ch; rw [str_inList]; simp
      simp only [List.filter_eq_nil_iff, Bool.not_eq_true', Bool.not_eq_false, this, ne_eq, reduceCtorEq,
        not_false_eq_true, true_implies]

theorem strItems_str (cs : List Char) :
    strItems (cs.map fun ch => Val.str (String.ofList [ch])) = .ok (cs.map fun ch => String.ofList [ch]) := by
  induction cs with
  | nil => rfl
  | cons c cs ih => simp only [List.map_cons, strItems, ih]

/-- The constraints of a `String` field that translates: where there are choices, the values translated to are choices,
too. -/
def StrCfg.widen (c : StrCfg) (ts : List (Val × Val)) : StrCfg :=
  { c with choices := if c.choices = [] then [] else c.choices ++ ts.map Prod.snd }

theorem StrCfg.widen_nil (c : StrCfg) : c.widen [] = c := by
  unfold StrCfg.widen
  rw [List.map_nil, List.append_nil]
  split
  · rename_i h; rw [← h]
  · rfl

/-- `String._validate` decides `StringOK`, reporting one error if it fails. -/
theorem stringValidate_translated (c : StrCfg) (x : String) :
    (StringOK (c.widen f.core.translations) x → Lex.stringValidate I L f c (.str x) = T.pure true) ∧
    (¬ StringOK (c.widen f.core.translations) x → ∃ msg, Lex.stringValidate I L f c (.str x) = Lex.rejectWith I msg) := by
  obtain ⟨cs, hb, hcs⟩ := badChars_str c x
  have hpat : ∃ p, patternOk c (.str x) = .ok p ∧ (p = true ↔ ∀ m t, c.pattern = some (m, t) → m x = true) := by
    unfold patternOk
    cases hp : c.pattern with
    | none => exact ⟨true, rfl, by simp⟩
    | some mt =>
      obtain ⟨m, t⟩ := mt
      refine ⟨m x, rfl, ?_⟩
      constructor
      · rintro h m' t' h'; cases h'; exact h
      · intro h; exact h _ _ rfl
  have hmin : ∃ p, lenBad c.minLength (fun n b => decide (n < b)) (.str x) = .ok p ∧
      (p = false ↔ ∀ n, c.minLength = some n → n ≤ x.length) := by
    unfold lenBad
    cases hp : c.minLength with
    | none => exact ⟨false, rfl, by simp⟩
    | some n => exact ⟨decide (x.length < n), rfl, by simp⟩
  have hmax : ∃ p, lenBad c.maxLength (fun n b => decide (b < n)) (.str x) = .ok p ∧
      (p = false ↔ ∀ n, c.maxLength = some n → x.length ≤ n) := by
    unfold lenBad
    cases hp : c.maxLength with
    | none => exact ⟨false, rfl, by simp⟩
    | some n => exact ⟨decide (n < x.length), rfl, by simp⟩
  obtain ⟨pp, hp1, hp2⟩ := hpat
  obtain ⟨pm, hm1, hm2⟩ := hmin
  obtain ⟨px, hx1, hx2⟩ := hmax
  have hch : (!c.choices.isEmpty && !((Val.str x).inList (c.choices ++ f.core.translations.map Prod.snd))) =
      false ↔ ((c.widen f.core.translations).choices ≠ [] → Val.str x ∈ (c.widen f.core.translations).choices) := by
    unfold StrCfg.widen
    dsimp only
    rw [← str_inList]
    cases h : c.choices with
    | nil => simp
    | cons a as => simp
  unfold Lex.stringValidate
  rw [hb, T.ofExcept_ok_bind]
  by_cases hc0 : cs = []
  · subst hc0
    simp only [List.map_nil, List.isEmpty_nil, Bool.not_true, Bool.false_eq_true, if_false, hm1, hx1, hp1,
      T.ofExcept_ok_bind]
    cases pm with
    | true =>
      simp only [if_true]
      exact ⟨fun h => absurd (hm2.2 h.min) (by simp), fun _ => ⟨_, rfl⟩⟩
    | false =>
      simp only [Bool.false_eq_true, if_false]
      cases px with
      | true =>
        simp only [if_true]
        exact ⟨fun h => absurd (hx2.2 h.max) (by simp), fun _ => ⟨_, rfl⟩⟩
      | false =>
        simp only [Bool.false_eq_true, if_false]
        cases pp with
        | false =>
          simp only [Bool.not_false, if_true]
          exact ⟨fun h => absurd (hp2.2 h.pattern) (by simp), fun _ => ⟨_, rfl⟩⟩
        | true =>
          simp only [Bool.not_true, Bool.false_eq_true, if_false]
          cases hq : (!c.choices.isEmpty &&
              !((Val.str x).inList (c.choices ++ f.core.translations.map Prod.snd))) with
          | false =>
            simp only [Bool.false_eq_true, if_false]
            refine ⟨fun _ => trivial, fun h => absurd ?_ h⟩
            exact ⟨hcs.1 rfl, hm2.1 rfl, hx2.1 rfl, hp2.1 rfl, hch.1 hq⟩
          | true =>
            simp only [if_true]
            refine ⟨fun h => ?_, fun _ => ?_⟩
            · rw [hch.2 h.choices] at hq; cases hq
            · split <;> exact ⟨_, rfl⟩
  · have hne : (List.map (fun ch => Val.str (String.ofList [ch])) cs).isEmpty = false := by
      cases cs with
      | nil => exact absurd rfl hc0
      | cons _ _ => rfl
    simp only [hne, Bool.not_false, if_true, strItems_str, T.ofExcept_ok_bind]
    exact ⟨fun h => absurd (hcs.2 h.alphabet) hc0, fun _ => ⟨_, rfl⟩⟩

theorem stringValidate_spec (c : StrCfg) (x : String) (ht : f.core.translations = []) :
    (StringOK c x → Lex.stringValidate I L f c (.str x) = T.pure true) ∧
    (¬ StringOK c x → ∃ msg, Lex.stringValidate I L f c (.str x) = Lex.rejectWith I msg) := by
  have := stringValidate_translated (I := I) (L := L) (f := f) c x
  rwa [ht, StrCfg.widen_nil] at this

/-- Reading with `I.primitive`, lexically. -/
theorem primitive_parse {ty : PTy} {q0 : P} {res : Except Exc Val} (h : (I.primitive ty q0).1 = res)
    {env : Env} {τ : TSt P} (hp : τ.path = some (some (r, q0))) :
    T.onPath (I.primitive ty) env τ = (res, { τ with path := some (some (r, (I.primitive ty q0).2)) }) := by
  rw [T.onPath_run hp, h]

/-- C12. A `String` field without hooks, translations and ignored values, whose source holds the string `x`:
`x` is returned and no error added if `x` satisfies all configured constraints; otherwise the result is
`ERROR` and exactly one `Invalid` error for this field and path is added. -/
theorem C12_string {c : StrCfg} {x : String} (sp : Spot I W f s r q text b) (hf : HookFree f)
    (hk : f.kind = .string c) (ha : f.core.attachParent = false) (ht : f.core.translations = [])
    (hi : ¬ Val.str x ∈ f.core.ignores) (hpr : Present I q)
    (hx : (I.primitive .str (asked I q)).1 = .ok (.str x)) :
    (StringOK c x → Accepts (mapFieldF I L C rec f .NONE) s (.str x)) ∧
    (¬ StringOK c x → Rejects (mapFieldF I L C rec f .NONE) s f text r) := by
  have hleaf : f.kind.leaf = true := by rw [hk]; rfl
  have hig : (Val.str x).inList f.core.ignores = false := by
    cases h : (Val.str x).inList f.core.ignores with
    | false => rfl
    | true => exact absurd ((str_inList _ _).1 h) hi
  have hs := W.primitive_keys (ty := .str) (asked_same sp.wf).wf
  have hv := kindValidate_nonnull (I := I) (L := L) (f := f) (v := .str x) rfl
  rw [hk] at hv
  dsimp only at hv
  have hparse : ∀ (env : Env) (τ : TSt P), τ.path = some (some (r, asked I q)) →
      Lex.kindParse I L noClasses (Lex.mapField I L noClasses 0) f env τ = (.ok (.str x),
        { τ with path := some (some (r, (I.primitive .str (asked I q)).2)) }) := by
    intro env τ hp
    unfold Lex.kindParse
    rw [hk]
    exact primitive_parse hx hp
  obtain ⟨hok, hbad⟩ := stringValidate_spec (I := I) (L := L) c x ht
  refine ⟨fun h => ?_, fun h => ?_⟩
  · refine sp.accepts hf hleaf ha (starts_accept hf sp.wf hpr ht rfl hig hs (hparse _) ?_)
    intro τ _ _
    rw [hv, hok h]
    rfl
  · obtain ⟨msg, hm⟩ := hbad h
    exact ⟨msg, sp.adds hf hleaf ha (starts_reject hf sp.wf hpr ht rfl hig hs sp.text sp.collect
      (innerEnv_field _ _) (hparse _) (hv.trans hm))⟩

/-! ## C13 -/

/-- `a <= b` for the numbers Python computes with; `nan` is not comparable. -/
def Num.Le : Num → Num → Prop
  | .fin a, .fin b => a ≤ b
  | .nan, _ => False
  | _, .nan => False
  | .inf neg, .fin _ => neg = true
  | .fin _, .inf neg => neg = false
  | .inf a, .inf b => a = true ∨ b = false

/-- The value lies between the configured bounds, inclusively. -/
structure InRange (c : NumCfg) (x : Num) : Prop where
  min : ∀ lo y, c.min = some lo → lo.num? = some y → y.Le x
  max : ∀ hi y, c.max = some hi → hi.num? = some y → x.Le y

/-- The configured bounds are numbers other than `nan`. -/
structure BoundsOK (c : NumCfg) : Prop where
  min : ∀ lo, c.min = some lo → ∃ y, lo.num? = some y ∧ y ≠ .nan
  max : ∀ hi, c.max = some hi → ∃ y, hi.num? = some y ∧ y ≠ .nan

theorem Num.not_lt {x y : Num} (hx : x ≠ .nan) (hy : y ≠ .nan) : x.lt y = false ↔ y.Le x := by
  cases x with
  | nan => exact absurd rfl hx
  | fin a => cases y with
    | nan => exact absurd rfl hy
    | fin b => simp [Num.lt, Num.Le, Rat.not_lt]
    | inf n => cases n <;> simp [Num.lt, Num.Le]
  | inf m => cases y with
    | nan => exact absurd rfl hy
    | fin b => cases m <;> simp [Num.lt, Num.Le]
    | inf n => cases m <;> cases n <;> simp [Num.lt, Num.Le]

theorem pyLt_num {v w : Val} {x y : Num} (hv : v.num? = some x) (hw : w.num? = some y) (hx : x ≠ .nan)
    (hy : y ≠ .nan) : pyLt L v w = .ok (x.lt y) := by
  cases v <;> simp [Val.num?] at hv <;> cases w <;> simp [Val.num?] at hw <;> subst hv <;> subst hw <;>
    first
    | rfl
    | (rename_i a b; cases a <;> cases b <;> first | rfl | exact absurd rfl hx | exact absurd rfl hy)
    | (rename_i a; cases a <;> first | rfl | exact absurd rfl hx | exact absurd rfl hy)
    | (rename_i a _; cases a <;> first | rfl | exact absurd rfl hx | exact absurd rfl hy)

theorem rangeValidate_spec {c : NumCfg} {loMsg hiMsg : Val → Val → String} {v : Val} {x : Num}
    (hb : BoundsOK c) (hv : v.num? = some x) (hx : x ≠ .nan) :
    (InRange c x → Lex.rangeValidate I L c.min c.max loMsg hiMsg v = T.pure true) ∧
    (¬ InRange c x → ∃ msg, Lex.rangeValidate I L c.min c.max loMsg hiMsg v = Lex.rejectWith I msg) := by
  have hlo : ∃ p, boundBad (fun v b => pyLt L v b) c.min v = .ok p ∧
      (p = false ↔ ∀ lo y, c.min = some lo → lo.num? = some y → y.Le x) := by
    unfold boundBad
    cases h : c.min with
    | none => exact ⟨false, rfl, by simp⟩
    | some lo =>
      obtain ⟨y, hy, hn⟩ := hb.min lo h
      refine ⟨x.lt y, pyLt_num hv hy hx hn, ?_⟩
      rw [Num.not_lt hx hn]
      constructor
      · intro h' lo' y' h1 h2; cases h1; rw [hy] at h2; cases h2; exact h'
      · intro h'; exact h' _ _ rfl hy
  have hhi : ∃ p, boundBad (fun v b => pyLt L b v) c.max v = .ok p ∧
      (p = false ↔ ∀ hi y, c.max = some hi → hi.num? = some y → x.Le y) := by
    unfold boundBad
    cases h : c.max with
    | none => exact ⟨false, rfl, by simp⟩
    | some hi =>
      obtain ⟨y, hy, hn⟩ := hb.max hi h
      refine ⟨y.lt x, pyLt_num hy hv hn hx, ?_⟩
      rw [Num.not_lt hn hx]
      constructor
      · intro h' lo' y' h1 h2; cases h1; rw [hy] at h2; cases h2; exact h'
      · intro h'; exact h' _ _ rfl hy
  obtain ⟨a, ha1, ha2⟩ := hlo
  obtain ⟨d, hd1, hd2⟩ := hhi
  unfold Lex.rangeValidate
  rw [ha1, hd1]
  simp only [T.ofExcept_ok_bind]
  cases a with
  | true =>
    simp only [if_true]
    exact ⟨fun h => absurd (ha2.2 h.min) (by simp), fun _ => ⟨_, rfl⟩⟩
  | false =>
    cases d with
    | true =>
      simp only [if_true, Bool.false_eq_true, if_false]
      exact ⟨fun h => absurd (hd2.2 h.max) (by simp), fun _ => ⟨_, rfl⟩⟩
    | false =>
      simp only [Bool.false_eq_true, if_false]
      exact ⟨fun _ => trivial, fun h => absurd ⟨ha2.1 rfl, hd2.1 rfl⟩ h⟩

/-- The options of an `Integer` or `Float` field and how it reads its value. -/
def Kind.number? : Kind → Option (NumCfg × PTy)
  | .integer c => some (c, .int)
  | .float c => some (c, .float)
  | _ => none

/-- C13 (partial: the number is not `nan`). An `Integer` or `Float` field without hooks, translations and
ignored values whose source holds the number `v`: `v` is returned and no error added if `v` is within the
bounds, inclusively; otherwise the result is `ERROR` and exactly one `Invalid` error is added. -/
theorem C13_number_partial {c : NumCfg} {ty : PTy} {v : Val} {x : Num} (sp : Spot I W f s r q text b)
    (hf : HookFree f) (hk : f.kind.number? = some (c, ty)) (ha : f.core.attachParent = false)
    (ht : f.core.translations = []) (hi : v.inList f.core.ignores = false) (hpr : Present I q)
    (hv : (I.primitive ty (asked I q)).1 = .ok v) (hx : v.num? = some x) (hnan : x ≠ .nan)
    (hb : BoundsOK c) :
    (InRange c x → Accepts (mapFieldF I L C rec f .NONE) s v) ∧
    (¬ InRange c x → Rejects (mapFieldF I L C rec f .NONE) s f text r) := by
  have hleaf : f.kind.leaf = true := by
    cases h : f.kind <;> rw [h] at hk <;> simp [Kind.number?] at hk <;> rfl
  have hig : v.isIgnore = false := by cases v <;> first | rfl | (cases hx)
  have hnn : v.isNull = false := by cases v <;> first | rfl | (cases hx)
  have hs := W.primitive_keys (ty := ty) (asked_same sp.wf).wf
  have hval : Lex.kindValidate I L f v = Lex.numberValidate I L c v := by
    rw [kindValidate_nonnull hnn]
    cases h : f.kind <;> rw [h] at hk <;> simp [Kind.number?] at hk <;> rw [hk.1]
  have hparse : ∀ (env : Env) (τ : TSt P), τ.path = some (some (r, asked I q)) →
      Lex.kindParse I L noClasses (Lex.mapField I L noClasses 0) f env τ = (.ok v,
        { τ with path := some (some (r, (I.primitive ty (asked I q)).2)) }) := by
    intro env τ hp
    rw [← primitive_parse hv hp]
    unfold Lex.kindParse
    cases h : f.kind <;> rw [h] at hk <;> simp [Kind.number?] at hk <;> rw [hk.2]
  obtain ⟨hok, hbad⟩ := rangeValidate_spec (I := I) (L := L)
    (loMsg := fun v b => "\"" ++ L.fmt v ++ "\" must be >= " ++ L.fmt b)
    (hiMsg := fun v b => "\"" ++ L.fmt v ++ "\" must be <= " ++ L.fmt b) hb hx hnan
  refine ⟨fun h => ?_, fun h => ?_⟩
  · refine sp.accepts hf hleaf ha (starts_accept hf sp.wf hpr ht hig hi hs (hparse _) ?_)
    intro τ _ _
    rw [hval]
    unfold Lex.numberValidate
    rw [hok h]
    rfl
  · obtain ⟨msg, hm⟩ := hbad h
    exact ⟨msg, sp.adds hf hleaf ha (starts_reject hf sp.wf hpr ht hig hi hs sp.text sp.collect
      (innerEnv_field _ _) (hparse _) (hval.trans hm))⟩

/-! ## C47 and C48: values that cannot be parsed -/

theorem Spot.rejects_raise (sp : Spot I W f s r q text b) (hf : HookFree f) (hk : f.kind.leaf = true)
    (ha : f.core.attachParent = false) (hpr : Present I q) {e : Exc}
    (he : (e.isSourceError || e.isValueError) = true) {q2 : P}
    (hs : Same I W.WF W.shape (asked I q) q2)
    (hparse : ∀ (env : Env) (τ : TSt P), τ.path = some (some (r, asked I q)) →
      Lex.kindParse I L noClasses (Lex.mapField I L noClasses 0) f env τ =
        (.error e, { τ with path := some (some (r, q2)) })) :
    Rejects (mapFieldF I L C rec f .NONE) s f text r :=
  ⟨e.str, sp.adds hf hk ha (starts_raise hf sp.wf hpr he hs sp.text sp.collect (innerEnv_field _ _)
    (hparse _))⟩

/-- The type a field that just reads a primitive asks for. -/
def Kind.prim? : Kind → Option PTy
  | .base => some .auto
  | .string _ => some .str
  | .integer _ => some .int
  | .float _ => some .float
  | .boolean => some .bool
  | _ => none

/-- A value the source cannot read as the field's type is reported: `ERROR` and one `Invalid` error. -/
theorem unreadable_reported {ty : PTy} {m : String} (sp : Spot I W f s r q text b) (hf : HookFree f)
    (hk : f.kind.prim? = some ty) (ha : f.core.attachParent = false) (hpr : Present I q)
    (hv : (I.primitive ty (asked I q)).1 = .error (.sourceError m)) :
    Rejects (mapFieldF I L C rec f .NONE) s f text r := by
  have hleaf : f.kind.leaf = true := by
    cases h : f.kind <;> rw [h] at hk <;> simp [Kind.prim?] at hk <;> rfl
  refine sp.rejects_raise hf hleaf ha hpr (e := .sourceError m) rfl
    (W.primitive_keys (ty := ty) (asked_same sp.wf).wf) ?_
  intro env τ hp
  rw [← primitive_parse hv hp]
  unfold Lex.kindParse
  cases h : f.kind <;> rw [h] at hk <;> simp [Kind.prim?] at hk <;> rw [hk]


/-! ## Reading a default or JSON path twice -/

namespace PathSt
variable {K σ : Type}

theorem fill_last {resolve : List Val → σ → K → Val → Except Exc K × σ} {isN : K → Bool} (ks : List Val)
    (pre : List (Part K)) (q : Part K) : ∀ (s : σ) (v w : K) (s' : σ) (ps : List (Part K)),
    fill resolve isN ks s v (pre ++ [q]) = (.ok w, s', ps) → isN w = false →
    ∃ pre' q', ps = pre' ++ [q'] ∧ q'.cache = some w ∧ q'.raw = q.raw := by
  induction pre with
  | nil =>
    intro s v w s' ps h hw
    simp only [List.nil_append, fill] at h
    split at h
    · cases h
    · split at h
      · rename_i h1; cases h; rw [hw] at h1; cases h1
      · cases h; exact ⟨[], _, rfl, rfl, rfl⟩
  | cons p pre ih =>
    intro s v w s' ps h hw
    simp only [List.cons_append, fill] at h
    split at h
    · cases h
    · split at h
      · rename_i h1; cases h; rw [hw] at h1; cases h1
      · rename_i u s1 _ _
        rcases hf : fill resolve isN ks s1 u (pre ++ [q]) with ⟨r, s2, ps2⟩
        rw [hf] at h
        cases h
        obtain ⟨pre', q', rfl, h1, h2⟩ := ih _ _ _ _ _ hf hw
        exact ⟨_ :: pre', q', rfl, h1, h2⟩

theorem value_cached {resolve : List Val → σ → K → Val → Except Exc K × σ} {isN : K → Bool} {p : PathSt K}
    {pre : List (Part K)} {q : Part K} {w : K} (hp : p.parts = pre ++ [q]) (hc : q.cache = some w)
    (hr : q.raw = false) (s : σ) : value resolve isN s p = (.ok w, s, p) := by
  obtain ⟨root, parts⟩ := p
  simp only at hp
  subst hp
  unfold value
  simp [scan, hc, hr, fill, List.take_of_length_le]

/-- Once a read gave a value other than `NONE`, every further read gives it and changes nothing. -/
theorem value_again {resolve : List Val → σ → K → Val → Except Exc K × σ} {isN : K → Bool} {s s' s2 : σ}
    {p p' : PathSt K} {w : K} (h : value resolve isN s p = (.ok w, s', p')) (hw : isN w = false) :
    value resolve isN s2 p' = (.ok w, s2, p') := by
  obtain ⟨root, parts⟩ := p
  rcases List.eq_nil_or_concat parts with rfl | ⟨pre, q, rfl⟩
  · simp only [value, List.reverse_nil, scan, fill] at h
    cases h
    simp only [value, List.reverse_nil, scan, fill]
  · rw [List.concat_eq_append] at h
    have hraw : q.raw = false := by
      cases hq : q.raw with
      | false => rfl
      | true => simp [value, scan, hq] at h
    cases hc : q.cache with
    | some u =>
      rw [value_cached (p := ⟨root, pre ++ [q]⟩) rfl hc hraw] at h
      cases h
      exact value_cached rfl hc hraw _
    | none =>
      unfold value at h
      simp only [List.reverse_append, List.reverse_singleton, List.singleton_append, scan, hraw, hc,
        Bool.false_eq_true, if_false] at h
      cases hs : scan pre.reverse with
      | error e => rw [hs] at h; cases h
      | ok o =>
        rw [hs] at h
        cases o with
        | none =>
          simp only at h
          rcases hf : fill resolve isN (keys ⟨root, pre ++ [q]⟩) s root (pre ++ [q]) with ⟨r, s1, ps⟩
          rw [hf] at h
          cases h
          obtain ⟨pre', q', rfl, h1, h2⟩ := fill_last _ _ _ _ _ _ _ _ hf hw
          exact value_cached rfl h1 (h2.trans hraw) _
        | some iv =>
          obtain ⟨i, u⟩ := iv
          simp only at h
          have hi : i ≤ pre.length := by
            have : ∀ (l : List (Part K)), scan l = .ok (some (i, u)) → i ≤ l.length := by
              intro l
              induction l with
              | nil => intro h; cases h
              | cons x l ih =>
                intro h
                unfold scan at h
                split at h
                · cases h
                · split at h
                  · cases h; simp
                  · exact Nat.le_succ_of_le (ih h)
            simpa using this _ hs
          rw [List.drop_append_of_le_length hi] at h
          rcases hf : fill resolve isN (keys ⟨root, pre ++ [q]⟩) s u (pre.drop i ++ [q]) with ⟨r, s1, ps⟩
          rw [hf] at h
          cases h
          obtain ⟨pre', q', rfl, h1, h2⟩ := fill_last _ _ _ _ _ _ _ _ hf hw
          exact value_cached (by rw [← List.append_assoc]) h1 (h2.trans hraw) _

end PathSt

/-- `path.value` is `v` for a path of a default source: then it is there, and every read sees `v`. -/
structure Settled (L : Lib) (q : SPath) (v : Val) : Prop where
  present : v.isNull = false → Present (SPath.ops L) q
  null : v.isNull = true → Null (SPath.ops L) q
  value : (SPath.value L (asked (SPath.ops L) q)) = (.ok v, asked (SPath.ops L) q)

theorem settled_dflt {cfg : DefaultCfg} {st : PathSt Val} {v : Val}
    (hv : (SPath.value L (.dflt cfg st)).1 = .ok v) (hn : v.isNONE = false) :
    Settled L (.dflt cfg st) v ∧
      ∀ ty, (SPath.primitive L ty (asked (SPath.ops L) (.dflt cfg st))).1 = parseNative L ty v := by
  have h1 : ∃ st', SPath.valueDflt L cfg st = (.ok v, st') ∧ SPath.valueDflt L cfg st' = (.ok v, st') := by
    have h : (SPath.valueDflt L cfg st).1 = .ok v := by
      unfold SPath.value SPath.withValue at hv
      dsimp only at hv
      cases h : SPath.valueDflt L cfg st with
      | mk r st' => rw [h] at hv; cases r <;> simp_all
    unfold SPath.valueDflt at h ⊢
    rcases hr : PathSt.value (fun ks (_ : Unit) c k => (resolveDefault L cfg ks c k, ())) Val.isNONE () st
      with ⟨r, u, st'⟩
    rw [hr] at h
    simp only at h
    subst h
    refine ⟨st', rfl, ?_⟩
    rw [PathSt.value_again (s2 := ()) hr hn]
  obtain ⟨st', h1, h2⟩ := h1
  have hex : SPath.exists_ L (.dflt cfg st) = (.ok true, .dflt cfg st') := by
    simp only [SPath.exists_, SPath.withValue, h1, hn]; rfl
  have hnl : SPath.isNull L (.dflt cfg st') = (.ok v.isNull, .dflt cfg st') := by
    simp only [SPath.isNull, SPath.withValue, h2]
  have has : asked (SPath.ops L) (.dflt cfg st) = .dflt cfg st' := by
    show (SPath.isNull L (SPath.exists_ L (.dflt cfg st)).2).2 = _
    rw [hex, hnl]
  refine ⟨⟨fun h => ⟨?_, ?_⟩, fun h => ⟨?_, ?_⟩, ?_⟩, ?_⟩
  · show (SPath.exists_ L (.dflt cfg st)).1 = _; rw [hex]
  · show (SPath.isNull L (SPath.exists_ L (.dflt cfg st)).2).1 = _; rw [hex, hnl, h]
  · show (SPath.exists_ L (.dflt cfg st)).1 = _; rw [hex]
  · show (SPath.isNull L (SPath.exists_ L (.dflt cfg st)).2).1 = _; rw [hex, hnl, h]
  · rw [has]; simp only [SPath.value, SPath.withValue, h2]
  · intro ty; rw [has]; simp only [SPath.primitive, SPath.withValue, h2]

/-! ## C11 -/

theorem Spot.bare (sp : Spot I W f s r q text b) : Spot I W f.bare s r q text b := by
  obtain ⟨p, h1, h2⟩ := sp.place
  exact ⟨sp.inv, sp.live, ⟨p, h1, by rw [bare_place]; exact h2⟩, sp.text, sp.errs, sp.collect⟩

theorem starts_absent {trec : TRec P} (hf : HookFree f) (hw : W.WF q) (ha : Absent I q) {env : Env} {res : Except Exc Val}
    {es : List Err}
    (hd : ∀ τ : TSt P, τ.path = some (some (r, (I.exists_ q).2)) → τ.errs = some b →
      Lex.fieldDefault I L C trec f env τ =
        (res, { τ with errs := some { b with items := b.items ++ es } })) :
    StartsWith W L C trec f r q env b res es := by
  intro τ hp hb
  refine ⟨(I.exists_ q).2, ?_, W.exists_keys hw⟩
  have h1 : T.onPath I.exists_ env τ = (.ok false, { τ with path := some (some (r, (I.exists_ q).2)) }) := by
    rw [T.onPath_run hp, ha]
  have hc : Lex.fieldCompute I L C trec f env τ =
      (.ok .NONE, { τ with path := some (some (r, (I.exists_ q).2)) }) := by
    unfold Lex.fieldCompute
    refine (T.bind_ok h1).trans ?_
    rfl
  rw [hf.fieldStart]
  refine (T.bind_ok hc).trans ?_
  exact hd { τ with path := some (some (r, (I.exists_ q).2)) } rfl hb

/-- A `default` that is used as it is. -/
def PlainDefault (v : Val) : Prop := v ≠ .NOT_SET ∧ ∀ id, v ≠ .func id

/-- C11, first half. The source has no value for a field of any class without hooks whose `default` is `v`:
`v` itself is returned, even where it breaks the field's own constraints, and no error is added. -/
theorem C11_default {v : Val} (sp : Spot I W f s r q text b) (hf : HookFree f)
    (ha : f.core.attachParent = false) (hq : Absent I q) (hd : f.core.default = .value v)
    (hv : PlainDefault v) (hctx : s.env.ignoreDefault = some false) :
    Accepts (mapFieldF I L C rec f .NONE) s v := by
  obtain ⟨p, hp, hpl⟩ := sp.place
  obtain ⟨src, hcore⟩ := bare_core f
  have he := mapField_bare (L := L) (C := C) (rec := rec) hf hp hpl (.inl hq)
    (fun h => by have := h.ex; rw [hq] at this; cases this)
  have key : Accepts (mapFieldF I L noClasses (Pilo.mapField I L noClasses 0) f.bare .NONE) s v := by
    refine sp.bare.accepts hf.bare rfl (by rw [hcore]; exact ha) (starts_absent hf.bare sp.wf hq ?_)
    intro τ _ hb
    have h1 : T.ctxGet Env.ignoreDefault "ignore_default" (f.bare.innerEnv s.env) τ = (.ok false, τ) := by
      unfold T.ctxGet; rw [innerEnv_ignoreDefault, hctx]
    unfold Lex.fieldDefault
    refine (T.bind_ok h1).trans ?_
    have : f.bare.core.default = .value v := by rw [hcore]; exact hd
    rw [this, List.append_nil]
    obtain ⟨hv1, hv2⟩ := hv
    have hst : ({ τ with errs := some b } : TSt P) = τ := by rw [← hb]
    cases v with
    | const c => cases c <;> first | exact absurd rfl hv1 | (rw [hst]; rfl)
    | func id => exact absurd rfl (hv2 id)
    | _ => rw [hst]; rfl
  exact ⟨by rw [he]; exact key.res, by rw [he]; exact key.errs⟩

/-- No default is in force: none was given, it is `NOT_SET`, or the context says `ignore_default`. -/
def NoDefault (f : Field) (env : Env) : Prop :=
  f.core.default = .unset ∨ f.core.default = .value .NOT_SET ∨ env.ignoreDefault = some true

theorem fieldDefault_missing {trec : TRec P} {env : Env} (h : NoDefault f env)
    (hctx : ∃ x, env.ignoreDefault = some x) (τ : TSt P) :
    Lex.fieldDefault I L C trec f env τ = Lex.missingNotSet I env τ := by
  obtain ⟨x, hx⟩ := hctx
  have h1 : T.ctxGet Env.ignoreDefault "ignore_default" env τ = (.ok x, τ) := by
    unfold T.ctxGet; rw [hx]
  unfold Lex.fieldDefault
  refine (T.bind_ok h1).trans ?_
  cases x with
  | true => rfl
  | false =>
    rcases h with h | h | h
    · rw [h]; rfl
    · rw [h]; rfl
    · rw [hx] at h; cases h

/-- C11, second half. Without a default: `NOT_SET` and exactly one `Missing` error carrying the path. -/
theorem C11_missing (sp : Spot I W f s r q text b) (hf : HookFree f) (ha : f.core.attachParent = false)
    (hq : Absent I q) (hd : NoDefault f s.env) (hctx : s.env.ignoreMissing = some false) :
    Adds (mapFieldF I L C rec f .NONE) s .NOT_SET
      { kind := .missing, path := text, field := f.name, pathRef := some r } := by
  obtain ⟨p, hp, hpl⟩ := sp.place
  obtain ⟨src, hcore⟩ := bare_core f
  have he := mapField_bare (L := L) (C := C) (rec := rec) hf hp hpl (.inl hq)
    (fun h => by have := h.ex; rw [hq] at this; cases this)
  have key : Adds (mapFieldF I L noClasses (Pilo.mapField I L noClasses 0) f.bare .NONE) s .NOT_SET
      { kind := .missing, path := text, field := f.name, pathRef := some r } := by
    refine sp.bare.adds hf.bare rfl (by rw [hcore]; exact ha) (starts_absent hf.bare sp.wf hq ?_)
    intro τ hp hb
    rw [fieldDefault_missing (by
        unfold NoDefault at hd ⊢; rw [hcore, innerEnv_ignoreDefault]; exact hd)
      (by rw [innerEnv_ignoreDefault]; exact sp.live.ignoreDefault)]
    have h1 : T.ctxGet Env.ignoreMissing "ignore_missing" (f.bare.innerEnv s.env) τ = (.ok false, τ) := by
      unfold T.ctxGet; rw [innerEnv_ignoreMissing, hctx]
    unfold Lex.missingNotSet
    refine (T.bind_ok h1).trans ?_
    simp only [Bool.false_eq_true, if_false]
    refine (T.bind_ok (report_run (τ := τ) .missing hp (by
      rw [Same.render (W.exists_keys sp.wf) sp.wf, sp.text]) hb sp.collect (innerEnv_field _ _))).trans ?_
    rw [bare_name]
    rfl
  exact ⟨by rw [he]; exact key.res, by rw [he]; exact key.errs⟩

/-- C11, the exception: under `ignore_missing` nothing is reported. -/
theorem C11_ignore_missing (sp : Spot I W f s r q text b) (hf : HookFree f) (ha : f.core.attachParent = false)
    (hq : Absent I q) (hd : NoDefault f s.env) (hctx : s.env.ignoreMissing = some true) :
    Accepts (mapFieldF I L C rec f .NONE) s .NOT_SET := by
  obtain ⟨p, hp, hpl⟩ := sp.place
  obtain ⟨src, hcore⟩ := bare_core f
  have he := mapField_bare (L := L) (C := C) (rec := rec) hf hp hpl (.inl hq)
    (fun h => by have := h.ex; rw [hq] at this; cases this)
  have key : Accepts (mapFieldF I L noClasses (Pilo.mapField I L noClasses 0) f.bare .NONE) s .NOT_SET := by
    refine sp.bare.accepts hf.bare rfl (by rw [hcore]; exact ha) (starts_absent hf.bare sp.wf hq ?_)
    intro τ hp hb
    rw [fieldDefault_missing (by
        unfold NoDefault at hd ⊢; rw [hcore, innerEnv_ignoreDefault]; exact hd)
      (by rw [innerEnv_ignoreDefault]; exact sp.live.ignoreDefault)]
    have h1 : T.ctxGet Env.ignoreMissing "ignore_missing" (f.bare.innerEnv s.env) τ = (.ok true, τ) := by
      unfold T.ctxGet; rw [innerEnv_ignoreMissing, hctx]
    unfold Lex.missingNotSet
    refine (T.bind_ok h1).trans ?_
    rw [List.append_nil]
    have hst : ({ τ with errs := some b } : TSt P) = τ := by rw [← hb]
    rw [hst]
    rfl
  exact ⟨by rw [he]; exact key.res, by rw [he]; exact key.errs⟩

/-! ## C14 -/

theorem fieldCompute_null {trec : TRec P} {env : Env} {τ : TSt P} (hp : τ.path = some (some (r, q)))
    (h : Null I q) : Lex.fieldCompute I L C trec f env τ =
      (.ok .none, { τ with path := some (some (r, asked I q)) }) := by
  have h1 : T.onPath I.exists_ env τ = (.ok true, { τ with path := some (some (r, (I.exists_ q).2)) }) := by
    rw [T.onPath_run hp, h.ex]
  have h2 : T.onPath I.isNull env { τ with path := some (some (r, (I.exists_ q).2)) } =
      (.ok true, { τ with path := some (some (r, asked I q)) }) := by
    rw [T.onPath_run (r := r) (p := (I.exists_ q).2) rfl, h.null]
    rfl
  unfold Lex.fieldCompute
  refine (T.bind_ok h1).trans ?_
  simp only [Bool.not_true, Bool.false_eq_true, if_false]
  refine (T.bind_ok h2).trans ?_
  rfl

/-- C14, first half. A null in the source of a field of any class without hooks whose `nullable` is not
false (as when it was never given): `None` is returned and no error added. -/
theorem C14_nullable (sp : Spot I W f s r q text b) (hf : HookFree f) (ha : f.core.attachParent = false)
    (ht : f.core.translations = []) (hi : Val.none.inList f.core.ignores = false) (hq : Null I q)
    (hn : f.core.nullable.truthy = true) : Accepts (mapFieldF I L C rec f .NONE) s .none := by
  obtain ⟨p, hp, hpl⟩ := sp.place
  obtain ⟨src, hcore⟩ := bare_core f
  have he := mapField_bare (L := L) (C := C) (rec := rec) hf hp hpl (.inr hq) (fun _ => ht)
  have key : Accepts (mapFieldF I L noClasses (Pilo.mapField I L noClasses 0) f.bare .NONE) s .none := by
    refine sp.bare.accepts hf.bare rfl (by rw [hcore]; exact ha) ?_
    intro τ hp hb
    refine ⟨_, ?_, asked_same sp.wf⟩
    rw [fieldStart_value hf.bare (fieldCompute_null hp hq) rfl,
      fieldCheck_plain hf.bare (by rw [hcore]; exact ht) rfl (by rw [hcore]; exact hi)]
    have hval : Lex.kindValidate I L f.bare .none = T.pure true := by
      unfold Lex.kindValidate Lex.baseValidate
      rw [hcore]
      simp only [hn, Bool.not_true, Bool.and_false, Bool.false_eq_true, if_false, T.pure_bind, Val.isNull,
        if_true]
    rw [hval, List.append_nil]
    have hst : ({ τ with errs := some b } : TSt P) = τ := by rw [← hb]
    show _ = (_, ({ ({ τ with errs := some b } : TSt P) with path := some (some (r, asked I q)) } : TSt P))
    rw [hst]
    rfl
  exact ⟨by rw [he]; exact key.res, by rw [he]; exact key.errs⟩

/-- C14, second half. With `nullable` false: `ERROR` and one `not nullable` error. -/
theorem C14_not_nullable (sp : Spot I W f s r q text b) (hf : HookFree f) (ha : f.core.attachParent = false)
    (ht : f.core.translations = []) (hi : Val.none.inList f.core.ignores = false) (hq : Null I q)
    (hn : f.core.nullable.truthy = false) : Adds (mapFieldF I L C rec f .NONE) s .ERROR
      { kind := .invalid "not nullable", path := text, field := f.name, pathRef := some r } := by
  obtain ⟨p, hp, hpl⟩ := sp.place
  obtain ⟨src, hcore⟩ := bare_core f
  have he := mapField_bare (L := L) (C := C) (rec := rec) hf hp hpl (.inr hq) (fun _ => ht)
  have key : Adds (mapFieldF I L noClasses (Pilo.mapField I L noClasses 0) f.bare .NONE) s .ERROR
      { kind := .invalid "not nullable", path := text, field := f.name, pathRef := some r } := by
    refine sp.bare.adds hf.bare rfl (by rw [hcore]; exact ha) ?_
    intro τ hp hb
    refine ⟨_, ?_, asked_same sp.wf⟩
    rw [fieldStart_value hf.bare (fieldCompute_null hp hq) rfl,
      fieldCheck_plain hf.bare (by rw [hcore]; exact ht) rfl (by rw [hcore]; exact hi)]
    have hval : Lex.kindValidate I L f.bare .none =
        (Lex.rejectWith I "not nullable" >>= fun ok => if !ok then T.pure false else T.pure true) := by
      unfold Lex.kindValidate Lex.baseValidate
      rw [hcore]
      simp only [hn, Bool.not_false, Bool.and_true, Val.isNull, if_true]
    rw [hval]
    refine (T.bind_ok (a := false) (T.bind_ok (rejectWith_run
      (τ := { τ with path := some (some (r, asked I q)) }) (q := asked I q) _ rfl
      (by rw [Same.render (asked_same sp.wf) sp.wf, sp.text]) hb sp.collect (innerEnv_field _ _)))).trans ?_
    rw [bare_name]
    rfl
  exact ⟨by rw [he]; exact key.res, by rw [he]; exact key.errs⟩

end Pilo
