import Verif.Construct
import Verif.Props.Options
import Verif.Props.Unparsable
import Verif.Props.Dates

/-!
# C71, C72: what the arguments of field constructors mean

`pilo/fields.py:668-687,772-790,872-883,888-892,1072-1105`.
-/

namespace Pilo
variable {P : Type} {I : PathOps P} {L : Lib} {W : LawfulPath I} {C : Classes} {rec : Rec P}
  {s : St P} {r : Nat} {q : P} {text : String} {b : ErrBuf} {compile : String → Except Exc Regex}
  {args : List Arg} {kw : Kwargs} {f : Field}

/-! ## Inversion of calls -/

theorem bind_inv {ε α β : Type} {m : Except ε α} {k : α → Except ε β} {y : β} (h : (m >>= k) = .ok y) :
    ∃ a, m = .ok a ∧ k a = .ok y := by
  cases m with
  | error e => cases h
  | ok a => exact ⟨a, rfl, h⟩

theorem map_inv {ε α β : Type} {m : Except ε α} {k : α → β} {y : β} (h : m.map k = .ok y) :
    ∃ a, m = .ok a ∧ k a = y := by
  cases m with
  | error e => cases h
  | ok a => cases h; exact ⟨a, rfl, rfl⟩

theorem lookup_drop {k : String} {ks : List String} (h : k ∉ ks) : (kw.drop ks).lookup k = kw.lookup k := by
  unfold Kwargs.drop
  induction kw with
  | nil => rfl
  | cons p kw ih =>
    obtain ⟨n, a⟩ := p
    rw [List.filter_cons]
    by_cases hn : n ∈ ks
    · have hk : (k == n) = false := by
        simp only [beq_eq_false_iff_ne, ne_eq]
        rintro rfl
        exact h hn
      rw [if_neg (by simpa using hn), ih]
      show _ = (match k == n with | true => some a | false => List.lookup k kw)
      rw [hk]
    · rw [if_pos (by simpa using hn)]
      show (match k == n with | true => some a | false => List.lookup k (kw.filter _)) =
        (match k == n with | true => some a | false => List.lookup k kw)
      rw [ih]

theorem lookup_mem {k : String} {a : Arg} (h : kw.lookup k = some a) : k ∈ kw.map Prod.fst := by
  induction kw with
  | nil => cases h
  | cons p kw ih =>
    obtain ⟨n, x⟩ := p
    by_cases hk : k = n
    · subst hk; simp
    · rw [List.lookup_cons, (by simpa using hk : (k == n) = false)] at h
      exact List.mem_cons_of_mem _ (ih h)

/-- A keyword that is no option is refused. -/
theorem new_names {kind : Kind} (h : Field.new kind args kw = .ok f) {k : String} {a : Arg} (hk : kw.lookup k = some a) :
    k = "src" ∨ k ∈ optionNames := by
  obtain ⟨src, h1, h⟩ := bind_inv h
  obtain ⟨o, h2, h⟩ := bind_inv h
  by_cases hs : k = "src"
  · exact .inl hs
  · refine .inr ?_
    have h3 : (kw.drop ["src"]).lookup k = some a := by rw [lookup_drop (by simpa using hs), hk]
    have h4 := lookup_mem h3
    unfold readOptions at h2
    split at h2
    case isTrue hall =>
      rw [List.all_eq_true] at hall
      obtain ⟨p, hp, rfl⟩ := List.mem_map.1 h4
      simpa using hall p hp
    case isFalse => cases h2

theorem new_kind {kind : Kind} (h : Field.new kind args kw = .ok f) : f.kind = kind := by
  obtain ⟨src, h1, h⟩ := bind_inv h
  obtain ⟨o, h2, h⟩ := bind_inv h
  cases h
  exact options_kind

/-- The call gives no translations, no ignored values, no `attach_parent`, and no function as default. -/
structure Kwargs.Simple (kw : Kwargs) : Prop where
  translate : kw.lookup "translate" = none
  ignore : kw.lookup "ignore" = none
  attachParent : kw.lookup "attach_parent" = none
  default : ∀ p, kw.lookup "default" ≠ some (.call p)

theorem Kwargs.Simple.drop (h : kw.Simple) {ks : List String} (hk : ∀ k ∈ ks, k ∉ optionNames) : (kw.drop ks).Simple := by
  have hne : ∀ k ∈ optionNames, k ∉ ks := fun k h h' => hk k h' h
  refine ⟨?_, ?_, ?_, ?_⟩
  · rw [lookup_drop (hne _ (by decide))]; exact h.translate
  · rw [lookup_drop (hne _ (by decide))]; exact h.ignore
  · rw [lookup_drop (hne _ (by decide))]; exact h.attachParent
  · rw [lookup_drop (hne _ (by decide))]; exact h.default

/-- A field with no hooks, translations, ignored values and parents. -/
structure Field.Unadorned (f : Field) : Prop where
  free : HookFree f
  attachParent : f.core.attachParent = false
  translations : f.core.translations = []
  ignores : f.core.ignores = []

theorem option_none {α : Type} {k : String} {read : Arg → Except Exc α} (h : kw.lookup k = none) :
    kw.option k read = .ok none := by
  unfold Kwargs.option; rw [h]

theorem new_bare {kind : Kind} (h : Field.new kind args kw = .ok f) (hs : kw.Simple)
    (hk : ∀ kf vf h r m, kind ≠ .dict kf vf (some h) r m) (name : Option String) : (f.attach name).Unadorned := by
  have hkind : f.kind = kind := new_kind h
  obtain ⟨src, h1, h⟩ := bind_inv h
  obtain ⟨o, h2, h⟩ := bind_inv h
  have hs' : (kw.drop ["src"]).Simple := hs.drop (by decide)
  unfold readOptions at h2
  split at h2
  case isFalse => cases h2
  obtain ⟨nullable, e1, h2⟩ := bind_inv h2
  obtain ⟨optional, e2, h2⟩ := bind_inv h2
  obtain ⟨dflt, e3, h2⟩ := bind_inv h2
  rw [option_none hs'.ignore] at h2
  obtain ⟨ignore, e4, h2⟩ := bind_inv h2
  rw [option_none hs'.translate] at h2
  obtain ⟨translate, e5, h2⟩ := bind_inv h2
  rw [option_none hs'.attachParent] at h2
  obtain ⟨attach, e6, h2⟩ := bind_inv h2
  obtain ⟨tags, e7, h2⟩ := bind_inv h2
  cases e4; cases e5; cases e6
  cases h2
  cases h
  have hd : dflt = none ∨ ∃ v, dflt = some (.value v) := by
    unfold Kwargs.option at e3
    have hc := hs'.default
    split at e3
    · cases e3; exact .inl rfl
    · cases e3; exact .inl rfl
    · rename_i a _ ha
      obtain ⟨d, h1, rfl⟩ := map_inv e3
      cases a with
      | val v =>
        cases v <;> first | (cases h1; exact .inr ⟨_, rfl⟩) | cases h1
      | call p => exact absurd ha (hc p)
      | _ => cases h1
  refine ⟨⟨?_, ?_, ?_, ?_, ?_, ?_, ?_, ?_⟩, ?_, ?_, ?_⟩
  · show (Field.options _ _).core.default = _ ∨ ∃ v, (Field.options _ _).core.default = _
    rw [options_default]
    rcases hd with rfl | ⟨v, rfl⟩
    · cases optional with
      | none => exact .inl rfl
      | some v =>
        dsimp only
        split
        · exact .inr ⟨_, rfl⟩
        · exact .inl rfl
    · exact .inr ⟨v, rfl⟩
  · exact options_keeps FieldCore.resolve (by intros; rfl) (by intros; rfl) (by intros; rfl) (by intros; rfl) (by intros; rfl)
      (by intros; rfl)
  · exact options_keeps FieldCore.compute (by intros; rfl) (by intros; rfl) (by intros; rfl) (by intros; rfl) (by intros; rfl)
      (by intros; rfl)
  · exact options_keeps FieldCore.parse (by intros; rfl) (by intros; rfl) (by intros; rfl) (by intros; rfl) (by intros; rfl)
      (by intros; rfl)
  · exact options_keeps FieldCore.munge (by intros; rfl) (by intros; rfl) (by intros; rfl) (by intros; rfl) (by intros; rfl)
      (by intros; rfl)
  · exact options_keeps FieldCore.filter (by intros; rfl) (by intros; rfl) (by intros; rfl) (by intros; rfl) (by intros; rfl)
      (by intros; rfl)
  · exact options_keeps FieldCore.validate (by intros; rfl) (by intros; rfl) (by intros; rfl) (by intros; rfl) (by intros; rfl)
      (by intros; rfl)
  · intro kf vf h r m hkk
    have : kind = .dict kf vf (some h) r m := hkind.symm.trans hkk
    exact absurd this (hk kf vf h r m)
  · show (Field.options _ _).core.attachParent = _
    unfold Field.options
    dsimp only
    rw [whenSet_keeps FieldCore.attachParent (by intros; rfl), whenSet_none, whenSet_none, whenSet_none,
      whenSet_keeps FieldCore.attachParent (by intros; rfl), whenSet_keeps FieldCore.attachParent (by intros; rfl),
      whenSet_keeps FieldCore.attachParent (by intros; rfl)]
    rfl
  · exact options_translations
  · exact options_ignores

/-! ## C71: lengths, patterns, alphabets and choices -/

/-- A list or tuple of two. -/
inductive Arg.IsPair : Arg → Arg → Arg → Prop
  | list (a b : Arg) : IsPair (.list [a, b]) a b
  | tuple (a b : Arg) : IsPair (.tuple [a, b]) a b

/-- What the keyword arguments say about a length: it is the one given, or between the two given, not below `min_length` and
not above `max_length`. -/
structure LengthSpec (kw : Kwargs) (n : Nat) : Prop where
  exact : ∀ k, kw.lookup "length" = some (.val (.int k)) → (n : Int) = k
  least : ∀ a k y, kw.lookup "length" = some a → a.IsPair (.val (.int k)) y → k ≤ n
  most : ∀ a k x, kw.lookup "length" = some a → a.IsPair x (.val (.int k)) → (n : Int) ≤ k
  min : ∀ k, kw.lookup "min_length" = some (.val (.int k)) → k ≤ n
  max : ∀ k, kw.lookup "max_length" = some (.val (.int k)) → (n : Int) ≤ k

/-- What the keyword arguments of a `String` say about a text. -/
structure StringSpec (compile : String → Except Exc Regex) (kw : Kwargs) (x : String) : Prop where
  length : LengthSpec kw x.length
  regex : ∀ re, kw.lookup "pattern" = some (.regex re) → (re.run x).isSome
  pattern : ∀ t re, kw.lookup "pattern" = some (.val (.str t)) → t ≠ "" → compile t = .ok re → (re.run x).isSome
  alphabet : ∀ t, kw.lookup "alphabet" = some (.val (.str t)) → ∀ c ∈ x.toList, c ∈ t.toList
  choices : ∀ xs, kw.lookup "choices" = some (.val (.list xs)) → Val.str x ∈ xs
  options : ∀ xs, kw.lookup "choices" = some (.list xs) → Arg.val (.str x) ∈ xs

/-- No argument is zero or empty. -/
structure Kwargs.Full (kw : Kwargs) : Prop where
  length : kw.lookup "length" ≠ some (.val (.int 0))
  alphabet : kw.lookup "alphabet" ≠ some (.val (.str ""))
  choices : kw.lookup "choices" ≠ some (.val (.list []))
  options : kw.lookup "choices" ≠ some (.list [])

theorem size_some {v : Option Arg} {n : Nat} (h : Arg.size v = .ok (some n)) : v = some (.val (.int n)) := by
  unfold Arg.size at h
  split at h <;> try (cases h; done)
  split at h
  case isTrue hi => cases h; rw [Int.toNat_of_nonneg hi]
  case isFalse => cases h

theorem size_int {k : Int} {r : Option Nat} (h : Arg.size (some (.val (.int k))) = .ok r) : 0 ≤ k ∧ r = some k.toNat := by
  unfold Arg.size at h
  dsimp only at h
  split at h
  case isTrue hi => cases h; exact ⟨hi, rfl⟩
  case isFalse => cases h

/-- Reading `min_length` and `max_length`. -/
theorem readMinMax_spec {lo hi : Option Nat} {kw' : Kwargs} (h : readLength.readMinMax kw = .ok (lo, hi, kw')) :
    kw' = kw.drop ["min_length", "max_length"] ∧
    ∀ n : Nat, LenOK lo hi n ↔ (∀ k, kw.lookup "min_length" = some (.val (.int k)) → k ≤ n) ∧
      ∀ k, kw.lookup "max_length" = some (.val (.int k)) → (n : Int) ≤ k := by
  obtain ⟨lo', h1, h⟩ := bind_inv h
  obtain ⟨hi', h2, h⟩ := bind_inv h
  cases h
  refine ⟨rfl, fun n => ⟨fun g => ⟨fun k hk => ?_, fun k hk => ?_⟩, fun g => ⟨fun l hl => ?_, fun l hl => ?_⟩⟩⟩
  · rw [hk] at h1
    obtain ⟨h0, rfl⟩ := size_int h1
    have := g.1 _ rfl
    omega
  · rw [hk] at h2
    obtain ⟨h0, rfl⟩ := size_int h2
    have := g.2 _ rfl
    omega
  · subst hl
    have := g.1 _ (size_some h1)
    omega
  · subst hl
    have := g.2 _ (size_some h2)
    omega

theorem drop_lookup_none {k : String} {ks : List String} (h : k ∈ ks) : (kw.drop ks).lookup k = none := by
  cases hl : (kw.drop ks).lookup k with
  | none => rfl
  | some a =>
    have := lookup_mem hl
    obtain ⟨p, hp, rfl⟩ := List.mem_map.1 this
    unfold Kwargs.drop at hp
    have := (List.mem_filter.1 hp).2
    simp [h] at this

theorem unpack_spec {a x y : Arg} (h : a.unpack2 = .ok (x, y)) : a.IsPair x y := by
  unfold Arg.unpack2 at h
  split at h <;> try (cases h; done)
  · cases h; exact .list _ _
  · cases h; exact .tuple _ _

theorem Arg.IsPair.inj {a x y x' y' : Arg} (h : a.IsPair x y) (h' : a.IsPair x' y') : x = x' ∧ y = y' := by
  cases h <;> cases h' <;> exact ⟨rfl, rfl⟩

theorem Arg.IsPair.not_int {a x y : Arg} {k : Int} (h : a.IsPair x y) : a ≠ .val (.int k) := by
  rintro rfl
  cases h

/-- Two lengths given as a pair. -/
theorem pair_spec {a x y : Arg} {lo hi : Option Nat} (hl : kw.lookup "length" = some a) (hp : a.IsPair x y)
    (h1 : Arg.size (some x) = .ok lo) (h2 : Arg.size (some y) = .ok hi) (n : Nat) :
    LenOK lo hi n ↔ (∀ k, kw.lookup "length" = some (.val (.int k)) → (n : Int) = k) ∧
      (∀ a k y, kw.lookup "length" = some a → a.IsPair (.val (.int k)) y → k ≤ n) ∧
      (∀ a k x, kw.lookup "length" = some a → a.IsPair x (.val (.int k)) → (n : Int) ≤ k) := by
  refine ⟨fun h => ⟨fun k hk => ?_, fun a' k y' hk hp' => ?_, fun a' k x' hk hp' => ?_⟩, fun h => ⟨fun l hl' => ?_, fun l hl' => ?_⟩⟩
  · rw [hl] at hk
    exact absurd (Option.some.inj hk) hp.not_int
  · rw [hl] at hk
    cases hk
    obtain ⟨rfl, -⟩ := hp.inj hp'
    obtain ⟨h0, rfl⟩ := size_int h1
    have := h.1 _ rfl
    omega
  · rw [hl] at hk
    cases hk
    obtain ⟨-, rfl⟩ := hp.inj hp'
    obtain ⟨h0, rfl⟩ := size_int h2
    have := h.2 _ rfl
    omega
  · subst hl'
    have hx := size_some h1
    cases hx
    have := h.2.1 _ _ _ hl hp
    omega
  · subst hl'
    have hx := size_some h2
    cases hx
    have := h.2.2 _ _ _ hl hp
    omega

/-- Nothing is said about lengths by an argument `length` that is falsy and not zero. -/
theorem falsy_length {a : Arg} (hl : kw.lookup "length" = some a) (ha : a.truthy = false)
    (h0 : kw.lookup "length" ≠ some (.val (.int 0))) (n : Nat) :
    (∀ k, kw.lookup "length" = some (.val (.int k)) → (n : Int) = k) ∧
      (∀ a k y, kw.lookup "length" = some a → a.IsPair (.val (.int k)) y → k ≤ n) ∧
      (∀ a k x, kw.lookup "length" = some a → a.IsPair x (.val (.int k)) → (n : Int) ≤ k) := by
  refine ⟨fun k hk => ?_, fun a' k y' hk hp' => ?_, fun a' k x' hk hp' => ?_⟩
  · have : k = 0 := by
      rw [hl] at hk
      cases hk
      simpa [Arg.truthy, Val.truthy] using ha
    subst this
    exact absurd hk h0
  · rw [hl] at hk
    cases hk
    cases hp' <;> cases ha
  · rw [hl] at hk
    cases hk
    cases hp' <;> cases ha

theorem no_length (hl : kw.lookup "length" = none) (n : Nat) :
    (∀ k, kw.lookup "length" = some (.val (.int k)) → (n : Int) = k) ∧
      (∀ a k y, kw.lookup "length" = some a → a.IsPair (.val (.int k)) y → k ≤ n) ∧
      (∀ a k x, kw.lookup "length" = some a → a.IsPair x (.val (.int k)) → (n : Int) ≤ k) := by
  rw [hl]
  exact ⟨fun _ h => (by cases h), fun _ _ _ h => (by cases h), fun _ _ _ h => (by cases h)⟩

/-- `readLength`: either the bounds mean what the arguments say and neither `min_length` nor `max_length` is left, or they
are as `length` says, and both are left. -/
theorem readLength_spec {lo hi : Option Nat} {kw' : Kwargs} (h : readLength kw = .ok (lo, hi, kw'))
    (h0 : kw.lookup "length" ≠ some (.val (.int 0))) :
    (∀ k, k ∉ ["length", "min_length", "max_length"] → kw'.lookup k = kw.lookup k) ∧
    ((kw'.lookup "min_length" = none ∧ kw'.lookup "max_length" = none) →
      ∀ n : Nat, LenOK lo hi n ↔ LengthSpec kw n) := by
  have split3 : ∀ {A B : Prop} {n : Nat}, (A ↔ (∀ k, kw.lookup "length" = some (.val (.int k)) → (n : Int) = k) ∧
      (∀ a k y, kw.lookup "length" = some a → a.IsPair (.val (.int k)) y → k ≤ n) ∧
      (∀ a k x, kw.lookup "length" = some a → a.IsPair x (.val (.int k)) → (n : Int) ≤ k)) →
      (B ↔ (∀ k, kw.lookup "min_length" = some (.val (.int k)) → k ≤ n) ∧
      ∀ k, kw.lookup "max_length" = some (.val (.int k)) → (n : Int) ≤ k) → (A ∧ B ↔ LengthSpec kw n) := by
    intro A B n hA hB
    rw [hA, hB]
    exact ⟨fun h => ⟨h.1.1, h.1.2.1, h.1.2.2, h.2.1, h.2.2⟩, fun h => ⟨⟨h.1, h.2, h.3⟩, h.4, h.5⟩⟩
  have byMinMax : ∀ {kw1 : Kwargs}, kw1 = kw.drop ["length"] →
      (∀ n : Nat, (∀ k, kw.lookup "length" = some (.val (.int k)) → (n : Int) = k) ∧
      (∀ a k y, kw.lookup "length" = some a → a.IsPair (.val (.int k)) y → k ≤ n) ∧
      (∀ a k x, kw.lookup "length" = some a → a.IsPair x (.val (.int k)) → (n : Int) ≤ k)) →
      readLength.readMinMax kw1 = .ok (lo, hi, kw') →
      (∀ k, k ∉ ["length", "min_length", "max_length"] → kw'.lookup k = kw.lookup k) ∧
      ((kw'.lookup "min_length" = none ∧ kw'.lookup "max_length" = none) →
        ∀ n : Nat, LenOK lo hi n ↔ LengthSpec kw n) := by
    rintro kw1 rfl hl h
    obtain ⟨rfl, h1⟩ := readMinMax_spec h
    refine ⟨fun k hk => ?_, fun _ n => ?_⟩
    · rw [lookup_drop (fun h => hk (List.mem_cons_of_mem _ h)), lookup_drop (fun h => hk (by simp at h; simp [h]))]
    · rw [← true_and (LenOK lo hi n)]
      refine split3 ?_ ((h1 n).trans ?_)
      · exact ⟨fun _ => hl n, fun _ => trivial⟩
      · rw [lookup_drop (by decide), lookup_drop (by decide)]
  have unused : kw' = kw.drop ["length"] → kw'.lookup "min_length" = none ∧ kw'.lookup "max_length" = none →
      ∀ n : Nat, True ↔ (∀ k, kw.lookup "min_length" = some (.val (.int k)) → k ≤ n) ∧
      ∀ k, kw.lookup "max_length" = some (.val (.int k)) → (n : Int) ≤ k := by
    rintro rfl ⟨h1, h2⟩ n
    rw [lookup_drop (by decide)] at h1 h2
    rw [h1, h2]
    exact ⟨fun _ => ⟨fun _ h => (by cases h), fun _ h => (by cases h)⟩, fun _ => trivial⟩
  unfold readLength at h
  dsimp only at h
  split at h
  case h_2 hl => exact byMinMax rfl (no_length hl) h
  case h_1 a hl =>
    split at h
    case isFalse ha => exact byMinMax rfl (falsy_length hl (by simpa using ha) h0) h
    case isTrue ha =>
      split at h
      · obtain ⟨⟨x, y⟩, h1, h⟩ := bind_inv h
        obtain ⟨lo', h2, h⟩ := bind_inv h
        obtain ⟨hi', h3, h⟩ := bind_inv h
        cases h
        refine ⟨fun k hk => lookup_drop (fun h => hk (by simp at h; simp [h])), fun hn n => ?_⟩
        rw [← and_true (LenOK _ _ n)]
        exact split3 (pair_spec hl (unpack_spec h1) h2 h3 n) (unused rfl hn n)
      · rename_i hni
        obtain ⟨m, h1, h⟩ := bind_inv h
        cases h
        refine ⟨fun k hk => lookup_drop (fun h => hk (by simp at h; simp [h])), fun hn n => ?_⟩
        rw [← and_true (LenOK _ _ n)]
        refine split3 ?_ (unused rfl hn n)
        rw [hl]
        refine ⟨fun g => ⟨fun k hk => ?_, fun _ _ _ he hp => ?_, fun _ _ _ he hp => ?_⟩,
          fun g => ⟨fun l hl' => ?_, fun l hl' => ?_⟩⟩
        · cases hk
          obtain ⟨h0, rfl⟩ := size_int h1
          have := g.1 _ rfl
          have := g.2 _ rfl
          omega
        · cases he; cases hp <;> cases hni
        · cases he; cases hp <;> cases hni
        · subst hl'
          have hx := size_some h1
          cases hx
          have := g.1 _ rfl
          omega
        · subst hl'
          have hx := size_some h1
          cases hx
          have := g.1 _ rfl
          omega

theorem toVal_mapM {xs : List Arg} {vs : List Val} (h : xs.mapM Arg.toVal = .ok vs) : xs = vs.map Arg.val := by
  induction xs generalizing vs with
  | nil => cases h; rfl
  | cons a xs ih =>
    rw [List.mapM_cons] at h
    obtain ⟨v, h1, h⟩ := bind_inv h
    obtain ⟨vs', h2, h⟩ := bind_inv h
    cases h
    cases a <;> cases h1
    rw [List.map_cons, ih h2]

/-- The options of a `String`, and its spec. -/
theorem newString_spec (h : Field.newString compile args kw = .ok f) (hfull : kw.Full) :
    ∃ c kw', f.kind = .string c ∧ Field.new (.string c) args kw' = .ok f ∧
      (∀ k, k ∈ optionNames → kw'.lookup k = kw.lookup k) ∧
      ∀ x, StringOK c x ↔ StringSpec compile kw x := by
  obtain ⟨⟨lo, hi, kw1⟩, h1, h⟩ := bind_inv h
  obtain ⟨pat, h2, h⟩ := bind_inv h
  obtain ⟨alp, h3, h⟩ := bind_inv h
  obtain ⟨cho, h4, h⟩ := bind_inv h
  obtain ⟨l1, l2⟩ := readLength_spec h1 hfull.length
  have ln : kw1.lookup "min_length" = none ∧ kw1.lookup "max_length" = none := by
    have key : ∀ k, k ∉ ["pattern", "alphabet", "choices"] → ¬ (k = "src" ∨ k ∈ optionNames) → kw1.lookup k = none := by
      intro k hk hn
      cases hl : kw1.lookup k with
      | none => rfl
      | some a =>
        have : (Kwargs.drop kw1 ["pattern", "alphabet", "choices"]).lookup k = some a := by rw [lookup_drop hk, hl]
        exact absurd (new_names h this) hn
    exact ⟨key _ (by decide) (by decide), key _ (by decide) (by decide)⟩
  have l2 := l2 ln
  rw [l1 _ (by decide)] at h2 h3 h4
  refine ⟨_, _, new_kind h, h, fun k hk => ?_, fun x => ?_⟩
  · have hk' : ∀ k ∈ optionNames, k ∉ ["pattern", "alphabet", "choices"] ∧ k ∉ ["length", "min_length", "max_length"] := by
      decide
    rw [lookup_drop (hk' k hk).1, l1 _ (hk' k hk).2]
  · have hpat : (∀ m t, pat = some (m, t) → m x = true) ↔ (∀ re, kw.lookup "pattern" = some (.regex re) → (re.run x).isSome) ∧
        (∀ t re, kw.lookup "pattern" = some (.val (.str t)) → t ≠ "" → compile t = .ok re → (re.run x).isSome) := by
      cases hp : kw.lookup "pattern" with
      | none => rw [hp] at h2; cases h2; simp
      | some a =>
        rw [hp] at h2
        unfold readPattern at h2
        dsimp only at h2
        split at h2
        case isTrue ht =>
          split at h2
          · obtain ⟨re, h5, h2⟩ := bind_inv h2
            cases h2
            simp only [Option.some.injEq, Arg.val.injEq, Val.str.injEq, reduceCtorEq, false_implies, implies_true, true_and,
              Prod.mk.injEq]
            constructor
            · rintro h t re' rfl - hre
              rw [h5] at hre
              cases hre
              exact h _ _ ⟨rfl, rfl⟩
            · rintro h m t ⟨rfl, rfl⟩
              exact h _ _ rfl (by simpa [Arg.truthy, Val.truthy] using ht) h5
          · cases h2
            simp only [Option.some.injEq, Arg.regex.injEq, reduceCtorEq, false_implies, implies_true, and_true, Prod.mk.injEq]
            constructor
            · rintro h re rfl
              exact h _ _ ⟨rfl, rfl⟩
            · rintro h m t ⟨rfl, rfl⟩
              exact h _ rfl
          · cases h2
        case isFalse ht =>
          cases h2
          refine ⟨fun _ => ⟨fun re hre => ?_, fun t re hre hne _ => ?_⟩, fun _ _ _ h => (by cases h)⟩
          · cases hre
            exact absurd rfl ht
          · cases hre
            exact absurd (by simpa [Arg.truthy, Val.truthy] using hne) ht
    have halp : (alp ≠ [] → ∀ ch ∈ x.toList, String.ofList [ch] ∈ alp) ↔
        ∀ t, kw.lookup "alphabet" = some (.val (.str t)) → ∀ c ∈ x.toList, c ∈ t.toList := by
      have hne := hfull.alphabet
      unfold readAlphabet at h3
      split at h3
      · rename_i hl; cases h3; rw [hl]; simp
      · rename_i hl; cases h3; rw [hl]; simp
      · rename_i t hl
        cases h3
        rw [hl] at hne ⊢
        have : t.toList ≠ [] := by
          intro h
          apply hne
          have : t = "" := by rw [← String.toList_inj, h]; rfl
          rw [this]
        simp only [ne_eq, List.map_eq_nil_iff, this, not_false_eq_true, forall_const, List.mem_map, Option.some.injEq,
          Arg.val.injEq, Val.str.injEq, forall_eq']
        constructor
        · intro h c hc
          obtain ⟨d, hd, he⟩ := h c hc
          have := congrArg String.toList he
          simp at this
          exact this ▸ hd
        · intro h c hc
          exact ⟨c, h c hc, rfl⟩
      · cases h3
    have hcho : (cho ≠ [] → Val.str x ∈ cho) ↔ (∀ xs, kw.lookup "choices" = some (.val (.list xs)) → Val.str x ∈ xs) ∧
        ∀ xs, kw.lookup "choices" = some (.list xs) → Arg.val (.str x) ∈ xs := by
      have n1 := hfull.choices
      have n2 := hfull.options
      unfold readChoices at h4
      split at h4
      · rename_i hl; cases h4; rw [hl]; simp
      · rename_i hl; cases h4; rw [hl]; simp
      · rename_i xs hl
        cases h4
        rw [hl] at n1 ⊢
        have : cho ≠ [] := by rintro rfl; exact n1 rfl
        simp [this]
      · rename_i xs hl
        have := toVal_mapM h4
        subst this
        rw [hl] at n2 ⊢
        have : cho ≠ [] := by rintro rfl; exact n2 rfl
        simp [this]
      · cases h4
    constructor
    · intro h
      exact ⟨(l2 _).1 ⟨h.min, h.max⟩, (hpat.1 h.pattern).1, (hpat.1 h.pattern).2, halp.1 h.alphabet, (hcho.1 h.choices).1,
        (hcho.1 h.choices).2⟩
    · intro h
      exact ⟨halp.2 h.alphabet, ((l2 _).2 h.length).1, ((l2 _).2 h.length).2, hpat.2 ⟨h.regex, h.pattern⟩,
        hcho.2 ⟨h.choices, h.options⟩⟩

theorem attach_kind (f : Field) (name : Option String) : (f.attach name).kind = f.kind := rfl

/-- C71 for `String`, without zero and empty arguments (see the counterexample).  A field made by `String(...)` with any
positional and keyword arguments the constructor takes, except for those excluded by `Simple`, attached to a class under
any name, at a place where the source has the text `x`: it gives `x` and no error if `x` is as the arguments say;
otherwise `ERROR`, with one `Invalid` error. -/
theorem C71_string_partial {name : Option String} {x : String} (h : Field.newString compile args kw = .ok f)
    (hfull : kw.Full) (hs : kw.Simple) (sp : Spot I W (f.attach name) s r q text b) (hpr : Present I q)
    (hx : (I.primitive .str (asked I q)).1 = .ok (.str x)) :
    (StringSpec compile kw x → Accepts (mapFieldF I L C rec (f.attach name) .NONE) s (.str x)) ∧
    (¬ StringSpec compile kw x → Rejects (mapFieldF I L C rec (f.attach name) .NONE) s (f.attach name) text r) := by
  obtain ⟨c, kw', h1, h2, h3, h4⟩ := newString_spec h hfull
  have hs' : kw'.Simple := ⟨(h3 _ (by decide)).trans hs.translate, (h3 _ (by decide)).trans hs.ignore,
    (h3 _ (by decide)).trans hs.attachParent, fun p hp => hs.default p ((h3 _ (by decide)).symm.trans hp)⟩
  have hb := new_bare h2 hs' (by intro _ _ _ _ _ h; cases h) name
  rw [← h4]
  exact C12_string sp hb.free h1 hb.attachParent hb.translations (by rw [hb.ignores]; simp) hpr hx

/-- C71: `length` together with `min_length` or `max_length` is refused. -/
theorem C71_both {a c : Arg} {k : String} (hl : kw.lookup "length" = some a) (ha : a.truthy = true)
    (hk : k = "min_length" ∨ k = "max_length") (hc : kw.lookup k = some c) : Field.newString compile args kw ≠ .ok f := by
  intro h
  obtain ⟨⟨lo, hi, kw1⟩, h1, h⟩ := bind_inv h
  obtain ⟨pat, h2, h⟩ := bind_inv h
  obtain ⟨alp, h3, h⟩ := bind_inv h
  obtain ⟨cho, h4, h⟩ := bind_inv h
  have hkw : kw1 = kw.drop ["length"] := by
    unfold readLength at h1
    dsimp only at h1
    rw [hl] at h1
    dsimp only at h1
    rw [if_pos ha] at h1
    split at h1
    · obtain ⟨⟨x, y⟩, -, h1⟩ := bind_inv h1
      obtain ⟨lo', -, h1⟩ := bind_inv h1
      obtain ⟨hi', -, h1⟩ := bind_inv h1
      cases h1
      rfl
    · obtain ⟨m, -, h1⟩ := bind_inv h1
      cases h1
      rfl
  subst hkw
  have : (Kwargs.drop (Kwargs.drop kw ["length"]) ["pattern", "alphabet", "choices"]).lookup k = some c := by
    rw [lookup_drop (by rcases hk with rfl | rfl <;> decide), lookup_drop (by rcases hk with rfl | rfl <;> decide), hc]
  have := new_names h this
  rcases hk with rfl | rfl <;> revert this <;> decide

theorem readListLength_le {z : Option Nat × Option Nat × Kwargs} (h : readListLength kw = .ok z) : readLength kw = .ok z := by
  unfold readListLength at h
  unfold readLength
  dsimp only at h ⊢
  split at h
  case h_2 hl => exact h
  case h_1 a hl =>
    split at h
    case isFalse ha => rw [if_neg ha]; exact h
    case isTrue ha =>
      rw [if_pos ha]
      obtain ⟨⟨x, y⟩, h1, -⟩ := bind_inv h
      cases unpack_spec h1 <;> exact h

/-- The keywords that set lengths of a `List` are read as for a `String`. -/
theorem newList_spec (h : Field.newList args kw = .ok f) (h0 : kw.lookup "length" ≠ some (.val (.int 0))) :
    ∃ g lo hi allow, f.kind = .list g lo hi allow ∧ ∀ n, LenOK lo hi n ↔ LengthSpec kw n := by
  obtain ⟨⟨g, args', kw1⟩, h1, h⟩ := bind_inv h
  obtain ⟨⟨lo, hi, kw2⟩, h2, h⟩ := bind_inv h
  refine ⟨_, lo, hi, _, new_kind h, ?_⟩
  have hk1 : ∀ k, k ≠ "field" → kw1.lookup k = kw.lookup k := by
    intro k hk
    unfold readItem at h1
    split at h1
    · cases h1; rfl
    · obtain ⟨f, -, h1⟩ := bind_inv h1
      cases h1; rfl
    · split at h1 <;> cases h1
      exact lookup_drop (by simpa using hk)
  have e1 := hk1 "length" (by decide)
  have e2 := hk1 "min_length" (by decide)
  have e3 := hk1 "max_length" (by decide)
  have he : ∀ n, LengthSpec kw1 n ↔ LengthSpec kw n := by
    intro n
    constructor
    · rintro ⟨a, b, c, d, e⟩
      rw [e1] at a b c
      rw [e2] at d
      rw [e3] at e
      exact ⟨a, b, c, d, e⟩
    · rintro ⟨a, b, c, d, e⟩
      rw [← e1] at a b c
      rw [← e2] at d
      rw [← e3] at e
      exact ⟨a, b, c, d, e⟩
  obtain ⟨-, l2⟩ := readLength_spec (readListLength_le h2) (by rw [e1]; exact h0)
  have key : ∀ k, k ∉ ["allow_field"] → ¬ (k = "src" ∨ k ∈ optionNames) → kw2.lookup k = none := by
    intro k hk hn
    cases hl : kw2.lookup k with
    | none => rfl
    | some a =>
      have : (Kwargs.drop kw2 ["allow_field"]).lookup k = some a := by rw [lookup_drop hk, hl]
      exact absurd (new_names h this) hn
  intro n
  rw [← he]
  exact l2 ⟨key _ (by decide) (by decide), key _ (by decide) (by decide)⟩ n

/-- C71 for `List`, without `length=0`, in the setting of C24: the items `xs` were parsed, in the state `τ2`. -/
theorem C71_list_partial {name : Option String} {n : Nat} {xs : List Val} {τ2 : TSt P} {b2 : ErrBuf}
    (h : Field.newList args kw = .ok f) (h0 : kw.lookup "length" ≠ some (.val (.int 0)))
    (sp : Spot I W (f.attach name) s r q text b) (hC : C.All HookFree) (hfa : (f.attach name).All HookFree)
    (ha : f.core.attachParent = false) (ht : f.core.translations = [])
    (hi' : (Val.list xs).inList f.core.ignores = false) (hpr : Present I q) :
    ∃ g allow, (∃ lo hi, f.kind = .list g lo hi allow) ∧
    (Lex.listParse I (Lex.mapField I L C n) g allow ((f.attach name).innerEnv s.env)
      { s.view with path := some (some (r, asked I q)) } = (.ok (.list xs), τ2) → τ2.errs = some b2 →
    (LengthSpec kw xs.length → (mapField I L C (n + 1) (f.attach name) .NONE s).1 = .ok (.list xs) ∧
      curErrs (mapField I L C (n + 1) (f.attach name) .NONE s).2 = some b2) ∧
    (¬ LengthSpec kw xs.length → (mapField I L C (n + 1) (f.attach name) .NONE s).1 = .ok .ERROR ∧
      ∃ msg, curErrs (mapField I L C (n + 1) (f.attach name) .NONE s).2 = some { b2 with items := b2.items ++
        [{ kind := .invalid msg, path := text, field := name, pathRef := some r }] })) := by
  obtain ⟨g, lo, hi, allow, h1, h2⟩ := newList_spec h h0
  refine ⟨g, allow, ⟨lo, hi, h1⟩, fun hp hb2 => ?_⟩
  rw [← h2]
  exact C24_list_bounds sp hC hfa h1 ha ht hi' hpr hp hb2

/-! ## C72: bounds of numbers and dates -/

/-- The lower bound the keyword arguments of a number give: `None` for none. -/
inductive NumLower (kw : Kwargs) : Val → Prop
  | range {a : Arg} {v : Val} {y : Arg} : kw.lookup "range" = some a → a.IsPair (.val v) y → NumLower kw v
  | min {v : Val} : kw.lookup "min_value" = some (.val v) → NumLower kw v

/-- The upper bound. -/
inductive NumUpper (kw : Kwargs) : Val → Prop
  | range {a : Arg} {v : Val} {x : Arg} : kw.lookup "range" = some a → a.IsPair x (.val v) → NumUpper kw v
  | max {v : Val} : kw.lookup "max_value" = some (.val v) → NumUpper kw v

/-- The lower bound a method sets. -/
def Method.lower? : Method → Option Val
  | .min v => some v
  | .range l _ => some l
  | .after v => some v
  | .between l _ => some l
  | _ => none

/-- The upper bound a method sets. -/
def Method.upper? : Method → Option Val
  | .max v => some v
  | .range _ r => some r
  | .before v => some v
  | .between _ r => some r
  | _ => none

/-- What the last of the calls that sets it sets. -/
def lastSet (g : Method → Option Val) (ms : List Method) : Option Val := (ms.filterMap g).getLast?

theorem lastSet_cons (g : Method → Option Val) (m : Method) (ms : List Method) :
    lastSet g (m :: ms) = (lastSet g ms).or (g m) := by
  unfold lastSet
  rw [List.filterMap_cons]
  cases g m with
  | none => simp
  | some v =>
    rw [List.getLast?_cons]
    cases (ms.filterMap g).getLast? <;> rfl

/-- The bounds of a kind of field: `None` for none; of what has no bounds, nothing. -/
def Kind.bounds? : Kind → Option (Option Val × Option Val)
  | .integer c => some (c.min, c.max)
  | .float c => some (c.min, c.max)
  | .decimal c => some (c.min, c.max)
  | .date c => some (c.after, c.before)
  | .time c => some (c.after, c.before)
  | .datetime c => some (c.after, c.before)
  | .list _ lo hi _ => some (lo.map fun (n : Nat) => .int n, hi.map fun (n : Nat) => .int n)
  | _ => none

/-- The kind with its bounds left out. -/
def Kind.unbound : Kind → Kind
  | .integer _ => .integer {}
  | .float _ => .float {}
  | .decimal _ => .decimal {}
  | .date c => .date { format := c.format }
  | .time c => .time { format := c.format }
  | .datetime c => .datetime { format := c.format }
  | .list f _ _ allow => .list f none none allow
  | k => k

theorem size?_spec {v : Val} {o : Option Nat} (h : v.size? = .ok o) : o.map (fun (n : Nat) => Val.int n) = v.given? := by
  unfold Val.size? Arg.size at h
  split at h
  · rename_i hv; cases hv
  · rename_i hv; cases hv; cases h; rfl
  · rename_i i hv
    cases hv
    split at h
    case isTrue hi => cases h; simp [Val.given?, Int.toNat_of_nonneg hi]
    case isFalse => cases h
  · cases h

theorem Kind.call_spec {k k' : Kind} {m : Method} (h : k.call m = .ok k') {lo hi : Option Val} (hb : k.bounds? = some (lo, hi)) :
    k'.unbound = k.unbound ∧
    k'.bounds? = some ((m.lower?.map Val.given?).getD lo, (m.upper?.map Val.given?).getD hi) := by
  cases k <;> try (cases hb; done)
  case list f a b allow =>
    cases hb
    cases m <;> try (cases h; done)
    · obtain ⟨x, h1, h⟩ := bind_inv h
      cases h
      exact ⟨rfl, by simp [Kind.bounds?, Method.lower?, Method.upper?, size?_spec h1]⟩
    · obtain ⟨x, h1, h⟩ := bind_inv h
      cases h
      exact ⟨rfl, by simp [Kind.bounds?, Method.lower?, Method.upper?, size?_spec h1]⟩
    · obtain ⟨x, h1, h⟩ := bind_inv h
      obtain ⟨y, h2, h⟩ := bind_inv h
      cases h
      exact ⟨rfl, by simp [Kind.bounds?, Method.lower?, Method.upper?, size?_spec h1, size?_spec h2]⟩
  all_goals
    cases hb
    obtain ⟨c', h1, rfl⟩ := map_inv h
    cases m <;> cases h1 <;> exact ⟨rfl, rfl⟩

/-- C72, the methods.  Any chain of calls of `min`, `max`, `range`, `after`, `before` and `between` on a field with bounds
that raises nothing: each bound is what the last call that set it said (`None` takes it away), or as it was if none did;
nothing else about the field changes. -/
theorem C72_methods {ms : List Method} {g : Field} {lo hi : Option Val} (h : f.callAll ms = .ok g)
    (hb : f.kind.bounds? = some (lo, hi)) :
    g.core = f.core ∧ g.kind.unbound = f.kind.unbound ∧
    g.kind.bounds? = some (((lastSet Method.lower? ms).map Val.given?).getD lo, ((lastSet Method.upper? ms).map Val.given?).getD hi) := by
  induction ms generalizing f lo hi with
  | nil => cases h; exact ⟨rfl, rfl, hb⟩
  | cons m ms ih =>
    obtain ⟨f1, h1, h⟩ := bind_inv h
    obtain ⟨k1, h2, h1⟩ := bind_inv h1
    cases h1
    obtain ⟨a1, a2⟩ := Kind.call_spec h2 hb
    obtain ⟨b1, b2, b3⟩ := ih h a2
    refine ⟨b1, b2.trans a1, b3.trans ?_⟩
    rw [lastSet_cons, lastSet_cons]
    cases lastSet Method.lower? ms <;> cases lastSet Method.upper? ms <;> rfl

theorem bound_val {v : Val} {o : Option Val} (h : Arg.bound (some (.val v)) = .ok o) : o = v.given? := by
  cases v <;> cases h <;> rfl

theorem bound_some {a : Arg} {v : Val} (h : Arg.bound (some a) = .ok (some v)) : a = .val v ∧ v ≠ .none := by
  cases a <;> try (cases h; done)
  rename_i w
  cases w <;> cases h <;> exact ⟨rfl, by simp⟩

theorem bound_ne {a : Option Arg} {o : Option Val} (h : Arg.bound a = .ok o) : o ≠ some .none := by
  rintro rfl
  cases a with
  | none => cases h
  | some a => exact (bound_some h).2 rfl

theorem given_some {v w : Val} (h : v.given? = some w) : v = w ∧ w ≠ .none := by
  cases v <;> cases h <;> exact ⟨rfl, by simp⟩

theorem given_of_ne {v : Val} (h : v ≠ .none) : v.given? = some v := by
  cases v <;> first | rfl | exact absurd rfl h

/-- What the constructor of a number does with `range`, `min_value` and `max_value`. -/
theorem newNumber_spec {cls : NumClass} (h : Field.newNumber cls args kw = .ok f) :
    ∃ c kw', f.kind = cls.kind c ∧ Field.new (cls.kind c) args kw' = .ok f ∧
      (∀ k, k ∈ optionNames → kw'.lookup k = kw.lookup k) ∧
      (∀ v, v ≠ .none → (c.min = some v ↔ NumLower kw v)) ∧ (∀ v, v ≠ .none → (c.max = some v ↔ NumUpper kw v)) ∧
      c.min ≠ some .none ∧ c.max ≠ some .none := by
  unfold Field.newNumber at h
  dsimp only at h
  have byValues : ∀ {o : Option Arg}, kw.lookup "range" = o → (∀ a x y, o = some a → ¬ a.IsPair x y) →
      (do
        let min ← Arg.bound ((kw.drop ["range"]).lookup "min_value")
        let max ← Arg.bound ((kw.drop ["range"]).lookup "max_value")
        Field.new (cls.kind { min, max }) args ((kw.drop ["range"]).drop ["min_value", "max_value"])) = .ok f →
      ∃ c kw', f.kind = cls.kind c ∧ Field.new (cls.kind c) args kw' = .ok f ∧
      (∀ k, k ∈ optionNames → kw'.lookup k = kw.lookup k) ∧
      (∀ v, v ≠ .none → (c.min = some v ↔ NumLower kw v)) ∧ (∀ v, v ≠ .none → (c.max = some v ↔ NumUpper kw v)) ∧
      c.min ≠ some .none ∧ c.max ≠ some .none := by
    intro o ho hnp h
    obtain ⟨mn, h1, h⟩ := bind_inv h
    obtain ⟨mx, h2, h⟩ := bind_inv h
    rw [lookup_drop (by decide)] at h1 h2
    refine ⟨_, _, new_kind h, h, fun k hk => ?_, fun v hv => ?_, fun v hv => ?_, bound_ne h1, bound_ne h2⟩
    · have : ∀ k ∈ optionNames, k ∉ ["min_value", "max_value"] ∧ k ∉ ["range"] := by decide
      rw [lookup_drop (this k hk).1, lookup_drop (this k hk).2]
    · constructor
      · rintro ⟨⟩
        cases hl : kw.lookup "min_value" with
        | none => rw [hl] at h1; cases h1
        | some a =>
          rw [hl] at h1
          exact .min (hl.trans (by rw [(bound_some h1).1]))
      · intro hh
        cases hh with
        | range hr hp => exact absurd hp (hnp _ _ _ (ho.symm.trans hr))
        | min hm =>
          rw [hm] at h1
          rw [bound_val h1, given_of_ne hv]
    · constructor
      · rintro ⟨⟩
        cases hl : kw.lookup "max_value" with
        | none => rw [hl] at h2; cases h2
        | some a =>
          rw [hl] at h2
          exact .max (hl.trans (by rw [(bound_some h2).1]))
      · intro hh
        cases hh with
        | range hr hp => exact absurd hp (hnp _ _ _ (ho.symm.trans hr))
        | max hm =>
          rw [hm] at h2
          rw [bound_val h2, given_of_ne hv]
  split at h
  · rename_i hl
    exact byValues hl (by intro _ _ _ h; cases h) h
  · rename_i hl
    exact byValues hl (by rintro _ _ _ ⟨⟩ h; cases h) h
  · rename_i a _ hl
    obtain ⟨⟨x, y⟩, h1, h⟩ := bind_inv h
    obtain ⟨mn, h2, h⟩ := bind_inv h
    obtain ⟨mx, h3, h⟩ := bind_inv h
    have hp := unpack_spec h1
    have none_of : ∀ k, k ∈ ["min_value", "max_value"] → kw.lookup k = none := by
      intro k hk
      have h4 : ∀ k ∈ ["min_value", "max_value"], k ∉ ["range"] ∧ ¬ (k = "src" ∨ k ∈ optionNames) := by decide
      cases hl : kw.lookup k with
      | none => rfl
      | some a =>
        have : (Kwargs.drop kw ["range"]).lookup k = some a := by rw [lookup_drop (h4 k hk).1, hl]
        exact absurd (new_names h this) (h4 k hk).2
    refine ⟨_, _, new_kind h, h, fun k hk => ?_, fun v hv => ?_, fun v hv => ?_, bound_ne h2, bound_ne h3⟩
    · have : ∀ k ∈ optionNames, k ∉ ["range"] := by decide
      rw [lookup_drop (this k hk)]
    · constructor
      · rintro ⟨⟩
        have := (bound_some h2).1
        subst this
        exact .range hl hp
      · intro hh
        cases hh with
        | range hr hp' =>
          rw [hl] at hr
          cases hr
          obtain ⟨rfl, -⟩ := hp.inj hp'
          rw [bound_val h2, given_of_ne hv]
        | min hm => rw [none_of _ (by simp)] at hm; cases hm
    · constructor
      · rintro ⟨⟩
        have := (bound_some h3).1
        subst this
        exact .range hl hp
      · intro hh
        cases hh with
        | range hr hp' =>
          rw [hl] at hr
          cases hr
          obtain ⟨-, rfl⟩ := hp.inj hp'
          rw [bound_val h3, given_of_ne hv]
        | max hm => rw [none_of _ (by simp)] at hm; cases hm

/-- The bound in force: the one set last by a method, else the one given to the constructor. -/
def InForce (given : Val → Prop) (set : Option Val) (v : Val) : Prop := set = some v ∨ set = none ∧ given v

theorem inForce_iff {given : Val → Prop} {c : Option Val} (h : ∀ v, v ≠ .none → (c = some v ↔ given v)) (set : Option Val)
    {v : Val} (hv : v ≠ .none) : ((set.map Val.given?).getD c = some v ↔ InForce given set v) := by
  unfold InForce
  cases set with
  | none => simp [h v hv]
  | some w =>
    simp only [Option.map_some, Option.getD_some, Option.some.injEq, reduceCtorEq, false_and, or_false]
    exact ⟨fun h => (given_some h).1, fun h => by rw [h]; exact given_of_ne hv⟩

theorem Field.Unadorned.recore {g : Field} (hb : f.Unadorned) (hc : g.core = f.core) (hk : ∀ kf vf h r m, g.kind ≠ .dict kf vf (some h) r m) :
    g.Unadorned := by
  have h := hb.free
  refine ⟨⟨by rw [hc]; exact h.default, by rw [hc]; exact h.resolve, by rw [hc]; exact h.compute, by rw [hc]; exact h.parse,
    by rw [hc]; exact h.munge, by rw [hc]; exact h.filter, by rw [hc]; exact h.validate, ?_⟩, by rw [hc]; exact hb.attachParent,
    by rw [hc]; exact hb.translations, by rw [hc]; exact hb.ignores⟩
  intro kf vf k r m hh
  exact absurd hh (hk kf vf k r m)

/-- C72 for `Integer` and `Float`.  A field made by the constructor with any arguments it takes, except for those excluded by
`Simple`, then any chain of calls of methods that set bounds, then attached under any name; all bounds numbers or `None`,
none of them nan.  At a place where the source has the number `v`, not nan: it gives `v` and no error if `v` is neither
below the lower bound in force nor above the upper one; otherwise `ERROR`, with one `Invalid` error. -/
theorem C72_number {cls : NumClass} {ty : PTy} {name : Option String} {ms : List Method} {g : Field} {v : Val} {x : Num}
    (h : Field.newNumber cls args kw = .ok f) (hg : f.callAll ms = .ok g) (hs : kw.Simple)
    (hcls : (cls = .integer ∧ ty = .int) ∨ (cls = .float ∧ ty = .float))
    (sp : Spot I W (g.attach name) s r q text b) (hpr : Present I q)
    (hv : (I.primitive ty (asked I q)).1 = .ok v) (hx : v.num? = some x) (hnan : x ≠ .nan)
    (hlo : ∀ w, InForce (NumLower kw) (lastSet Method.lower? ms) w → w = .none ∨ ∃ y, w.num? = some y ∧ y ≠ .nan)
    (hhi : ∀ w, InForce (NumUpper kw) (lastSet Method.upper? ms) w → w = .none ∨ ∃ y, w.num? = some y ∧ y ≠ .nan) :
    let Within := (∀ w y, InForce (NumLower kw) (lastSet Method.lower? ms) w → w.num? = some y → y.Le x) ∧
      (∀ w y, InForce (NumUpper kw) (lastSet Method.upper? ms) w → w.num? = some y → x.Le y)
    (Within → Accepts (mapFieldF I L C rec (g.attach name) .NONE) s v) ∧
    (¬ Within → Rejects (mapFieldF I L C rec (g.attach name) .NONE) s (g.attach name) text r) := by
  intro Within
  obtain ⟨c0, kw', h1, h2, h3, h4, h5, h6, h7⟩ := newNumber_spec h
  have hs' : kw'.Simple := ⟨(h3 _ (by decide)).trans hs.translate, (h3 _ (by decide)).trans hs.ignore,
    (h3 _ (by decide)).trans hs.attachParent, fun p hp => hs.default p ((h3 _ (by decide)).symm.trans hp)⟩
  have hb0 : f.kind.bounds? = some (c0.min, c0.max) := by rw [h1]; cases cls <;> rfl
  obtain ⟨m1, m2, m3⟩ := C72_methods hg hb0
  obtain ⟨c, hk⟩ : ∃ c, g.kind = cls.kind c := by
    rw [h1] at m2
    revert m2
    cases cls <;> cases g.kind <;> intro m2 <;> first | exact ⟨_, rfl⟩ | (cases m2)
  have hbare : (f.attach name).Unadorned := new_bare h2 hs' (by intro _ _ _ _ _ h; cases cls <;> cases h) name
  have hb : (g.attach name).Unadorned := by
    refine hbare.recore ?_ ?_
    · unfold Field.attach Field.with
      show FieldCore.mk _ _ _ _ _ _ _ _ _ _ _ _ _ _ = _
      rw [m1]
      rfl
    · intro _ _ _ _ _ h
      rw [attach_kind, hk] at h
      cases cls <;> cases h
  have hmm : c.min = ((lastSet Method.lower? ms).map Val.given?).getD c0.min ∧
      c.max = ((lastSet Method.upper? ms).map Val.given?).getD c0.max := by
    have : g.kind.bounds? = some (c.min, c.max) := by rw [hk]; cases cls <;> rfl
    rw [this] at m3
    simpa using m3
  have hlow : ∀ w, w ≠ .none → (c.min = some w ↔ InForce (NumLower kw) (lastSet Method.lower? ms) w) := fun w hw => by
    rw [hmm.1]; exact inForce_iff h4 _ hw
  have hupp : ∀ w, w ≠ .none → (c.max = some w ↔ InForce (NumUpper kw) (lastSet Method.upper? ms) w) := fun w hw => by
    rw [hmm.2]; exact inForce_iff h5 _ hw
  have nn : ∀ {set : Option Val} {o w}, o ≠ some Val.none → (set.map Val.given?).getD o = some w → w ≠ .none := by
    rintro set o w ho hw rfl
    cases set with
    | some u => exact (given_some hw).2 rfl
    | none => exact ho hw
  have nn1 : ∀ w, c.min = some w → w ≠ .none := fun w hw => nn h6 (hmm.1.symm.trans hw)
  have nn2 : ∀ w, c.max = some w → w ≠ .none := fun w hw => nn h7 (hmm.2.symm.trans hw)
  have hbounds : BoundsOK c := by
    constructor
    · intro w hw
      exact (hlo w ((hlow w (nn1 w hw)).1 hw)).resolve_left (nn1 w hw)
    · intro w hw
      exact (hhi w ((hupp w (nn2 w hw)).1 hw)).resolve_left (nn2 w hw)
  have hiff : InRange c x ↔ Within := by
    constructor
    · intro hr
      refine ⟨fun w y hw hy => ?_, fun w y hw hy => ?_⟩
      · have hne : w ≠ .none := by rintro rfl; cases hy
        exact hr.min w y ((hlow w hne).2 hw) hy
      · have hne : w ≠ .none := by rintro rfl; cases hy
        exact hr.max w y ((hupp w hne).2 hw) hy
    · intro hr
      exact ⟨fun w y hw hy => hr.1 w y ((hlow w (nn1 w hw)).1 hw) hy, fun w y hw hy => hr.2 w y ((hupp w (nn2 w hw)).1 hw) hy⟩
  rw [← hiff]
  refine C13_number_partial (c := c) (ty := ty) sp hb.free ?_ hb.attachParent hb.translations (by rw [hb.ignores]; rfl) hpr hv hx
    hnan hbounds
  rw [attach_kind, hk]
  rcases hcls with ⟨rfl, rfl⟩ | ⟨rfl, rfl⟩ <;> rfl

/-- The bound the keyword arguments of a `Date`, `Time` or `Datetime` give. -/
def DateGiven (kw : Kwargs) (k : String) (v : Val) : Prop := kw.lookup k = some (.val v)

theorem newDate_spec {cls : DateClass} (h : Field.newDate cls args kw = .ok f) :
    ∃ c kw', f.kind = cls.kind c ∧ Field.new (cls.kind c) args kw' = .ok f ∧
      (∀ k, k ∈ optionNames → kw'.lookup k = kw.lookup k) ∧
      (∀ v, v ≠ .none → (c.after = some v ↔ DateGiven kw "after" v)) ∧
      (∀ v, v ≠ .none → (c.before = some v ↔ DateGiven kw "before" v)) ∧
      c.after ≠ some .none ∧ c.before ≠ some .none := by
  obtain ⟨a, h1, h⟩ := bind_inv h
  obtain ⟨b, h2, h⟩ := bind_inv h
  obtain ⟨fm, h3, h⟩ := bind_inv h
  have key : ∀ {k : String} {o : Option Val}, Arg.bound (kw.lookup k) = .ok o → ∀ v, v ≠ .none →
      (o = some v ↔ DateGiven kw k v) := by
    intro k o ho v hv
    constructor
    · rintro rfl
      cases hl : kw.lookup k with
      | none => rw [hl] at ho; cases ho
      | some a =>
        rw [hl] at ho
        exact hl.trans (by rw [(bound_some ho).1])
    · intro hm
      unfold DateGiven at hm
      rw [hm] at ho
      rw [bound_val ho, given_of_ne hv]
  refine ⟨_, _, new_kind h, h, fun k hk => ?_, key h1, key h2, bound_ne h1, bound_ne h2⟩
  have : ∀ k ∈ optionNames, k ∉ ["after", "before", "format"] := by decide
  rw [lookup_drop (this k hk)]

/-- C72 for `Date`, `Time` and `Datetime`, in the setting of C54: the field reads the moment `d`, and the bounds are of its
type or `None`. -/
theorem C72_date {cls : DateClass} {name : Option String} {ms : List Method} {g : Field} {v : Val} {t : ExtTy} {d : Int}
    (h : Field.newDate cls args kw = .ok f) (hg : f.callAll ms = .ok g) (hs : kw.Simple)
    (sp : Spot I W (g.attach name) s r q text b) (hx : Holds I q v) (hr : Reads L g.kind v t d)
    (hlo : ∀ w, InForce (DateGiven kw "after") (lastSet Method.lower? ms) w → w = .none ∨ ∃ n, w = .ext t n)
    (hhi : ∀ w, InForce (DateGiven kw "before") (lastSet Method.upper? ms) w → w = .none ∨ ∃ n, w = .ext t n) :
    let Within := (∀ n, InForce (DateGiven kw "after") (lastSet Method.lower? ms) (.ext t n) → n ≤ d) ∧
      (∀ n, InForce (DateGiven kw "before") (lastSet Method.upper? ms) (.ext t n) → d ≤ n)
    (Within → Accepts (mapFieldF I L C rec (g.attach name) .NONE) s (.ext t d)) ∧
    (¬ Within → Rejects (mapFieldF I L C rec (g.attach name) .NONE) s (g.attach name) text r) := by
  intro Within
  obtain ⟨c0, kw', h1, h2, h3, h4, h5, h6, h7⟩ := newDate_spec h
  have hs' : kw'.Simple := ⟨(h3 _ (by decide)).trans hs.translate, (h3 _ (by decide)).trans hs.ignore,
    (h3 _ (by decide)).trans hs.attachParent, fun p hp => hs.default p ((h3 _ (by decide)).symm.trans hp)⟩
  have hb0 : f.kind.bounds? = some (c0.after, c0.before) := by rw [h1]; cases cls <;> rfl
  obtain ⟨m1, m2, m3⟩ := C72_methods hg hb0
  obtain ⟨c, hk⟩ : ∃ c, g.kind = cls.kind c := by
    rw [h1] at m2
    revert m2
    cases cls <;> cases g.kind <;> intro m2 <;> first | exact ⟨_, rfl⟩ | (cases m2)
  have hbare : (f.attach name).Unadorned := new_bare h2 hs' (by intro _ _ _ _ _ h; cases cls <;> cases h) name
  have hb : (g.attach name).Unadorned := by
    refine hbare.recore ?_ ?_
    · unfold Field.attach Field.with
      show FieldCore.mk _ _ _ _ _ _ _ _ _ _ _ _ _ _ = _
      rw [m1]
      rfl
    · intro _ _ _ _ _ h
      rw [attach_kind, hk] at h
      cases cls <;> cases h
  have hmm : c.after = ((lastSet Method.lower? ms).map Val.given?).getD c0.after ∧
      c.before = ((lastSet Method.upper? ms).map Val.given?).getD c0.before := by
    have : g.kind.bounds? = some (c.after, c.before) := by rw [hk]; cases cls <;> rfl
    rw [this] at m3
    simpa using m3
  have hlow : ∀ w, w ≠ .none → (c.after = some w ↔ InForce (DateGiven kw "after") (lastSet Method.lower? ms) w) :=
    fun w hw => by rw [hmm.1]; exact inForce_iff h4 _ hw
  have hupp : ∀ w, w ≠ .none → (c.before = some w ↔ InForce (DateGiven kw "before") (lastSet Method.upper? ms) w) :=
    fun w hw => by rw [hmm.2]; exact inForce_iff h5 _ hw
  have nn : ∀ {set : Option Val} {o w}, o ≠ some Val.none → (set.map Val.given?).getD o = some w → w ≠ .none := by
    rintro set o w ho hw rfl
    cases set with
    | some u => exact (given_some hw).2 rfl
    | none => exact ho hw
  have hwin : WindowOf c t := by
    constructor
    · intro w hw
      have hn := nn h6 (hmm.1.symm.trans hw)
      exact (hlo w ((hlow w hn).1 hw)).resolve_left hn
    · intro w hw
      have hn := nn h7 (hmm.2.symm.trans hw)
      exact (hhi w ((hupp w hn).1 hw)).resolve_left hn
  have hiff : InWindow c t d ↔ Within :=
    ⟨fun hr => ⟨fun n hn => hr.after n ((hlow _ (by simp)).2 hn), fun n hn => hr.before n ((hupp _ (by simp)).2 hn)⟩,
      fun hr => ⟨fun n hn => hr.1 n ((hlow _ (by simp)).1 hn), fun n hn => hr.2 n ((hupp _ (by simp)).1 hn)⟩⟩
  rw [← hiff]
  exact C54_window_partial sp hb.free (by rw [attach_kind, hk]; cases cls <;> rfl) hb.attachParent hb.translations
    (by rw [hb.ignores]; rfl) hx hr hwin

end Pilo
