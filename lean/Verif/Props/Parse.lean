import Verif.Api
import Verif.Demo

/-!
# C15–C18: primitive parsing
-/

namespace Pilo
variable {L : Lib}

/-! ## Specifications -/

/-- `i` is the integer a native value denotes when it is read as an integer. -/
inductive IntOf (L : Lib) : Val → Int → Prop where
  | int (i : Int) : IntOf L (.int i) i
  | float (i : Int) : IntOf L (.float (.fin i)) i
  | str {s : String} {i : Int} (h : L.intOfStr s = some i) : IntOf L (.str s) i

/-- `b` is the truth value a native value denotes when it is read as a boolean; Python 2's `long`s are
not `int`s. -/
inductive BoolOf (L : Lib) : Val → Bool → Prop where
  | bool (b : Bool) : BoolOf L (.bool b) b
  | int {i : Int} {b : Bool} (hp : isPyInt L i = true) (h : b = true ↔ i ≠ 0) : BoolOf L (.int i) b
  | no {s : String} (h : L.lower s = "0" ∨ L.lower s = "f" ∨ L.lower s = "false") :
      BoolOf L (.str s) false
  | yes {s : String} (h : L.lower s = "1" ∨ L.lower s = "t" ∨ L.lower s = "true") :
      BoolOf L (.str s) true

/-- `x` is the float a native value denotes when it is read as a float. -/
inductive FloatOf (L : Lib) : Val → Num → Prop where
  | float (x : Num) : FloatOf L (.float x) x
  | int {i : Int} {x : Num} (h : L.floatOfInt i = some x) : FloatOf L (.int i) x
  | bool {b : Bool} {x : Num} (h : L.floatOfInt (if b then 1 else 0) = some x) : FloatOf L (.bool b) x
  | str {s : String} {x : Num} (h : L.floatOfStr s = some x) : FloatOf L (.str s) x

/-- The value `v` read as an integer is numerically `i`: exactly for numbers, through `int()` for
strings. -/
theorem IntOf.numeric {v : Val} {i : Int} (h : IntOf L v i) (hs : v.isStr = false) :
    v.num? = some (.fin i) := by
  cases h with
  | int => rfl
  | float => rfl
  | str => simp [Val.isStr] at hs

theorem Num.isInteger_iff (x : Num) : x.isInteger = true ↔ ∃ i : Int, x = .fin i := by
  cases x with
  | fin q =>
    simp only [Num.isInteger, beq_iff_eq, Num.fin.injEq]
    constructor
    · intro h
      refine ⟨q.num, Rat.ext ?_ ?_⟩
      · simp
      · simp [h]
    · rintro ⟨i, rfl⟩; rfl
  | inf b => simp [Num.isInteger]
  | nan => simp [Num.isInteger]

/-! ## Reading through a path -/

/-- What `path.primitive(ty)` makes of a value, for a source that uses `ParserMixin`. -/
theorem primitive_default (ty : PTy) (cfg : DefaultCfg) (st : PathSt Val) {v : Val}
    (hv : (SPath.value L (.dflt cfg st)).1 = .ok v) :
    (SPath.primitive L ty (.dflt cfg st)).1 = parseNative L ty v := by
  cases h : SPath.valueDflt L cfg st with
  | mk r st' =>
    simp only [SPath.value, SPath.primitive, SPath.withValue, h] at hv ⊢
    cases r with
    | ok w => simp only [Except.ok.injEq] at hv; subst hv; rfl
    | error e => simp at hv

/-- The same for a JSON source. -/
theorem primitive_json (ty : PTy) (strict : Bool) (loc : Option String) (st : PathSt Val) {v : Val}
    (hv : (SPath.value L (.json strict loc st)).1 = .ok v) :
    (SPath.primitive L ty (.json strict loc st)).1 = parseJson L strict ty v := by
  cases h : SPath.valueJson st with
  | mk r st' =>
    simp only [SPath.value, SPath.primitive, SPath.withValue, h] at hv ⊢
    cases r with
    | ok w => simp only [Except.ok.injEq] at hv; subst hv; rfl
    | error e => simp at hv

/-! ## C15 -/

theorem asInt_ok (v w : Val) : asInt L v = .ok w ↔ ∃ i, w = .int i ∧ IntOf L v i := by
  constructor
  · intro h
    unfold asInt at h
    split at h
    · cases h; exact ⟨_, rfl, .int _⟩
    · split at h
      · rename_i x hx
        obtain ⟨i, rfl⟩ := (Num.isInteger_iff x).1 hx
        cases h; exact ⟨_, rfl, .float i⟩
      · cases h
    · split at h
      · rename_i i hi; cases h; exact ⟨_, rfl, .str hi⟩
      · cases h
    · cases h
  · rintro ⟨i, rfl, h⟩
    cases h with
    | int => rfl
    | float =>
      have : (Num.fin (i : Rat)).isInteger = true := (Num.isInteger_iff _).2 ⟨i, rfl⟩
      simp only [asInt, this, if_true]; rfl
    | str hs => simp [asInt, hs]

theorem asInt_error {v : Val} {e : Exc} (h : asInt L v = .error e) : e.isSourceError = true := by
  unfold asInt at h
  repeat' split at h
  all_goals first | (cases h; rfl) | cases h

/-- C15. Reading a native value as `int` gives exactly the integer it denotes, or a `SourceError` when it
denotes none. -/
theorem C15_int_exact (cfg : DefaultCfg) (st : PathSt Val) {v : Val}
    (hv : (SPath.value L (.dflt cfg st)).1 = .ok v) :
    (∀ w, (SPath.primitive L .int (.dflt cfg st)).1 = .ok w ↔ ∃ i, w = .int i ∧ IntOf L v i) ∧
    ((¬ ∃ i, IntOf L v i) →
      ∃ msg, (SPath.primitive L .int (.dflt cfg st)).1 = .error (.sourceError msg)) := by
  rw [primitive_default .int cfg st hv]
  refine ⟨fun w => asInt_ok v w, fun h => ?_⟩
  show ∃ msg, asInt L v = _
  cases hr : asInt L v with
  | ok w =>
    obtain ⟨i, _, hi⟩ := (asInt_ok v w).1 hr
    exact absurd ⟨i, hi⟩ h
  | error e =>
    have := asInt_error hr
    cases e <;> simp [Exc.isSourceError] at this
    exact ⟨_, rfl⟩

/-- A boolean denotes no integer; a number denotes at most the integer it equals. -/
theorem C15_no_bool (b : Bool) : ¬ ∃ i, IntOf L (.bool b) i := by
  rintro ⟨i, h⟩; cases h

example : (SPath.primitive Demo.lib .int (SPath.native (.float (.fin 3)) none)).1 = .ok (.int 3) :=
  ((C15_int_exact (L := Demo.lib) {} { root := .float (.fin 3), parts := [] } rfl).1 _).2 ⟨3, rfl, .float 3⟩

example : ∃ m, (SPath.primitive Demo.lib .int (SPath.native (.bool true) none)).1
    = .error (.sourceError m) :=
  (C15_int_exact (L := Demo.lib) {} { root := .bool true, parts := [] } rfl).2 (C15_no_bool true)

/-! ## C16 -/

theorem asBool_ok (v w : Val) (hL : ∀ s : String, ¬ (["0", "f", "false"].contains (L.lower s) = true ∧
      ["1", "t", "true"].contains (L.lower s) = true)) :
    asBool L v = .ok w ↔ ∃ b, w = .bool b ∧ BoolOf L v b := by
  constructor
  · intro h
    unfold asBool at h
    split at h
    · cases h; exact ⟨_, rfl, .bool _⟩
    · split at h
      · rename_i i hp; cases h
        exact ⟨_, rfl, .int hp (by simp)⟩
      · cases h
    · split at h
      · rename_i s hs; cases h; exact ⟨_, rfl, .no (by simpa using hs)⟩
      · split at h
        · rename_i s _ hs; cases h; exact ⟨_, rfl, .yes (by simpa using hs)⟩
        · cases h
    · cases h
  · rintro ⟨b, rfl, h⟩
    cases h with
    | bool => rfl
    | @int i _ hp hb =>
      simp only [asBool, hp, if_true, Except.ok.injEq, Val.bool.injEq]
      cases b <;> simp_all
    | @no s hs =>
      have : ["0", "f", "false"].contains (L.lower s) = true := by simpa using hs
      simp only [asBool]; rw [if_pos this]
    | @yes s hs =>
      have h1 : ["1", "t", "true"].contains (L.lower s) = true := by simpa using hs
      have h0 : ¬ ["0", "f", "false"].contains (L.lower s) = true := fun h => hL s ⟨h, h1⟩
      simp only [asBool]; rw [if_neg h0, if_pos h1]

theorem boolWords_disjoint (s : String) : ¬ (["0", "f", "false"].contains s = true ∧
    ["1", "t", "true"].contains s = true) := by
  intro ⟨h0, h1⟩
  simp only [List.contains_cons, List.contains_nil, Bool.or_false, Bool.or_eq_true, beq_iff_eq] at h0 h1
  rcases h0 with h | h | h <;> subst h <;> revert h1 <;> decide

theorem asBool_error {v : Val} {e : Exc} (h : asBool L v = .error e) : e.isSourceError = true := by
  unfold asBool at h
  repeat' split at h
  all_goals first | (cases h; rfl) | cases h

/-- C16. Reading a native value as `bool` gives exactly the truth value it denotes, always a `bool`, or a
`SourceError` when it denotes none. -/
theorem C16_bool_exact (cfg : DefaultCfg) (st : PathSt Val) {v : Val}
    (hv : (SPath.value L (.dflt cfg st)).1 = .ok v) :
    (∀ w, (SPath.primitive L .bool (.dflt cfg st)).1 = .ok w ↔ ∃ b, w = .bool b ∧ BoolOf L v b) ∧
    ((¬ ∃ b, BoolOf L v b) →
      ∃ msg, (SPath.primitive L .bool (.dflt cfg st)).1 = .error (.sourceError msg)) := by
  rw [primitive_default .bool cfg st hv]
  have hok := fun w => asBool_ok (L := L) v w fun s => boolWords_disjoint (L.lower s)
  refine ⟨hok, fun h => ?_⟩
  show ∃ msg, asBool L v = _
  cases hr : asBool L v with
  | ok w =>
    obtain ⟨i, _, hi⟩ := (hok w).1 hr
    exact absurd ⟨i, hi⟩ h
  | error e =>
    have := asBool_error hr
    cases e <;> simp [Exc.isSourceError] at this
    exact ⟨_, rfl⟩

/-- Under Python 3 every integer is covered; under Python 2 only machine integers are. -/
theorem C16_every_int (h3 : L.py3 = true) (i : Int) : BoolOf L (.int i) (i != 0) :=
  .int (by simp [isPyInt, h3]) (by simp)

/-- The property is stated for all integers; under Python 2.7 a `long` is rejected. -/
theorem C16_long_counterexample (h2 : L.py3 = false) : ¬ ∃ b, BoolOf L (.int (2 ^ 63)) b := by
  rintro ⟨b, h⟩
  cases h with
  | int hp _ => simp [isPyInt, h2] at hp

example : (SPath.primitive Demo.lib .bool (SPath.native (.int (-4)) none)).1 = .ok (.bool true) :=
  ((C16_bool_exact (L := Demo.lib) {} { root := .int (-4), parts := [] } rfl).1 _).2
    ⟨true, rfl, C16_every_int rfl (-4)⟩

/-! ## C17 -/

/-- C17, strings: exactly strings are accepted, unchanged. -/
theorem C17_string_exact (cfg : DefaultCfg) (st : PathSt Val) {v : Val}
    (hv : (SPath.value L (.dflt cfg st)).1 = .ok v) :
    (∀ w, (SPath.primitive L .str (.dflt cfg st)).1 = .ok w ↔ w = v ∧ ∃ s, v = .str s) ∧
    ((¬ ∃ s, v = .str s) →
      ∃ msg, (SPath.primitive L .str (.dflt cfg st)).1 = .error (.sourceError msg)) := by
  rw [primitive_default .str cfg st hv]
  show (∀ w, asString L v = _ ↔ _) ∧ (_ → ∃ msg, asString L v = _)
  constructor
  · intro w
    constructor
    · intro h
      unfold asString at h
      split at h
      · cases h; exact ⟨rfl, _, rfl⟩
      · cases h
    · rintro ⟨rfl, s, rfl⟩; rfl
  · intro h
    unfold asString
    split
    · exact absurd ⟨_, rfl⟩ h
    · exact ⟨_, rfl⟩

theorem asFloat_ok (v w : Val) : asFloat L v = .ok w ↔ ∃ x, w = .float x ∧ FloatOf L v x := by
  constructor
  · intro h
    unfold asFloat floatInt at h
    split at h
    · cases h; exact ⟨_, rfl, .float _⟩
    · split at h
      · rename_i x hx; cases h; exact ⟨_, rfl, .int hx⟩
      · cases h
    · split at h
      · rename_i x hx; cases h; exact ⟨_, rfl, .bool hx⟩
      · cases h
    · split at h
      · rename_i x hx; cases h; exact ⟨_, rfl, .str hx⟩
      · cases h
    · cases h
  · rintro ⟨x, rfl, h⟩
    cases h with
    | float => rfl
    | int h => simp [asFloat, floatInt, h]
    | bool h => simp [asFloat, floatInt, h]
    | str h => simp [asFloat, h]

/-- C17, floats: accepted exactly when the value denotes a float; everything else is a `SourceError`,
except integers too large for a float, for which `float()` raises `OverflowError`. -/
theorem C17_float_exact_partial (cfg : DefaultCfg) (st : PathSt Val) {v : Val}
    (hv : (SPath.value L (.dflt cfg st)).1 = .ok v) :
    (∀ w, (SPath.primitive L .float (.dflt cfg st)).1 = .ok w ↔ ∃ x, w = .float x ∧ FloatOf L v x) ∧
    (v.isIntLike = false → (¬ ∃ x, FloatOf L v x) →
      ∃ msg, (SPath.primitive L .float (.dflt cfg st)).1 = .error (.sourceError msg)) := by
  rw [primitive_default .float cfg st hv]
  refine ⟨fun w => asFloat_ok v w, fun hi h => ?_⟩
  show ∃ msg, asFloat L v = _
  unfold asFloat
  split
  · exact absurd ⟨_, .float _⟩ h
  · simp [Val.isIntLike] at hi
  · simp [Val.isIntLike] at hi
  · split
    · rename_i x hx; exact absurd ⟨_, .str hx⟩ h
    · exact ⟨_, rfl⟩
  · exact ⟨_, rfl⟩

/-- A huge integer read as a float escapes as `OverflowError`, not as a `SourceError`. -/
theorem C17_overflow_counterexample (i : Int) (h : L.floatOfInt i = none) :
    (SPath.primitive L .float (SPath.native (.int i) none)).1
      = .error (.other "OverflowError" "int too large to convert to float") := by
  have := primitive_default (L := L) .float {} { root := .int i, parts := [] } rfl
  unfold SPath.native
  rw [this]
  simp [parseNative, asFloat, floatInt, h]

example : (SPath.primitive Demo.lib .float (SPath.native (.int 2) none)).1 = .ok (.float (.fin 2)) :=
  ((C17_float_exact_partial (L := Demo.lib) {} { root := .int 2, parts := [] } rfl).1 _).2
    ⟨.fin 2, rfl, .int rfl⟩

/-! ## C18 -/

/-- `v` is of the JSON type `ty` asks for. -/
def OwnType : PTy → Val → Prop
  | .str, v => ∃ s, v = .str s
  | .int, v => ∃ i, v = .int i
  | .bool, v => ∃ b, v = .bool b
  | .float, v => ∃ x, v = .float x
  | .auto, _ => True

/-- C18, strict: apart from integers read as floats, exactly the values of the requested type are
accepted, unchanged; the others are `SourceError`s. -/
theorem C18_strict (ty : PTy) (loc : Option String) (st : PathSt Val) {v : Val}
    (hv : (SPath.value L (.json true loc st)).1 = .ok v) (hf : ty = .float → v.isIntLike = false) :
    (∀ w, (SPath.primitive L ty (.json true loc st)).1 = .ok w ↔ w = v ∧ OwnType ty v) ∧
    (¬ OwnType ty v →
      ∃ msg, (SPath.primitive L ty (.json true loc st)).1 = .error (.sourceError msg)) := by
  rw [primitive_json ty true loc st hv]
  clear hv
  cases ty <;> cases v <;>
    simp_all [parseJson, jsonString, jsonInt, jsonFloat, jsonBool, OwnType, Val.isIntLike, notAJ, eq_comm]

/-- C18: an integer (or boolean, which is an integer in Python) read as a float is converted. -/
theorem C18_strict_int_as_float (loc : Option String) (st : PathSt Val) {i : Int}
    (hv : (SPath.value L (.json true loc st)).1 = .ok (.int i)) (w : Val) :
    (SPath.primitive L .float (.json true loc st)).1 = .ok w ↔
      ∃ x, w = .float x ∧ L.floatOfInt i = some x := by
  rw [primitive_json .float true loc st hv]
  simp only [parseJson, jsonFloat, floatInt]
  cases L.floatOfInt i <;> simp [eq_comm]

/-- C18: without `strict` everything accepted with `strict` is accepted with the same result. -/
theorem C18_lenient_extends (ty : PTy) (loc : Option String) (st : PathSt Val) {v w : Val}
    (hv : (SPath.value L (.json true loc st)).1 = .ok v)
    (h : (SPath.primitive L ty (.json true loc st)).1 = .ok w) :
    (SPath.primitive L ty (.json false loc st)).1 = .ok w := by
  have hv' : (SPath.value L (.json false loc st)).1 = .ok v := by
    cases hj : SPath.valueJson st with
    | mk r st' =>
      simp only [SPath.value, SPath.withValue, hj] at hv ⊢
      cases r <;> simp_all
  rw [primitive_json ty true loc st hv] at h
  rw [primitive_json ty false loc st hv']
  revert h
  cases ty <;> cases v <;> simp [parseJson, jsonString, jsonInt, jsonFloat, jsonBool]

/-- Not strict: a string is read as an integer; strict: it is not. -/
example : (SPath.primitive Demo.lib .int (.json false none { root := .str "12", parts := [] })).1
    = .ok (.int 12) := by rfl
example : ∃ m, (SPath.primitive Demo.lib .int (.json true none { root := .str "12", parts := [] })).1
    = .error (.sourceError m) :=
  (C18_strict (L := Demo.lib) .int none { root := .str "12", parts := [] } rfl (by simp)).2
    (by rintro ⟨i, h⟩; cases h)

end Pilo
