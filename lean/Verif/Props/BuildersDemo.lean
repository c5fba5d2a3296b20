import Verif.Props.Format
import Verif.Props.Unparsable

/-!
# C60 to C63 on concrete fields, and where the code does something else
-/

namespace Pilo
namespace Demo

/-- The longest prefix of characters satisfying `p`, as an expression with one group, `digits`. -/
def prefixRe (p : Char → Bool) : Regex where
  text := "prefix"
  run x :=
    let t := String.ofList (x.toList.takeWhile p)
    if t = "" then none else some { whole := t, group := fun g => if g = .str "digits" ∨ g = .int 1 then some (.str t) else none }

/-- `\d+` -/
def digitsRe : Regex := prefixRe Char.isDigit

/-- `[\d.]+` -/
def floatRe : Regex := prefixRe fun c => c.isDigit || c = '.'

/-- Python's `float`, for one text. -/
def floatLib : Lib := { lib with floatOfStr := fun t => if t = "1.5" then some (.fin (3 / 2)) else none }

/-- A `String` and a number field named `a`. -/
def strA (c : StrCfg) : Field := field "a" (.string c)
def intA (c : NumCfg) : Field := field "a" (.integer c)

theorem free_str (c : StrCfg) : HookFree (strA c) := free _ _ (by intro _ _ _ _ _ h; cases h)
theorem free_int (c : NumCfg) : HookFree (intA c) := free _ _ (by intro _ _ _ _ _ h; cases h)

/-- The source `{"a": v}` at a mapping of a form. -/
abbrev given (L : Lib) (v : Val) : St SPath := here (SPath.ops L) (.dict [(.str "a", v)])

theorem at_a (L : Lib) (f : Field) (v : Val) (hf : f.core.src = .str "a") (hg : ∀ fs, f.kind ≠ .group fs) :
    Spot (SPath.ops L) (SPath.lawful L) f (given L v) 0 (placeOf (.dict [(.str "a", v)]) "a") "a" ⟨false, []⟩ :=
  here_spot L f _ hf hg

theorem present_str (x : String) : Present (SPath.ops lib) (placeOf (.dict [(.str "a", .str x)]) "a") := ⟨rfl, rfl⟩

theorem read_str (x : String) :
    ((SPath.ops lib).primitive .str (asked (SPath.ops lib) (placeOf (.dict [(.str "a", .str x)]) "a"))).1 = .ok (.str x) := rfl

/-- C60: whatever the source holds, `Integer().constant(7)` gives 7. -/
example (rec : Rec SPath) (v : Val) : Accepts (mapFieldF (SPath.ops lib) lib classes rec ((field "a" .base).constant (.int 7)) .NONE)
    (given lib v) (.int 7) :=
  C60_plain (W := SPath.lawful lib) (f := field "a" .base) (v := .int 7) (fun _ => at_a lib _ v rfl (by intro _ h; cases h))
    (free _ _ (by intro _ _ _ _ _ h; cases h)) rfl rfl rfl rfl rfl (.inl (by intro h; cases h))

/-- C60: a constant outside of the bounds is always an error; the two other possibilities do not happen here. -/
example : ∃ msg, ∀ C rec s r q text b, Spot (SPath.ops lib) (SPath.lawful lib) ((intA { min := some (.int 3) }).constant (.int 2)) s r q text b →
    Adds (mapFieldF (SPath.ops lib) lib C rec ((intA { min := some (.int 3) }).constant (.int 2)) .NONE) s .ERROR
      { kind := .invalid msg, path := text, field := some "a", pathRef := some r } := by
  rcases C60_constant (L := lib) (SPath.lawful lib) (free_int { min := some (.int 3) }) rfl rfl rfl (v := .int 2) rfl rfl with h | h | ⟨e, h⟩
  · have := (h classes (fun _ _ => M.pure .NONE) _ _ _ _ _ (at_a lib _ .none rfl (by intro _ h; cases h))).res
    exact absurd this (by decide +kernel)
  · exact h
  · have := h classes (fun _ _ => M.pure .NONE) _ _ _ _ _ (at_a lib _ .none rfl (by intro _ h; cases h))
    have h2 : (mapFieldF (SPath.ops lib) lib classes (fun _ _ => M.pure .NONE) ((intA { min := some (.int 3) }).constant (.int 2)) .NONE
      (given lib .none)).1 = .ok .ERROR := by decide +kernel
    rw [h2] at this
    cases this

/-- C61: the number is what the pattern matched, `12` of `"12px"`. -/
example (rec : Rec SPath) : Accepts (mapFieldF (SPath.ops lib) lib classes rec ((intA { min := some (.int 3) }).pattern lib digitsRe) .NONE)
    (given lib (.str "12px")) (.int 12) :=
  ((C61_pattern_partial (C := classes) (rec := rec) (at_a lib _ _ rfl (by intro _ h; cases h)) (free_int _) rfl rfl rfl rfl ⟨0, rfl⟩
    ⟨by rintro lo ⟨⟩; exact ⟨_, rfl, by intro h; cases h⟩, by intro hi h; cases h⟩ (present_str _) (read_str _)).1
    { whole := "12", group := fun g => if g = .str "digits" ∨ g = .int 1 then some (.str "12") else none } 12 rfl (by decide +kernel)).1
    ⟨by rintro lo y ⟨⟩ ⟨⟩; unfold Num.Le; decide +kernel, by intro hi y h; cases h⟩

/-- C61: no match. -/
example (rec : Rec SPath) : Adds (mapFieldF (SPath.ops lib) lib classes rec ((intA {}).pattern lib digitsRe) .NONE)
    (given lib (.str "px")) .ERROR ⟨.invalid "px does not match pattern \"prefix\"", "a", some "a", some 0⟩ :=
  (C61_pattern_partial (C := classes) (rec := rec) (at_a lib _ _ rfl (by intro _ h; cases h)) (free_int _) rfl rfl rfl rfl ⟨0, rfl⟩
    ⟨(by intro lo h; cases h), (by intro hi h; cases h)⟩ (present_str _) (read_str _)).2.1 rfl

/-- C61, the negation for `Float` (`pilo/fields.py:844` has `int` for `float`): the source holds a number, the pattern
matches all of it, and it is rejected. -/
theorem C61_counterexample_float : ∃ (f : Field) (re : Regex) (x : String) (m : Match) (n : Num),
    f.kind = .float {} ∧ HookFree f ∧ re.run x = some m ∧ m.whole = x ∧ floatLib.floatOfStr x = some n ∧
    ∀ C rec, Rejects (mapFieldF (SPath.ops floatLib) floatLib C rec (f.pattern floatLib re) .NONE) (given floatLib (.str x)) f "a" 0 :=
  ⟨field "a" (.float {}), floatRe, "1.5", { whole := "1.5", group := fun g => if g = .str "digits" ∨ g = .int 1 then some (.str "1.5") else none },
    .fin (3 / 2), rfl, free _ _ (by intro _ _ _ _ _ h; cases h), rfl, rfl, rfl, fun C rec =>
    (C61_pattern_partial (C := C) (rec := rec) (x := "1.5") (at_a floatLib _ _ rfl (by intro _ h; cases h)) (free _ _ (by intro _ _ _ _ _ h; cases h)) rfl rfl rfl rfl ⟨0, rfl⟩
      ⟨(by intro lo h; cases h), (by intro hi h; cases h)⟩ ⟨rfl, rfl⟩ rfl).2.2 _ rfl (by decide +kernel)⟩

/-- C62: the group of the field's name is missing, so the first is taken. -/
example (rec : Rec SPath) : Accepts (mapFieldF (SPath.ops lib) lib classes rec ((strA { maxLength := some 2 }).capture digitsRe) .NONE)
    (given lib (.str "12px")) (.str "12") :=
  (C62_capture_partial (C := classes) (rec := rec) (y := "12") (m := { whole := "12", group := fun g => if g = .str "digits" ∨ g = .int 1 then some (.str "12") else none })
    (at_a lib _ _ rfl (by intro _ h; cases h)) (free_str _) rfl rfl rfl rfl (present_str _) (read_str _) rfl (.inr ⟨by decide +kernel, by decide +kernel⟩)).1
    ⟨fun h => absurd rfl h, (by intro n h; cases h), by rintro n ⟨⟩; decide, (by intro m t h; cases h), fun h => absurd rfl h⟩

/-- C62: no match is no value. -/
example (rec : Rec SPath) : Adds (mapFieldF (SPath.ops lib) lib classes rec ((strA {}).capture digitsRe) .NONE)
    (given lib (.str "px")) .NOT_SET ⟨.missing, "a", some "a", some 0⟩ :=
  C62_missing (C := classes) (rec := rec) (at_a lib _ _ rfl (by intro _ h; cases h)) (free_str _) rfl rfl rfl rfl (present_str _) (read_str _) (.inl rfl) (.inl rfl) rfl

example (rec : Rec SPath) : Accepts (mapFieldF (SPath.ops lib) lib classes rec
      ((Field.mk { name := some "a", src := .str "a", default := .value (.str "x") } (.string {})).capture digitsRe) .NONE)
    (given lib (.str "px")) (.str "x") :=
  C62_default (C := classes) (rec := rec) (at_a lib _ _ rfl (by intro _ h; cases h))
    ⟨.inr ⟨_, rfl⟩, rfl, rfl, rfl, rfl, rfl, rfl, by intro _ _ _ _ _ h; cases h⟩ rfl rfl rfl rfl (present_str _) (read_str _) (.inl rfl) rfl
    ⟨(by intro h; cases h), (by intro i h; cases h)⟩ rfl

/-- C62: a null for a field that allows null. -/
example (rec : Rec SPath) : (mapFieldF (SPath.ops lib) lib classes rec ((strA {}).capture digitsRe) .NONE (given lib .none)).1 =
    .error (.typeError "expected string or bytes-like object") :=
  (C62_counterexample_null (C := classes) (rec := rec) (at_a lib _ _ rfl (by intro _ h; cases h)) (free_str _) rfl rfl rfl ⟨rfl, rfl⟩).1

/-! ## `format` -/

/-- `fmt.format(**values)` for `fmt = '{x}-{y}'`. -/
def dashed (vs : List (Val × Val)) : Except Exc String :=
  match dictGet? vs (.str "x"), dictGet? vs (.str "y") with
  | some x, some y => .ok (lib.fmt x ++ "-" ++ lib.fmt y)
  | _, _ => .error (.keyError "x")

/-- The keywords `x='a', y='b'`. -/
def xy : List (String × List String) := [("x", ["a"]), ("y", ["b"])]

/-- A form of the class `F` that has both its values, being mapped. -/
def filled : St SPath := { here (SPath.ops lib) (.dict []) with forms := [⟨0, [(.str "a", .int 1), (.str "b", .str "two")], none⟩] }

theorem filled_spot (f : Field) (hf : f.core.src = .str "t") (hg : ∀ fs, f.kind ≠ .group fs) :
    Spot (SPath.ops lib) (SPath.lawful lib) f filled 0 (placeOf (.dict []) "t") "t" ⟨false, []⟩ := by
  have h := here_spot lib f (.dict []) hf hg
  have hi : Inv (SPath.lawful lib) filled := by
    have := here_inv (SPath.lawful lib) (.dict [])
    constructor
    · exact this.wf
    · exact this.seg
    · exact this.nodup
    · exact this.root
    all_goals first | exact this.refs | skip
  exact ⟨hi, ⟨h.live.root, h.live.path, h.live.errs, h.live.ids⟩, h.place, h.text, h.errs, h.collect⟩

theorem filled_reached : Reached lib classes filled (.form 0) xy [("x", .int 1), ("y", .str "two")] :=
  .cons (.field ⟨_, rfl, rfl⟩ rfl .here) (.cons (.field ⟨_, rfl, rfl⟩ rfl .here) .nil)

/-- C63. -/
example (rec : Rec SPath) : Accepts (mapFieldF (SPath.ops lib) lib classes rec ((field "t" (.string {})).format dashed xy) .NONE)
    filled (.str "1-two") :=
  (C63_format_partial (C := classes) (rec := rec) (id := 0) (t := "1-two") (filled_spot _ rfl (by intro _ h; cases h))
    (free _ _ (by intro _ _ _ _ _ h; cases h)) rfl rfl rfl rfl rfl filled_reached (by decide +kernel)).1
    ⟨fun h => absurd rfl h, (by intro n h; cases h), (by intro n h; cases h), (by intro m t h; cases h), fun h => absurd rfl h⟩

/-- C63: `z='a.real'`, which the value of `a` does not have in this library. -/
example (rec : Rec SPath) : Adds (mapFieldF (SPath.ops lib) lib classes rec
      ((field "t" (.string {})).format dashed (xy ++ [("z", ["a"] ++ ["real"])])) .NONE)
    filled .ERROR ⟨.invalid "object has no attribute 'real'", "t", some "t", some 0⟩ :=
  C63_unknown (C := classes) (rec := rec) (id := 0) (filled_spot _ rfl (by intro _ h; cases h))
    (free _ _ (by intro _ _ _ _ _ h; cases h)) rfl rfl rfl filled_reached (.field ⟨_, rfl, rfl⟩ rfl .here)
    (.inr ⟨(by intro id h; cases h), rfl⟩)

/-- `class T: t = String().format('{x}', x='a'); a = String()`; the format is any. -/
def classTxt (render : List (Val × Val) → Except Exc String) : Classes := fun _ =>
  { fields := [(field "t" (.string {})).format render [("x", ["a"])], field "a" (.string {})] }

/-- C63, the negation for fields whose value cannot be mapped: `a` is missing; `t` is formatted from the constant
`NOT_SET` and stored; no error is about it (and the one about `a` is reported twice). -/
theorem C63_counterexample_unmapped :
    after (Form.map (Path.ops lib) lib (classTxt fun vs => if vs = [(.str "x", .NOT_SET)] then .ok "NOT_SET" else .ok "") 10 0
      (.data (.dict [])) [] false (.str .ignore) false (holding 0 [])) ["t", "a"] =
    (.ok [(.missing, "a"), (.missing, "a")], [some (.str "NOT_SET"), none]) := by decide +kernel

end Demo
end Pilo
