import Verif.Props.Arguments
import Verif.Props.BuildersDemo

/-!
# C71 to C75 on concrete fields, and where the code does something else
-/

namespace Pilo
namespace Demo

/-- `re.compile`, for one text. -/
def compile (t : String) : Except Exc Regex :=
  if t = "\\d+" then .ok digitsRe else .error (.other "re.error" t)

/-- What mapping the field made by a call gives, under the name `a`. -/
def made (r : Except Exc Field) (v : Val) : Except Exc Val × List (List (ErrKind × String)) :=
  match r with
  | .ok f => mapAt (f.attach (some "a")) v
  | .error e => (.error e, [])

/-- `{"a": v}` -/
abbrev docA (v : Val) : Val := .dict [(.str "a", v)]

/-! ## C71 -/

/-- `String('a', length=(2, 3), pattern=r'\d+', alphabet='123', choices=['12', '21', '1a', '123'])` -/
def strArgs : Kwargs := [("length", .tuple [.val (.int 2), .val (.int 3)]), ("pattern", .val (.str "\\d+")),
  ("alphabet", .val (.str "123")), ("choices", .list [.val (.str "12"), .val (.str "21"), .val (.str "1a"), .val (.str "1")])]

theorem strArgs_full : strArgs.Full := ⟨(by intro h; cases h), (by intro h; injection h with h; injection h with h; injection h with h; exact absurd h (by decide)), (by intro h; cases h), (by intro h; cases h)⟩
theorem strArgs_simple : strArgs.Simple := ⟨rfl, rfl, rfl, by intro p h; cases h⟩

example : ∃ f, Field.newString compile [.val (.str "a")] strArgs = .ok f := ⟨_, rfl⟩

/-- C71: `'12'` is as the arguments say. -/
theorem strArgs_spec : StringSpec compile strArgs "12" := by
  refine ⟨⟨?_, ?_, ?_, ?_, ?_⟩, ?_, ?_, ?_, ?_, ?_⟩
  · intro k h; cases h
  · intro a k y h hp; cases h; cases hp; decide
  · intro a k y h hp; cases h; cases hp; decide
  · intro k h; cases h
  · intro k h; cases h
  · intro re h; cases h
  · intro t re h _ hc; cases h; cases hc; decide +kernel
  · intro t h; cases h; decide
  · intro xs h; cases h
  · intro xs h; cases h; simp

example (rec : Rec SPath) : ∃ f, Field.newString compile [.val (.str "a")] strArgs = .ok f ∧
    Accepts (mapFieldF (SPath.ops lib) lib classes rec (f.attach (some "z")) .NONE) (given lib (.str "12")) (.str "12") :=
  ⟨_, rfl, (C71_string_partial (W := SPath.lawful lib) (compile := compile) (args := [.val (.str "a")]) rfl strArgs_full strArgs_simple
    (at_a lib _ _ rfl (by intro _ h; cases h)) (present_str "12") (read_str "12")).1 strArgs_spec⟩

/-- C71: `'1'` is not, as it is too short; though it is among the choices. -/
example (rec : Rec SPath) : ∃ f, Field.newString compile [.val (.str "a")] strArgs = .ok f ∧
    Rejects (mapFieldF (SPath.ops lib) lib classes rec (f.attach (some "z")) .NONE) (given lib (.str "1")) (f.attach (some "z")) "a" 0 :=
  ⟨_, rfl, (C71_string_partial (W := SPath.lawful lib) (compile := compile) (args := [.val (.str "a")]) rfl strArgs_full strArgs_simple
    (at_a lib _ _ rfl (by intro _ h; cases h)) (present_str "1") (read_str "1")).2
      fun h => absurd (h.length.least _ 2 (.val (.int 3)) rfl (.tuple _ _)) (by decide)⟩

example : (made (Field.newString compile [] strArgs) (docA (.str "12"))).1 = .ok (.str "12") := by decide +kernel
example : (made (Field.newString compile [] strArgs) (docA (.str "1"))).1 = .ok .ERROR := by decide +kernel
example : (made (Field.newString compile [] strArgs) (docA (.str "13"))).1 = .ok .ERROR := by decide +kernel
example : (made (Field.newString compile [] strArgs) (docA (.str "1a"))).1 = .ok .ERROR := by decide +kernel
example : (made (Field.newString compile [.val (.str "b")] [("length", .val (.int 2))])
    (.dict [(.str "b", .str "xy")])).1 = .ok (.str "xy") := by decide +kernel

/-- C71_both meets its hypotheses. -/
example : ∀ f, Field.newString compile [] [("length", .val (.int 2)), ("min_length", .val (.int 1))] ≠ .ok f :=
  fun _ => C71_both rfl rfl (.inl rfl) rfl

/-- C71 fails for zero and empty arguments: `length=0`, `alphabet=''` and `choices=[]` allow any text. -/
theorem C71_empty_counterexample :
    (made (Field.newString compile [] [("length", .val (.int 0)), ("alphabet", .val (.str "")), ("choices", .val (.list []))])
      (docA (.str "abc"))).1 = .ok (.str "abc") ∧
    ¬ LengthSpec [("length", .val (.int 0))] "abc".length ∧
    ¬ StringSpec compile [("alphabet", .val (.str ""))] "abc" ∧ ¬ StringSpec compile [("choices", .val (.list []))] "abc" := by
  refine ⟨by decide +kernel, fun h => absurd (h.exact 0 rfl) (by decide), fun h => ?_, fun h => ?_⟩
  · have := h.alphabet "" rfl 'a' (by decide)
    simp at this
  · have := h.choices [] rfl
    simp at this

/-- C71 fails for a list of a given length: `List(Integer(), length=3)` is not made; and `length=(0, 2)` is fine. -/
theorem C71_list_counterexample :
    Field.newList [.field (.mk {} (.integer {}))] [("length", .val (.int 3))] =
      .error (.typeError "cannot unpack non-iterable object") := rfl

/-- A list of at most two integers. -/
def ints2 : Except Exc Field := Field.newList [.val (.str "b"), .field (.mk {} (.integer {}))]
  [("length", .tuple [.val (.int 1), .val (.int 2)])]

example : made ints2 (.dict [(.str "b", .list [.int 4, .str "5"])]) = (.ok (.list [.int 4, .int 5]), [[]]) := by decide +kernel
example : (made ints2 (.dict [(.str "b", .list [.int 4, .str "5", .int 6])])).1 = .ok .ERROR := by decide +kernel
example : (made ints2 (.dict [(.str "b", .list [])])).1 = .ok .ERROR := by decide +kernel

/-- C71_list_partial meets its hypotheses, and both cases occur. -/
example : ∃ f, ints2 = .ok f ∧ LengthSpec [("length", .tuple [.val (.int 1), .val (.int 2)])] 2 ∧
    ¬ LengthSpec [("length", .tuple [.val (.int 1), .val (.int 2)])] 3 := by
  refine ⟨_, rfl, ⟨?_, ?_, ?_, ?_, ?_⟩, fun h => absurd (h.most _ 2 (.val (.int 1)) rfl (.tuple _ _)) (by decide)⟩
  · intro k h; cases h
  · intro a k y h hp; cases h; cases hp; decide
  · intro a k y h hp; cases h; cases hp; decide
  · intro k h; cases h
  · intro k h; cases h

example : ∃ f, ints2 = .ok f ∧ (mapField (SPath.ops lib) lib noClasses 2 (f.attach (some "z")) .NONE
    (here (SPath.ops lib) (.dict [(.str "b", .list [.int 4, .str "5"])]))).1 = .ok (.list [.int 4, .int 5]) := by
  refine ⟨_, rfl, ?_⟩
  decide +kernel

/-! ## C72 -/

/-- `Integer(range=(1, 5))` -/
def rangeArgs : Kwargs := [("range", .tuple [.val (.int 1), .val (.int 5)])]

theorem rangeArgs_simple : rangeArgs.Simple := ⟨rfl, rfl, rfl, by intro p h; cases h⟩

/-- C72: `Integer('a', range=(1, 5)).max(9)` takes 9. -/
example (rec : Rec SPath) : ∃ f g, Field.newNumber .integer [.val (.str "a")] rangeArgs = .ok f ∧ f.callAll [.max (.int 9)] = .ok g ∧
    Accepts (mapFieldF (SPath.ops lib) lib classes rec (g.attach (some "z")) .NONE) (given lib (.int 9)) (.int 9) := by
  refine ⟨_, _, rfl, rfl, (C72_number (W := SPath.lawful lib) (cls := .integer) (ty := .int) (ms := [.max (.int 9)])
    (args := [.val (.str "a")]) (kw := rangeArgs) (x := .fin 9) rfl rfl rangeArgs_simple (.inl ⟨rfl, rfl⟩)
    (at_a lib _ _ rfl (by intro _ h; cases h)) ⟨rfl, rfl⟩ rfl rfl (by intro h; cases h) ?_ ?_).1 ⟨?_, ?_⟩⟩
  · intro w hw
    rcases hw with hw | ⟨-, hw⟩
    · cases hw
    · cases hw with
      | range h hp => cases h; cases hp; exact .inr ⟨_, rfl, by intro h; cases h⟩
      | min h => cases h
  · intro w hw
    rcases hw with hw | ⟨hw, -⟩
    · cases hw; exact .inr ⟨_, rfl, by intro h; cases h⟩
    · cases hw
  · intro w y hw hy
    rcases hw with hw | ⟨-, hw⟩
    · cases hw
    · cases hw with
      | range h hp => cases h; cases hp; cases hy; show (_ : Rat) ≤ _; decide
      | min h => cases h
  · intro w y hw hy
    rcases hw with hw | ⟨hw, -⟩
    · cases hw; cases hy; show (_ : Rat) ≤ _; decide
    · cases hw

/-- What mapping gives after a chain of calls. -/
def called (r : Except Exc Field) (ms : List Method) (v : Val) : Except Exc Val :=
  (made (r >>= fun f => f.callAll ms) v).1

example : called (Field.newNumber .integer [] rangeArgs) [] (docA (.int 9)) = .ok .ERROR := by decide +kernel
example : called (Field.newNumber .integer [] rangeArgs) [.max (.int 9)] (docA (.int 9)) = .ok (.int 9) := by decide +kernel
example : called (Field.newNumber .integer [] rangeArgs) [.max (.int 9), .min (.int 9), .range (.int 2) .none] (docA (.int 99)) =
    .ok (.int 99) := by decide +kernel
example : called (Field.newNumber .integer [] rangeArgs) [.max (.int 9), .min (.int 9), .range (.int 2) .none] (docA (.int 1)) =
    .ok .ERROR := by decide +kernel
example : called (Field.newDate .date [] [("after", .val (.ext .date 4))]) [.before (.ext .date 9)] (docA (.ext .date 5)) =
    .ok (.ext .date 5) := by decide +kernel
example : called (Field.newDate .date [] [("after", .val (.ext .date 4))]) [.before (.ext .date 9), .after (.ext .date 6)]
    (docA (.ext .date 5)) = .ok .ERROR := by decide +kernel

/-- C72 for dates: `Date('a', after=d4).before(d9)` takes `d5`. -/
example (rec : Rec SPath) : ∃ f g, Field.newDate .date [.val (.str "a")] [("after", .val (.ext .date 4))] = .ok f ∧
    f.callAll [.before (.ext .date 9)] = .ok g ∧
    Accepts (mapFieldF (SPath.ops lib) lib classes rec (g.attach (some "z")) .NONE) (given lib (.ext .date 5)) (.ext .date 5) := by
  refine ⟨_, _, rfl, rfl, (C72_date (W := SPath.lawful lib) (cls := .date) (ms := [.before (.ext .date 9)])
    (args := [.val (.str "a")]) (kw := [("after", .val (.ext .date 4))]) rfl rfl ⟨rfl, rfl, rfl, by intro p h; cases h⟩
    (at_a lib _ _ rfl (by intro _ h; cases h)) (holds_dflt (v := .ext .date 5) rfl rfl (by decide +kernel)) (.date 5) ?_ ?_).1 ⟨?_, ?_⟩⟩
  · rintro w (hw | ⟨-, hw⟩) <;> cases hw
    exact .inr ⟨_, rfl⟩
  · rintro w (hw | ⟨hw, -⟩) <;> cases hw
    exact .inr ⟨_, rfl⟩
  · rintro n (hw | ⟨-, hw⟩) <;> cases hw
    decide
  · rintro n (hw | ⟨hw, -⟩) <;> cases hw
    decide

/-- C72 for lists: `List(Integer(), length=(1, 2)).max(3)`. -/
example : (ints2 >>= fun f => f.callAll [.max (.int 3)]).toOption.bind (fun f => f.kind.bounds?) =
    some (some (.int 1), some (.int 3)) := rfl

/-! ## C73 -/

/-- `Group([('x', Integer()), [(re.compile(r'\d+'), String())]], ('x', String()))` -/
def groupArgs : List Arg := [.list [.tuple [.val (.str "x"), .field (.mk {} (.integer {}))],
  .list [.tuple [.regex digitsRe, .field (.mk {} (.string {}))]]], .tuple [.val (.str "x"), .field (.mk {} (.string {}))]]

example : ∃ f, Field.newGroup groupArgs [] = .ok f := ⟨_, rfl⟩
example : ∃ f, Field.newGroup groupArgs [("default", .val (.int 3))] = .ok f ∧ f.core.default = .value (.int 3) :=
  ⟨_, rfl, C73_value_given (args := groupArgs) (kw := [("default", .val (.int 3))]) rfl (by decide) rfl⟩
example : ∃ f, Field.newGroup groupArgs [("default", .call (.ret .none))] = .ok f ∧ f.core.default = .callable (.ret .none) :=
  ⟨_, rfl, C73_default_given (args := groupArgs) (kw := [("default", .call (.ret .none))]) rfl rfl⟩
example : (Arg.allLeaves groupArgs).length = 3 := rfl
example : made (Field.newGroup groupArgs []) (.dict [(.str "12b", .str "u"), (.str "y", .int 1), (.str "x", .int 3)]) =
    (.ok (.list [.tuple [.str "12b", .str "12", .str "u"], .tuple [.str "x", .none, .int 3]]), [[]]) := by decide +kernel
example : (made (Field.newGroup groupArgs []) (.dict [(.str "y", .int 1)])).1 = .ok (.list []) := by decide +kernel

/-- C73_parse meets its hypotheses. -/
example : ∃ s1, readPath (Path.ops lib).mapping (at_ (.dict [(.str "12b", .str "u"), (.str "x", .int 3)])) =
    (.ok (some { ks := ["12b", "x"].map Val.str, iterErr := none }), s1) := ⟨_, rfl⟩

/-- C73: a triple in a nested list is refused. -/
example : ∃ msg, Field.newGroup [.list [.field (.mk { src := .str "k" } (.integer {})), .list [.tuple [.val (.str "x")]]]] [] =
    .error (.valueError msg) := by
  refine C73_refused (a := .tuple [.val (.str "x")]) ?_ ?_ ?_
  · intro a ha
    simp [Arg.allLeaves, Arg.leaves] at ha
    rcases ha with rfl | rfl
    · exact .entry (.bare (x := "k") rfl)
    · exact .tuple (by decide)
  · simp [Arg.allLeaves, Arg.leaves]
  · intro h; cases h

/-- C73: a field without a `src` is refused. -/
example : Field.newGroup [.field (.mk {} (.integer {}))] [] = .error (.valueError "src is not set") := rfl

/-- C73 fails for bare fields: `Group(Integer('k'))` on `{'k': 1}`.  The group goes to the key, and then the field goes to its
own `src` from there, so it misses `k.k`. -/
theorem C73_bare_counterexample :
    made (Field.newGroup [.field (.mk { src := .str "k" } (.integer {}))] []) (.dict [(.str "k", .dict [])]) =
      (.ok (.list []), [[(.missing, "k.k")]]) ∧
    made (Field.newGroup [.field (.mk { src := .str "k" } (.integer {}))] []) (.dict [(.str "k", .dict [(.str "k", .int 1)])]) =
      (.ok (.list [.tuple [.str "k", .none, .int 1]]), [[]]) := by
  constructor <;> decide +kernel

/-! ## C74 -/

example : Field.newList [.val (.str "b"), .field (.mk {} (.integer {}))] [] =
    Field.newList [.field (.mk {} (.integer {})), .val (.str "b")] [] :=
  (C74_list (pre := [.val (.str "b")]) (post := []) (by intro a ha; simp at ha; subst ha; exact ⟨rfl, rfl⟩)).1

example : (Field.newList [.val (.str "b"), .form 3] []).toOption.map (fun f => (f.core.src, f.kind.leaf)) =
    some (.str "b", false) := rfl

example : Field.newList [.val (.str "b")] [("field", .field (.mk {} (.integer {})))] =
    Field.newList [.field (.mk {} (.integer {})), .val (.str "b")] [] :=
  C74_list_keyword (by intro a ha; simp at ha; subst ha; exact ⟨rfl, rfl⟩) rfl

example : Field.newList [.val (.str "b")] [] = .error (.other "Exception" "Missing field") :=
  C74_list_missing (by intro a ha; simp at ha; subst ha; exact ⟨rfl, rfl⟩) rfl

example : Field.newSubForm [.val (.str "b"), .form 1] [("flat", .val (.bool true))] =
    Field.newSubForm [.form 1, .val (.str "b")] [("flat", .val (.bool true))] :=
  C74_subform (pre := [.val (.str "b")]) (post := []) (by intro a ha; simp at ha; subst ha; rfl)

/-- The three readings of the source. -/
example : (Field.newSubForm [.val (.str "b"), .form 1] [("flat", .val (.bool true))]).toOption.map (fun f => f.core.src) = some .none ∧
    (Field.newSubForm [.val (.str "b"), .form 1] [("flat", .val (.bool false))]).toOption.map (fun f => f.core.src) = some (.str "b") ∧
    (Field.newSubForm [.form 1] []).toOption.map (fun f => (f.attach (some "n")).core.src) = some (.str "n") := ⟨rfl, rfl, rfl⟩

example : (made (Field.newTuple [.val (.str "b"), .field (.mk {} (.integer {})), .field (.mk {} (.string {}))] [])
    (.dict [(.str "b", .list [.int 1, .str "x"])])).1 = .ok (.tuple [.int 1, .str "x"]) := by decide +kernel

/-- C74 fails for tuples of one field: `Tuple(Integer())` and `Tuple('a', Integer())` are refused; `Tuple()` is an
`IndexError`.  `Tuple([Integer()])` is taken. -/
theorem C74_tuple_counterexample (g : Field) :
    Field.newTuple [.field g] [] = .error (.typeError "is not a field sequence") ∧
    Field.newTuple [.val (.str "a"), .field g] [] = .error (.typeError "is not a field sequence") ∧
    Field.newTuple [] [] = .error (.indexError "list index out of range") ∧
    ∃ f, Field.newTuple [.list [.field g]] [] = .ok f ∧ f.kind = .tuple [g] := ⟨rfl, rfl, rfl, _, rfl, rfl⟩

/-! ## C75 -/

example : (Type.instance compile [.str "dog"] []).toOption.map (fun f => (Type.value f).toOption.isSome) = some true := rfl
example : ∃ f, Type.instance compile [.str "dog"] [] = .ok f ∧ Type.value f = .ok (.value (.str "dog")) :=
  ⟨_, rfl, (C75_value_partial (compile := compile) (kw := []) rfl (by intro c hc; simp at hc; subst hc; rfl)).1 _ rfl⟩
example : ∃ f msg, Type.instance compile [.str "dog", .str "cat"] [] = .ok f ∧ Type.value f = .error (.typeError msg) :=
  ⟨_, _, rfl, rfl⟩

/-- C75 fails for abstract types: the value of `Type.abstract()` is the default hook object, and reading it does not raise. -/
theorem C75_abstract_counterexample :
    ∃ f, Type.abstract compile [] [] = .ok f ∧ Type.value f = .ok .unset := ⟨_, rfl, rfl⟩

example : made (Type.instance compile [.str "dog"] []) (docA (.str "dog")) = (.ok (.str "dog"), [[]]) := by decide +kernel
example : made (Type.instance compile [.str "dog"] []) (.dict []) = (.ok (.str "dog"), [[]]) := by decide +kernel
example : (made (Type.instance compile [.str "dog"] []) (docA (.str "cat"))).1 = .ok .ERROR := by decide +kernel
example : made (Type.constant compile (.str "dog")) (docA (.str "cat")) = (.ok (.str "dog"), [[]]) := by decide +kernel

/-- C75_instance meets its hypotheses. -/
example (rec : Rec SPath) : ∃ f, Type.instance compile [.str "dog"] [] = .ok f ∧
    Rejects (mapFieldF (SPath.ops lib) lib classes rec (f.attach (some "a")) .NONE) (given lib (.str "cat")) (f.attach (some "a")) "a" 0 :=
  ⟨_, rfl, ((C75_instance (W := SPath.lawful lib) (compile := compile) (kw := []) rfl ⟨rfl, rfl, rfl, by intro p h; cases h⟩
    ⟨(by intro h; cases h), (by intro h; cases h), (by intro h; cases h), (by intro h; cases h)⟩
    (at_a lib _ _ rfl (by intro _ h; cases h))).2 (present_str "cat") "cat" (read_str "cat")).2 (by decide)⟩

end Demo
end Pilo
