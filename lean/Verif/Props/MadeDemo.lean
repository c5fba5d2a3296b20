import Verif.Props.Container
import Verif.Props.ConstructDemo

/-!
# Examples for C76 and C77
-/

namespace Pilo

deriving instance DecidableEq for ErrBuf

namespace Demo

/-! ## C76 -/

/-- `Integer('a', default=3)` -/
def threeArgs : Kwargs := [("default", .val (.int 3))]

theorem threeArgs_silent {k : String} (h : k ≠ "default") : Kwargs.Silent threeArgs k := by
  intro a ha
  have : List.lookup k threeArgs = none := by
    unfold threeArgs
    rw [List.lookup_cons, show (k == "default") = false by simp [h]]
    rfl
  rw [ha.1.symm.symm] at this
  cases this

theorem threeArgs_says : Kwargs.Says threeArgs "default" (.val (.int 3)) := ⟨rfl, by intro h; cases h⟩

theorem threeArgs_call : threeArgs.NoCall := by intro p h; cases h

/-- The arguments of the call, and the key it is to be read from. -/
example : SourceGiven (Maker.rest (.number .integer) [.val (.str "a")]) threeArgs (.str "a") := .positional rfl rfl
example : SourceGiven (Maker.rest .list [.field (.mk {} (.integer {})), .val (.str "b")]) [] (.str "b") := .positional rfl rfl
example : SourceGiven (Maker.rest .dict [.field (.mk {} (.string {})), .field (.mk {} (.integer {}))])
    [("src", .val (.str "c"))] (.str "c") := .keyword rfl rfl
example : SourceGiven (Maker.rest (.plain .boolean) []) [] .NONE := .nothing rfl rfl

/-- C76_place meets its hypotheses: `Integer()` attached as `n` reads `n`; `Integer(src='a')` reads `a`. -/
example (p : SPath) : ∃ f, Field.newNumber .integer [] [] = .ok f ∧
    (f.attach (some "n")).place (SPath.ops lib) p = (SPath.ops lib).append p (.str "n") :=
  ⟨_, rfl, (C76_place (m := .number .integer) (args := []) (kw := []) (by intro h; cases h) (by intro h; cases h) rfl "n" p).1 (.nothing rfl rfl)⟩

example (p : SPath) : ∃ f, Field.newNumber .integer [] [("src", .val (.str "a"))] = .ok f ∧
    (f.attach (some "n")).place (SPath.ops lib) p = (SPath.ops lib).append p (.str "a") :=
  ⟨_, rfl, (C76_place (m := .number .integer) (args := []) (kw := [("src", .val (.str "a"))]) (by intro h; cases h)
    (by intro h; cases h) rfl "n" p).2.1 _ (.keyword rfl rfl) rfl⟩

example : made (Field.newNumber .integer [.val (.str "b")] threeArgs) (.dict [(.str "b", .int 5)]) = (.ok (.int 5), [[]]) := by
  decide +kernel
example : made (Field.newNumber .integer [] (threeArgs ++ [("src", .val (.str "b"))])) (.dict [(.str "b", .int 5)]) =
    (.ok (.int 5), [[]]) := by decide +kernel
example : made (Field.newNumber .integer [] threeArgs) (.dict []) = (.ok (.int 3), [[]]) := by decide +kernel

/-- Both at once is an error. -/
example : Field.newNumber .integer [.val (.str "a")] [("src", .val (.str "b"))] =
    .error (.typeError "__init__() got multiple values for argument 'src'") := rfl

theorem nothing_at_a : Absent (SPath.ops lib) (placeOf (.dict []) "a") := rfl

theorem null_at_a : Null (SPath.ops lib) (placeOf (docA .none) "a") := ⟨rfl, rfl⟩

/-- C76_absent meets its hypotheses: the default, and the error without one. -/
example (rec : Rec SPath) : ∃ f, Field.newNumber .integer [.val (.str "a")] threeArgs = .ok f ∧
    Accepts (mapFieldF (SPath.ops lib) lib classes rec (f.attach (some "z")) .NONE) (here (SPath.ops lib) (.dict [])) (.int 3) :=
  ⟨_, rfl, (C76_absent (W := SPath.lawful lib) (m := .number .integer) (args := [.val (.str "a")]) (by intro h; cases h) rfl
    threeArgs_call (threeArgs_silent (by decide)) (here_spot lib _ _ rfl (by intro _ h; cases h)) nothing_at_a).1 _ threeArgs_says
    ⟨(by intro h; cases h), (by intro _ h; cases h)⟩ rfl⟩

example (rec : Rec SPath) : ∃ f, Field.newNumber .integer [.val (.str "a")] [] = .ok f ∧
    Adds (mapFieldF (SPath.ops lib) lib classes rec (f.attach (some "z")) .NONE) (here (SPath.ops lib) (.dict [])) .NOT_SET
      { kind := .missing, path := "a", field := some "z", pathRef := some 0 } :=
  ⟨_, rfl, (C76_absent (W := SPath.lawful lib) (m := .number .integer) (args := [.val (.str "a")]) (kw := []) (by intro h; cases h) rfl
    (by intro p h; cases h) (by intro a h; cases h.1) (here_spot lib _ _ rfl (by intro _ h; cases h)) nothing_at_a).2.2
    (by intro a h; cases h.1) (by intro a h; cases h.1) rfl⟩

/-- C76_null meets its hypotheses: `Integer('a', nullable=False)`. -/
example (rec : Rec SPath) : ∃ f, Field.newNumber .integer [.val (.str "a")] [("nullable", .val (.bool false))] = .ok f ∧
    Adds (mapFieldF (SPath.ops lib) lib classes rec (f.attach (some "z")) .NONE) (here (SPath.ops lib) (docA .none)) .ERROR
      { kind := .invalid "not nullable", path := "a", field := some "z", pathRef := some 0 } :=
  ⟨_, rfl, (C76_null (W := SPath.lawful lib) (m := .number .integer) (args := [.val (.str "a")])
    (kw := [("nullable", .val (.bool false))]) (by intro h; cases h) rfl
    (by intro p h; cases h) (by intro a h; cases h.1) (by intro a h; cases h.1) (by intro a h; cases h.1)
    (here_spot lib _ _ rfl (by intro _ h; cases h)) null_at_a).2.2.2 (.bool false)
    ⟨rfl, by intro h; cases h⟩ rfl (by intro h; cases h.1)⟩

example : made (Field.newNumber .integer [] [("default", .val .none), ("nullable", .val (.bool false))]) (docA .none) =
    (.ok .none, [[]]) := by decide +kernel

/-- C76, a list of tags is not taken. -/
theorem C76_tags_counterexample :
    Field.new .base [] [("tags", .list [.val (.str "a"), .val (.str "b")])] = .error (.typeError "unhashable type: 'list'") := rfl

/-! ## C77 -/

/-- `Dict(String(), Integer(), 'a', required_keys={'x'}, max_keys=2)` -/
def dictArgs : Kwargs := [("required_keys", .set [.str "x"]), ("max_keys", .val (.int 2))]

def numbersField : Except Exc Field := Field.newDict [.field (.mk {} (.string {})), .field (.mk {} (.integer {})), .val (.str "a")] dictArgs

example : ∃ f, numbersField = .ok f ∧ f.core.src = .str "a" := ⟨_, rfl, rfl⟩

example : made numbersField (docA (.dict [(.str "x", .int 1), (.str "y", .str "2")])) =
    (.ok (.dict [(.str "x", .int 1), (.str "y", .int 2)]), [[]]) := by decide +kernel
example : (made numbersField (docA (.dict [(.str "y", .int 1)]))).1 = .ok .ERROR := by decide +kernel
example : (made numbersField (docA (.dict [(.str "x", .int 1), (.str "y", .int 2), (.str "z", .int 3)]))).1 = .ok .ERROR := by decide +kernel

theorem dictArgs_spec : DictSpec dictArgs [(.str "x", .int 1), (.str "y", .int 2)] ∧ ¬ DictSpec dictArgs [(.str "y", .int 1)] := by
  refine ⟨⟨?_, ?_⟩, fun h => ?_⟩
  · intro ks h k hk
    cases h
    cases hk with
    | head => decide +kernel
    | tail _ h => cases h
  · intro m h
    cases h
    decide
  · exact absurd (h.required _ rfl _ (List.mem_singleton.2 rfl)) (by decide +kernel)

theorem bare_all {k : Kind} (hk : ∀ kf vf h r m, k ≠ .dict kf vf (some h) r m) (h : Kind.All HookFree k) :
    ((Field.mk {} k).attach none).All HookFree := .mk (hookFree_plain hk) h

/-- C77_dict_partial meets its hypotheses: the entries are as the arguments say. -/
example : ∃ f, numbersField = .ok f ∧ (mapField (SPath.ops lib) lib noClasses 2 (f.attach (some "z")) .NONE
    (given lib (.dict [(.str "x", .int 1), (.str "y", .str "2")]))).1 = .ok (.dict [(.str "x", .int 1), (.str "y", .int 2)]) := by
  refine ⟨_, rfl, ((C77_dict_partial (W := SPath.lawful lib) (L := lib) (C := noClasses) (n := 1) (kw := dictArgs)
    (args := [.val (.str "a")]) (k := .mk {} (.string {})) (v := .mk {} (.integer {}))
    (kvs := [(.str "x", .int 1), (.str "y", .int 2)]) (b2 := ⟨false, []⟩) rfl
    (by intro p h; cases h) (by intro a h; cases h; exact ⟨_, rfl⟩) (by intro h; cases h)
    (by intro ks ms _ _ _; exact ⟨_, rfl⟩) (by intro a h; cases h.1) (by intro a h; cases h.1) (by intro a h; cases h.1)
    (noClasses_all _) (bare_all (by intro _ _ _ _ _ h; cases h) .string)
    (bare_all (by intro _ _ _ _ _ h; cases h) .integer) (at_a lib _ _ rfl (by intro _ h; cases h)) ⟨rfl, rfl⟩ (Prod.ext ?_ rfl) ?_).1 dictArgs_spec.1).1⟩
  · decide +kernel
  · decide +kernel

/-- `List(Integer(), 'a')` and `List(Integer(), 'a', allow_field=True)`, where there is one integer. -/
example : (made (Field.newList [.field (.mk {} (.integer {}))] []) (docA (.int 4))).1 = .ok .ERROR := by decide +kernel
example : made (Field.newList [.field (.mk {} (.integer {}))] [("allow_field", .val (.bool true))]) (docA (.int 4)) =
    (.ok (.list [.int 4]), [[]]) := by decide +kernel

/-- C77_list_partial meets its hypotheses. -/
example : ∃ f, Field.newList [.field (.mk {} (.integer {})), .val (.str "a")] [] = .ok f ∧
    (mapField (SPath.ops lib) lib noClasses 2 (f.attach (some "z")) .NONE (here (SPath.ops lib) docFive)).1 = .ok .ERROR :=
  ⟨_, rfl, ((C77_list_partial (W := SPath.lawful lib) (L := lib) (C := noClasses) (n := 1) (kw := []) (args := [.val (.str "a")])
    (g := .mk {} (.integer {})) rfl (by intro p h; cases h) (by intro h; cases h) (by intro a h; cases h.1)
    (by intro a h; cases h.1) (by intro a h; cases h.1) (noClasses_all _) (bare_all (by intro _ _ _ _ _ h; cases h) .integer)
    (here_spot lib _ _ rfl (by intro _ h; cases h)) five_noSequence).1 (by intro a h; cases h)).1⟩

/-- C77 fails for `max_keys=0` and for `required_keys` given as a list (see C26). -/
theorem C77_counterexample :
    made (Field.newDict [.field (.mk {} (.string {})), .field (.mk {} (.integer {}))] [("max_keys", .val (.int 0))])
      (docA (.dict [(.str "x", .int 1)])) = (.ok (.dict [(.str "x", .int 1)]), [[]]) ∧
    ¬ DictSpec [("max_keys", .val (.int 0))] [(.str "x", .int 1)] ∧
    (made (Field.newDict [.field (.mk {} (.string {})), .field (.mk {} (.integer {}))]
      [("required_keys", .list [.val (.str "x")])]) (docA (.dict [(.str "x", .int 1)]))).1 =
      .error (.attributeError "'list' object has no attribute 'difference'") := by
  refine ⟨by decide +kernel, fun h => absurd (h.few _ rfl) (by decide), by decide +kernel⟩

example : ∃ f, Field.newSubForm [.form 1] [("reset", .val (.bool true)), ("unmapped", .val (.str "capture"))] = .ok f ∧
    f.kind = .subform 1 true (.str .capture) := ⟨_, rfl, rfl⟩

end Demo
end Pilo
