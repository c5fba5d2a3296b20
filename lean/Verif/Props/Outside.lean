import Verif.Props.Getattr

/-!
# C109: reading attributes outside a mapping, and fields called `src`

`Field.__get__` (`pilo/fields.py:622-653`) reads outside a mapping from `getattr(form, 'src', DefaultSource({}))`.  The
evaluator (`fieldGet`) takes the second alternative.  Here the first one is followed too.
-/

namespace Pilo
variable {P : Type} {I : PathOps P} {L : Lib} {C : Classes}

/-- `getattr(form, name)` (`pilo/fields.py:622-653`) with at most `k` calls of `Field.__get__` inside each other: outside a
mapping a field without entry first asks for `form.src` (line 631).  If that is a field, it is read in the same way;
its value is no `Source`, so that `ctx(src=...)` appends it to the current path (`pilo/context.py:158-161`). -/
def Form.getattrSrc (I : PathOps P) (L : Lib) (C : Classes) (n : Nat) : Nat → Nat → String → M P Val
  | 0, _, _ => M.raise .recursion
  | k + 1, id, name => do
    let cls ← formCls id
    match (C cls).field? name with
    | none => M.raise (.attributeError ("object has no attribute '" ++ name ++ "'"))
    | some f => do
      let items ← formItems id
      match dictGet? items f.key with
      | some v => M.pure v
      | none =>
        match ← ctxGet? Frame.form with
        | some _ => fieldGet I (mapField I L C n) f id
        | none =>
          match (C cls).field? "src" with
          | none => fieldGet I (mapField I L C n) f id
          | some _ => do
            let src ← M.tryCatch (do let v ← Form.getattrSrc I L C n k id "src"; M.pure (some v)) fun
              | .attributeError _ => M.pure none
              | e => M.raise e
            match src with
            | none => fieldGet I (mapField I L C n) f id
            | some v => do
              let e ← newErrs true
              let w ← withPush I (pushKey I v { form := some id, parent := some (.form id), errors := some e })
                (mapField I L C n f .NONE)
              getFinish f id w

open Getattr

namespace Outside

theorem run {s : St P} {id : Nat} {name : String} {f : Field} {o : FormObj} (ho : s.forms[id]? = some o)
    (hf : (C o.cls).field? name = some f) (n k : Nat) (h : s.entry id name = none) :
    Form.getattrSrc I L C n (k + 1) id name s =
      (match lookup Frame.form s.stack with
        | some _ => fieldGet I (mapField I L C n) f id
        | none =>
          match (C o.cls).field? "src" with
          | none => fieldGet I (mapField I L C n) f id
          | some _ => do
            let src ← M.tryCatch (do let v ← Form.getattrSrc I L C n k id "src"; M.pure (some v)) fun
              | .attributeError _ => M.pure none
              | e => M.raise e
            match src with
            | none => fieldGet I (mapField I L C n) f id
            | some v => do
              let e ← newErrs true
              let w ← withPush I (pushKey I v { form := some id, parent := some (.form id), errors := some e })
                (mapField I L C n f .NONE)
              getFinish f id w) s := by
  have hd : Declares C s id name f := ⟨o, ho, hf⟩
  have h1 : formCls id s = (.ok o.cls, s) := by unfold formCls; rw [ho]
  have h2 : formItems id s = (.ok o.items, s) := by unfold formItems; rw [ho]; rfl
  have h3 : dictGet? o.items f.key = none := by
    rw [hd.name.2]
    unfold St.entry at h
    rw [ho] at h
    exact h
  have h4 : ctxGet? Frame.form s = (.ok (lookup Frame.form s.stack), s) := rfl
  rw [Form.getattrSrc, M.bind_ok h1, hf]
  simp only
  rw [M.bind_ok h2, h3]
  simp only
  rw [M.bind_ok h4]

theorem entry_run {s : St P} {id : Nat} {name : String} {f : Field} {o : FormObj} {v : Val} (ho : s.forms[id]? = some o)
    (hf : (C o.cls).field? name = some f) (n k : Nat) (h : s.entry id name = some v) :
    Form.getattrSrc I L C n (k + 1) id name s = (.ok v, s) := by
  have hd : Declares C s id name f := ⟨o, ho, hf⟩
  have h1 : formCls id s = (.ok o.cls, s) := by unfold formCls; rw [ho]
  have h2 : formItems id s = (.ok o.items, s) := by unfold formItems; rw [ho]; rfl
  have h3 : dictGet? o.items f.key = some v := by
    rw [hd.name.2]
    unfold St.entry at h
    rw [ho] at h
    exact h
  rw [Form.getattrSrc, M.bind_ok h1, hf]
  simp only
  rw [M.bind_ok h2, h3]
  rfl

end Outside

open Outside

/-- C109, the true part.  Where the field has an entry, where a mapping is under way, and in a class without a field called
`src`, reading the attribute is what `Form.getattr` says (C45, C79): outside a mapping, mapping the field from an empty
source.  What is missing is the read outside a mapping in a class with a field called `src`. -/
theorem C109_read_partial {s : St P} {id : Nat} {name : String} {o : FormObj} (ho : s.forms[id]? = some o)
    (h : s.entry id name ≠ none ∨ s.env.form ≠ none ∨ (C o.cls).field? "src" = none) (n k : Nat) :
    Form.getattrSrc I L C n (k + 1) id name s = Form.getattr I L C n id name s := by
  have h1 : formCls id s = (.ok o.cls, s) := by unfold formCls; rw [ho]
  cases hf : (C o.cls).field? name with
  | none =>
    unfold Form.getattr formGetattr
    rw [Form.getattrSrc, M.bind_ok h1, M.bind_ok h1, hf]
  | some f =>
    have hd : Declares C s id name f := ⟨o, ho, hf⟩
    cases he : s.entry id name with
    | some v => rw [entry_run ho hf n k he, C45_stored hd he n]
    | none =>
      rw [run ho hf n k he, hd.run]
      rcases h with h | h | h
      · exact absurd he h
      · have h : lookup Frame.form s.stack ≠ none := h
        cases hl : lookup Frame.form s.stack with
        | none => exact absurd hl h
        | some i => rfl
      · rw [h]
        cases lookup Frame.form s.stack <;> rfl

/-- C109, what the code does.  Outside a mapping, in a class with a field called `src` for which the form has no entry, no
field without entry can be read: the read asks for `src`, which asks for `src`, and so on.  However many calls are
allowed, they are used up, whatever the field is and whatever its default. -/
theorem C109_recursion {s : St P} {id : Nat} {name : String} {f g : Field} {o : FormObj} (ho : s.forms[id]? = some o)
    (hf : (C o.cls).field? name = some f) (hg : (C o.cls).field? "src" = some g) (he : s.entry id name = none)
    (hs : s.entry id "src" = none) (hout : s.env.form = none) (n k : Nat) :
    Form.getattrSrc I L C n k id name s = (.error .recursion, s) := by
  induction k generalizing name f with
  | zero => rfl
  | succ k ih =>
    have hl : lookup Frame.form s.stack = none := hout
    rw [run ho hf n k he, hl, hg]
    simp only
    have h1 : (do let v ← Form.getattrSrc I L C n k id "src"; M.pure (some v) : M P (Option Val)) s = (.error .recursion, s) :=
      M.bind_error (ih hg hs)
    refine M.bind_error ?_
    unfold M.tryCatch
    rw [h1]
    rfl

/-- C109, what the code does where the form has an entry for `src`: no other field can be read outside a mapping and a
source either, the value being taken for a key of a path that does not exist. -/
theorem C109_entry {s : St P} {id : Nat} {name : String} {f g : Field} {o : FormObj} {v : Val} (ho : s.forms[id]? = some o)
    (hf : (C o.cls).field? name = some f) (hg : (C o.cls).field? "src" = some g) (he : s.entry id name = none)
    (hs : s.entry id "src" = some v) (hout : s.env.form = none) (hpath : curPath s.stack = some none) (n k : Nat) :
    ∃ m, (Form.getattrSrc I L C n (k + 2) id name s).1 = .error (.attributeError m) := by
  have hl : lookup Frame.form s.stack = none := hout
  rw [run ho hf n (k + 1) he, hl, hg]
  simp only
  have h1 : (do let v ← Form.getattrSrc I L C n (k + 1) id "src"; M.pure (some v) : M P (Option Val)) s = (.ok (some v), s) := by
    rw [M.bind_ok (entry_run ho hg n k hs)]
    rfl
  rw [M.bind_ok (a := some v) (s' := s) (by unfold M.tryCatch; rw [h1])]
  simp only
  have h2 : ∀ e (s1 : St P), newErrs (P := P) true s = (.ok e, s1) → s1.stack = s.stack := by
    intro e s1 h
    cases h
    rfl
  rcases h3 : newErrs (P := P) true s with ⟨r, s1⟩
  cases r with
  | error e => cases h3
  | ok e =>
    rw [M.bind_ok h3]
    have h4 : onPath (pathAppend I v) s1 = (.error (.attributeError "'NoneType' object has no attribute"), s1) := by
      unfold onPath
      rw [h2 e s1 h3, hpath]
    have h5 := M.bind_error (f := fun _ => stackAppend { form := some id, parent := some (.form id), errors := some e, src := .key v }) h4
    have h6 : pushKey I v { form := some id, parent := some (.form id), errors := some e } s1 =
      (.error (.attributeError "'NoneType' object has no attribute"), s1) := h5
    have h7 : withPush I (pushKey I v { form := some id, parent := some (.form id), errors := some e })
        (mapField I L C n f .NONE) s1 = (.error (.attributeError "'NoneType' object has no attribute"), s1) := by
      unfold withPush
      exact M.bind_error h6
    exact ⟨_, by rw [M.bind_error h7]⟩

/-! ## Examples -/

section
open Demo

/-- `class A: src = String(); c = Integer(default=7)` and `class B: from_ = String(); c = Integer(default=7)`. -/
def Demo.tableSrc : Classes
  | 0 => { fields := [field "src" (.string {}), .mk { name := some "c", src := .str "c", default := .value (.int 7) } (.integer {})] }
  | _ => { fields := [field "from_" (.string {}), .mk { name := some "c", src := .str "c", default := .value (.int 7) } (.integer {})] }

/-- `A().c`, the default of which is 7, raises; `B().c` is 7. -/
theorem C109_counterexample : (∀ k, (Form.getattrSrc (Path.ops lib) lib tableSrc 5 k 0 "c" (holding 0 [])).1 = .error .recursion) ∧
    (∀ k, (Form.getattrSrc (Path.ops lib) lib tableSrc 5 (k + 1) 0 "c" (holding 1 [])).1 = .ok (.int 7)) ∧
    (Form.getattr (Path.ops lib) lib tableSrc 5 0 "c" (holding 0 [])).1 = .ok (.int 7) := by
  refine ⟨fun k => ?_, fun k => ?_, by decide +kernel⟩
  · rw [C109_recursion (s := holding 0 []) (o := ⟨0, [], none⟩) rfl rfl rfl rfl rfl rfl 5 k]
  · rw [C109_read_partial (s := holding 1 []) (o := ⟨1, [], none⟩) rfl (.inr (.inr rfl)) 5 k]
    decide +kernel

/-- `A(src='x').c` raises `AttributeError`. -/
example : ∃ m, (Form.getattrSrc (Path.ops lib) lib tableSrc 5 9 0 "c" (holding 0 [(.str "src", .str "x")])).1 =
    .error (.attributeError m) :=
  C109_entry (o := ⟨0, [(.str "src", .str "x")], none⟩) rfl rfl rfl rfl rfl rfl rfl 5 7

end
end Pilo
