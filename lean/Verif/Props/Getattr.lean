import Verif.Props.FormsDemo
import Verif.Props.Context
import Verif.FormOps

/-!
# C45, C46: reading form attributes, and `form.has`

`pilo/fields.py:622-653` (`Field.__get__`) and `pilo/fields.py:1676-1690` (`Form.has`).
-/

namespace Pilo
variable {P : Type} {I : PathOps P} {L : Lib} {C : Classes}

namespace Getattr

/-- `name` is a field of the class of the form `id`. -/
def Declares (C : Classes) (s : St P) (id : Nat) (name : String) (f : Field) : Prop :=
  ∃ o, s.forms[id]? = some o ∧ (C o.cls).field? name = some f

/-- No frame of the context belongs to the form: it is not being mapped. -/
def Idle (s : St P) (id : Nat) : Prop := ∀ fr ∈ s.stack, fr.parent ≠ some (.form id)

theorem Declares.name {s : St P} {id : Nat} {name : String} {f : Field} (h : Declares C s id name f) :
    f.name = some name ∧ f.key = .str name := by
  obtain ⟨o, -, h2⟩ := h
  have h3 := List.find?_some h2
  have h4 : f.name = some name := by simpa using h3
  exact ⟨h4, by unfold Field.key; rw [h4]⟩

theorem Declares.run {s : St P} {id : Nat} {name : String} {f : Field} (h : Declares C s id name f) (n : Nat) :
    Form.getattr I L C n id name s = fieldGet I (mapField I L C n) f id s := by
  obtain ⟨o, h1, h2⟩ := h
  unfold Form.getattr formGetattr
  have h3 : formCls id s = (.ok o.cls, s) := by unfold formCls; rw [h1]
  rw [M.bind_ok h3, h2]

theorem Declares.ext {W : LawfulPath I} {s s' : St P} {id : Nat} {name : String} {f : Field}
    (h : Declares C s id name f) (hx : Ext W s s') : Declares C s' id name f := by
  obtain ⟨o, h1, h2⟩ := h
  obtain ⟨o', h3, h4⟩ := hx.forms id o h1
  exact ⟨o', h3, by rw [h4]; exact h2⟩

theorem get_stored {s : St P} {id : Nat} {name : String} {f : Field} {v : Val} (hf : f.key = .str name)
    (h : s.entry id name = some v) (rec : Rec P) : fieldGet I rec f id s = (.ok v, s) := by
  unfold fieldGet
  have h1 : formItems id s = (.ok ((s.forms[id]?).elim [] FormObj.items), s) := rfl
  rw [M.bind_ok h1]
  unfold St.entry at h
  cases ho : s.forms[id]? with
  | none => rw [ho] at h; cases h
  | some o =>
    rw [ho] at h
    have : dictGet? o.items f.key = some v := by rw [hf]; exact h
    simp only [Option.elim, this]
    rfl

/-- The context in which a field of an idle form is mapped on being read (`pilo/fields.py:627-634,643-645`): an empty
source; outside any mapping also a fresh list that raises the first error. -/
def Empty (I : PathOps P) (id : Nat) (m : M P Val) : M P Val := do
  match ← ctxGet? Frame.form with
  | none => do
    let e ← newErrs true
    withPush I (pushSource (.ok (I.native (.dict []) none)) { form := some id, parent := some (.form id), errors := some e }) m
  | some _ => withPush I (pushSource (.ok (I.native (.dict []) none)) { form := some id, parent := some (.form id) }) m

theorem assoc {α β γ : Type} (m : M P α) (f : α → M P β) (g : β → M P γ) :
    ((m >>= f) >>= g) = (m >>= fun a => f a >>= g) := by
  funext s
  rcases h : m s with ⟨r, s1⟩
  cases r with
  | ok a =>
    rw [M.bind_ok h]
    rcases h2 : f a s1 with ⟨r2, s2⟩
    cases r2 with
    | ok b => rw [M.bind_ok (show (m >>= f) s = (.ok b, s2) by rw [M.bind_ok h, h2]), M.bind_ok h2]
    | error e => rw [M.bind_error (show (m >>= f) s = (.error e, s2) by rw [M.bind_ok h, h2]), M.bind_error h2]
  | error e => rw [M.bind_error h, M.bind_error (show (m >>= f) s = (.error e, s1) by rw [M.bind_error h])]

theorem get_idle {s : St P} {id : Nat} {name : String} {f : Field} (hf : f.key = .str name)
    (h : s.entry id name = none) (hi : Idle s id) (rec : Rec P) :
    fieldGet I rec f id s = (Empty I id (rec f .NONE) >>= getFinish f id) s := by
  unfold fieldGet Empty
  have h1 : formItems id s = (.ok ((s.forms[id]?).elim [] FormObj.items), s) := rfl
  rw [M.bind_ok h1, assoc]
  have h2 : dictGet? ((s.forms[id]?).elim [] FormObj.items) f.key = none := by
    rw [hf]
    unfold St.entry at h
    cases ho : s.forms[id]? with
    | none => rfl
    | some o => rw [ho] at h; exact h
  rw [h2]
  dsimp only
  have h3 : ctxGet? Frame.form s = (.ok (lookup Frame.form s.stack), s) := rfl
  rw [M.bind_ok h3, M.bind_ok h3]
  cases lookup Frame.form s.stack with
  | none =>
    dsimp only
    rw [assoc]
  | some i =>
    dsimp only
    have h4 : ctxGet? Frame.parent s = (.ok (lookup Frame.parent s.stack), s) := rfl
    rw [M.bind_ok h4]
    have h5 : lookup Frame.parent s.stack ≠ some (.form id) := by
      intro hp
      unfold lookup at hp
      obtain ⟨fr, hfr, hp⟩ := List.exists_of_findSome?_eq_some hp
      exact hi fr hfr hp
    rw [if_neg h5]
    have h6 : withRewind I (isFormFrame id) (rec f .NONE) s = (.error .rewindDidNotStop, s) := by
      refine C03_no_match s _ (fun fr hfr => ?_) _
      unfold isFormFrame
      simpa using hi fr hfr
    unfold M.tryCatch
    rw [h6]

theorem Keeps.empty {W : LawfulPath I} (id : Nat) {m : M P Val} (hm : Keeps W m) : Keeps W (Empty I id m) := by
  unfold Empty
  refine Keeps.bind (Keeps.ctxGet? _) fun x => ?_
  cases x with
  | none =>
    exact .bind (Keeps.newErrs _) fun e => Keeps.withPush (PushOK.source (by rintro p ⟨⟩; exact W.native_wf)) hm
  | some _ => exact Keeps.withPush (PushOK.source (by rintro p ⟨⟩; exact W.native_wf)) hm

end Getattr

open Getattr

/-- C45, first half.  Any state (outside or inside of mappings), any hooks. -/
theorem C45_stored {s : St P} {id : Nat} {name : String} {f : Field} {v : Val} (hd : Declares C s id name f)
    (h : s.entry id name = some v) (n : Nat) : Form.getattr I L C n id name s = (.ok v, s) := by
  rw [hd.run, get_stored hd.name.2 h]

/-- C45, second half.  The form is not being mapped and has no value for the field `f`.  Reading the attribute maps the
field from an empty source.  If that gives a value, the read returns it and stores it under the name, leaving all other
entries of all forms as the mapping left them; every later read gives the same value and changes nothing.  If that gives
a constant, the read raises `AttributeError`; if it raises, so does the read, the same. -/
theorem C45_read {W : LawfulPath I} {s : St P} {id : Nat} {name : String} {f : Field} (hd : Declares C s id name f)
    (hi : Inv W s) (hidle : Idle s id) (h : s.entry id name = none) (n : Nat) :
    let E := Empty I id (mapField I L C n f .NONE) s
    let R := Form.getattr I L C n id name s
    (∀ v, E.1 = .ok v → v.isIgnore = false →
      R.1 = .ok v ∧ R.2.entry id name = some v ∧
      (∀ id' name', (id', name') ≠ (id, name) → R.2.entry id' name' = E.2.entry id' name') ∧
      ∀ k, Form.getattr I L C k id name R.2 = (.ok v, R.2)) ∧
    (∀ v, E.1 = .ok v → v.isIgnore = true →
      R = (.error (.attributeError "form cannot map field"), E.2)) ∧
    (∀ x, E.1 = .error x → R = (.error x, E.2)) := by
  intro E R
  have hR : R = (Empty I id (mapField I L C n f .NONE) >>= getFinish f id) s := by
    show Form.getattr I L C n id name s = _
    rw [hd.run, get_idle hd.name.2 h hidle]
  have hx : Ext W s E.2 := (Keeps.empty id (Keeps.mapField (W := W) (L := L) (C := C) n f .NONE)).run s hi
  rcases hM : E with ⟨r, s1⟩
  rw [hM] at hx
  cases r with
  | error x =>
    have hM' : Empty I id (mapField I L C n f .NONE) s = (.error x, s1) := hM
    rw [M.bind_error hM'] at hR
    rw [hR]
    exact ⟨fun _ h => by (cases h), fun _ h => by (cases h), fun x h => by cases h; rfl⟩
  | ok v =>
    have hM' : Empty I id (mapField I L C n f .NONE) s = (.ok v, s1) := hM
    rw [M.bind_ok hM'] at hR
    unfold getFinish at hR
    refine ⟨fun w hw hv => ?_, fun w hw hv => ?_, fun _ h => by (cases h)⟩
    · cases hw
      rw [hv] at hR
      have hR : R = (.ok v, { s1 with forms := s1.forms.modify id fun o => { o with items := dictSet o.items f.key v } }) := hR
      have hd1 : Declares C s1 id name f := hd.ext hx
      have hlt : id < s1.forms.length := by
        obtain ⟨o, ho, -⟩ := hd1
        exact (List.getElem?_eq_some_iff.1 ho).1
      have hent : R.2.entry id name = some v := by
        rw [hR]
        unfold St.entry
        dsimp only
        rw [entry_modify _ _ (fun d => dictSet d f.key v) hlt, hd.name.2, dictGet?_dictSet]
        simp
      have hd2 : Declares C R.2 id name f := by
        obtain ⟨o, ho, hf⟩ := hd1
        refine ⟨{ o with items := dictSet o.items f.key v }, ?_, hf⟩
        rw [hR]
        dsimp only
        rw [List.getElem?_modify, ho]
        simp
      refine ⟨by rw [hR], hent, fun id' name' hne => ?_, fun k => C45_stored hd2 hent k⟩
      rw [hR]
      unfold St.entry
      dsimp only
      by_cases hid : id' = id
      · subst hid
        have hne : name ≠ name' := fun h => hne (by rw [h])
        rw [entry_modify _ _ (fun d => dictSet d f.key v) hlt, hd.name.2, dictGet?_dictSet, if_neg hne,
          List.getElem?_eq_getElem hlt]
        rfl
      · rw [List.getElem?_modify]
        have : ¬ id = id' := fun h => hid h.symm
        simp [this]
    · cases hw
      rw [hv] at hR
      exact hR

/-- C46, what holds of `form.has(name)`.  It is true, and nothing happens, when the form has an entry of that name.
Otherwise it depends on reading the attribute: false when that gives null or raises `AttributeError`; but any other value
makes it raise `AttributeError` unless it is a function (the `__get__` of the value is called, not that of the field), and
any other exception comes through.  What is missing: C46 wants `True` for every non-null value and `False` for every
field that cannot be mapped; see the counterexamples. -/
theorem C46_name_partial (n id : Nat) (name : String) (s : St P) :
    let R := Form.getattr I L C n id name s
    let H := formHasName I L C n id name s
    (∀ v, s.entry id name = some v → H = (.ok true, s)) ∧
    (s.entry id name = none →
      (R.1 = .ok .none → H = (.ok false, R.2)) ∧
      (∀ m, R.1 = .error (.attributeError m) → H = (.ok false, R.2)) ∧
      (∀ f, R.1 = .ok (.func f) → H = (.ok true, R.2)) ∧
      (∀ v, R.1 = .ok v → v.isNull = false → (∀ f, v ≠ .func f) →
        H = (.error (.attributeError "object has no attribute '__get__'"), R.2)) ∧
      (∀ x, R.1 = .error x → (∀ m, x ≠ .attributeError m) → H = (.error x, R.2))) := by
  intro R H
  have h1 : formItems id s = (.ok ((s.forms[id]?).elim [] FormObj.items), s) := rfl
  have he : s.entry id name = dictGet? ((s.forms[id]?).elim [] FormObj.items) (.str name) := by
    unfold St.entry
    cases s.forms[id]? <;> rfl
  have hH : H = (if (s.entry id name).isSome then M.pure true
    else do
      let v ← M.tryCatch (Form.getattr I L C n id name) fun
        | .attributeError _ => M.pure .none
        | e => M.raise e
      if v.isNull then M.pure false
      else do
        let w ← M.tryCatch (valueGet v) fun e => if e.isLookupError then M.pure .none else M.raise e
        M.pure (!w.isNull)) s := by
    show formHasName I L C n id name s = _
    unfold formHasName
    rw [M.bind_ok h1, he]
    rfl
  refine ⟨fun v hv => by rw [hH, hv]; rfl, fun hn => ?_⟩
  rw [hn] at hH
  simp only [Option.isSome_none, Bool.false_eq_true, if_false] at hH
  rcases hR : R with ⟨r, s1⟩
  have hR' : Form.getattr I L C n id name s = (r, s1) := hR
  dsimp only
  refine ⟨?_, ?_, ?_, ?_, ?_⟩
  · rintro ⟨⟩
    have : M.tryCatch (Form.getattr I L C n id name) (fun
        | .attributeError _ => M.pure .none
        | e => M.raise e) s = (.ok .none, s1) := by unfold M.tryCatch; rw [hR']
    rw [hH, M.bind_ok this]
    rfl
  · rintro m ⟨⟩
    have : M.tryCatch (Form.getattr I L C n id name) (fun
        | .attributeError _ => M.pure .none
        | e => M.raise e) s = (.ok .none, s1) := by unfold M.tryCatch; rw [hR']; rfl
    rw [hH, M.bind_ok this]
    rfl
  · rintro f ⟨⟩
    have : M.tryCatch (Form.getattr I L C n id name) (fun
        | .attributeError _ => M.pure .none
        | e => M.raise e) s = (.ok (.func f), s1) := by unfold M.tryCatch; rw [hR']
    rw [hH, M.bind_ok this]
    rfl
  · rintro v ⟨⟩ hv hf
    have : M.tryCatch (Form.getattr I L C n id name) (fun
        | .attributeError _ => M.pure .none
        | e => M.raise e) s = (.ok v, s1) := by unfold M.tryCatch; rw [hR']
    rw [hH, M.bind_ok this, hv]
    cases v with
    | func f => exact absurd rfl (hf f)
    | _ => rfl
  · rintro x ⟨⟩ hx
    have : M.tryCatch (Form.getattr I L C n id name) (fun
        | .attributeError _ => M.pure .none
        | e => M.raise e) s = (.error x, s1) := by
      unfold M.tryCatch
      rw [hR']
      cases x with
      | attributeError m => exact absurd rfl (hx m)
      | _ => rfl
    rw [hH, M.bind_error this]

/-- `LookupError` and its subclasses. -/
inductive LookupErr : Exc → Prop
  | key (m : String) : LookupErr (.keyError m)
  | index (m : String) : LookupErr (.indexError m)

/-- C46, what holds of `form.has(field)`: it reads the field; true exactly for a non-null value; false when reading raises
`LookupError`.  What is missing: a field that cannot be mapped makes it raise. -/
theorem C46_field_partial (n id : Nat) (f : Field) (s : St P) :
    let R := fieldGet I (mapField I L C n) f id s
    let H := formHasField I L C n id f s
    (∀ v, R.1 = .ok v → H = (.ok (!v.isNull), R.2)) ∧
    (∀ x, R.1 = .error x → LookupErr x → H = (.ok false, R.2)) ∧
    (∀ x, R.1 = .error x → ¬ LookupErr x → H = (.error x, R.2)) := by
  intro R H
  rcases hR : R with ⟨r, s1⟩
  have hR' : fieldGet I (mapField I L C n) f id s = (r, s1) := hR
  have hH : H = (M.tryCatch (fieldGet I (mapField I L C n) f id) (fun e => if e.isLookupError then M.pure .none else M.raise e) >>=
      fun w => M.pure (!w.isNull)) s := rfl
  constructor
  · rintro v ⟨⟩
    have : M.tryCatch (fieldGet I (mapField I L C n) f id) (fun e => if e.isLookupError then M.pure .none else M.raise e) s =
        (.ok v, s1) := by unfold M.tryCatch; rw [hR']
    rw [hH, M.bind_ok this]
    rfl
  refine ⟨?_, ?_⟩
  · rintro x ⟨⟩ hl
    have hx : x.isLookupError = true := by cases hl <;> rfl
    have : M.tryCatch (fieldGet I (mapField I L C n) f id) (fun e => if e.isLookupError then M.pure .none else M.raise e) s =
        (.ok .none, s1) := by unfold M.tryCatch; rw [hR']; dsimp only; rw [hx]; rfl
    rw [hH, M.bind_ok this]
    rfl
  · rintro x ⟨⟩ hl
    have hx : x.isLookupError = false := by
      cases x with
      | keyError m => exact absurd (.key m) hl
      | indexError m => exact absurd (.index m) hl
      | _ => rfl
    have : M.tryCatch (fieldGet I (mapField I L C n) f id) (fun e => if e.isLookupError then M.pure .none else M.raise e) s =
        (.error x, s1) := by unfold M.tryCatch; rw [hR']; dsimp only; rw [hx]; rfl
    rw [hH, M.bind_error this]

section
open Demo

/-- `class D: c = Integer(default=7); d = Integer(default=None); a = Integer()`. -/
def Demo.tableD : Classes := fun _ => { fields := [
  .mk { name := some "c", src := .str "c", default := .value (.int 7) } (.integer {}),
  .mk { name := some "d", src := .str "d", default := .value .none } (.integer {}), field "a" (.integer {})] }

/-- C45: reading `c` of an empty form gives the default and stores it; the second read gives it again. -/
example : (Form.getattr (Path.ops lib) lib tableD 5 0 "c" (holding 0 [])).1 = .ok (.int 7) ∧
    (Form.getattr (Path.ops lib) lib tableD 5 0 "c" (holding 0 [])).2.entry 0 "c" = some (.int 7) ∧
    ∀ k, Form.getattr (Path.ops lib) lib tableD k 0 "c" (Form.getattr (Path.ops lib) lib tableD 5 0 "c" (holding 0 [])).2 =
      (.ok (.int 7), (Form.getattr (Path.ops lib) lib tableD 5 0 "c" (holding 0 [])).2) := by
  have h := (C45_read (W := Path.lawful lib) (L := lib) (C := tableD) (s := holding 0 []) (id := 0) (name := "c")
    ⟨_, rfl, rfl⟩ (holding_inv 0 []) (by intro fr hfr; simp [holding] at hfr; subst hfr; simp [rootFrame]) rfl 5).1
    (.int 7) (by decide +kernel) rfl
  exact ⟨h.1, h.2.1, h.2.2.2⟩

/-- C45: an entry is returned as it is, here by a form whose class could not even map it. -/
example : Form.getattr (Path.ops lib) lib tableD 5 0 "a" (holding 0 [(.str "a", .str "x")]) =
    (.ok (.str "x"), holding 0 [(.str "a", .str "x")]) := C45_stored ⟨_, rfl, rfl⟩ rfl 5

/-- A required field that cannot be mapped: reading it raises the error that was reported. -/
theorem C46_required_counterexample : ∃ (s : St Path) (name : String) (e : Err), Live s ∧ s.entry 0 name = none ∧
    (Form.getattr (Path.ops lib) lib tableD 5 0 name s).1 = .error (.formError [e]) ∧
    (formHasName (Path.ops lib) lib tableD 5 0 name s).1 = .error (.formError [e]) ∧
    (formHasField (Path.ops lib) lib tableD 5 0 (field name (.integer {})) s).1 = .error (.formError [e]) := by
  exact ⟨holding 0 [], "a", ⟨.missing, "a", some "a", some 0⟩, holding_live _ _, rfl, by decide +kernel, by decide +kernel,
    by decide +kernel⟩

/-- A field that can be mapped: `form.has("c")` raises `AttributeError` though `form.c` is 7; asked again it is true. -/
theorem C46_value_counterexample : ∃ (s : St Path) (name : String) (m : String), Live s ∧
    (Form.getattr (Path.ops lib) lib tableD 5 0 name s).1 = .ok (.int 7) ∧
    (formHasName (Path.ops lib) lib tableD 5 0 name s).1 = .error (.attributeError m) ∧
    (formHasName (Path.ops lib) lib tableD 5 0 name (formHasName (Path.ops lib) lib tableD 5 0 name s).2).1 = .ok true :=
  ⟨holding 0 [], "c", "object has no attribute '__get__'", holding_live _ _, by decide +kernel,
    by decide +kernel, by decide +kernel⟩

/-- A field that maps to null: false, and then, the null having been stored, true. -/
example : (formHasName (Path.ops lib) lib tableD 5 0 "d" (holding 0 [])).1 = .ok false ∧
    (formHasName (Path.ops lib) lib tableD 5 0 "d" (formHasName (Path.ops lib) lib tableD 5 0 "d" (holding 0 [])).2).1 = .ok true ∧
    (formHasField (Path.ops lib) lib tableD 5 0 (field "d" (.integer {})) (holding 0 [(.str "d", .none)])).1 = .ok false := by
  decide +kernel

end
end Pilo
