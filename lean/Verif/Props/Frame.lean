import Verif.Props.FormsDemo

/-!
# C56, C57: mapping a form leaves other forms alone; `attach_parent`
-/

namespace Pilo
variable {P : Type} {I : PathOps P} {L : Lib} {C : Classes}

/-! ## C56 -/

/-- Class and contents of the form `j`. -/
def St.formCore (s : St P) (j : Nat) : Option (Nat × List (Val × Val)) := (s.forms[j]?).map FormObj.core

/-- C56. `form.map(...)` of classes whose hooks are functions of the value, whether it returns or raises, changes the contents of no form
that was there before, other than `form` itself; and it changes the class of no form. -/
theorem C56_others (W : LawfulPath I) (hC : C.All (ValueHooks True)) (n : Nat) {id : Nat} {src : SrcArg P}
    (hsrc : SrcOK W src) {tags : List String} {reset : Bool} {u : Unmapped} (hu : u.All (ValueHooks True))
    {raising : Bool} {s : St P} (hi : Inv W s) (hl : Live s) :
    (∀ j, j < s.forms.length → j ≠ id →
      (Form.map I L C n id src tags reset u raising s).2.formCore j = s.formCore j) ∧
    (∀ (j : Nat) (o : FormObj), s.forms[j]? = some o →
      ∃ o' : FormObj, (Form.map I L C n id src tags reset u raising s).2.forms[j]? = some o' ∧ o'.cls = o.cls) := by
  have href := RefE.formMap (I := I) (hC.imp fun _ h => h.lexNode)
    (Ref.mapField (I := I) (L := L) (hC.imp fun _ h => h.lexNode) n) id src tags reset
    (Unmapped.All.imp (fun _ h => ValueHooks.lexNode h) hu) raising s.env s.view s hl.agree
  have hk := TKeeps.formMap (W := W) (ok := (· = id)) (C := C) hC
    (TKeeps.mapField (L := L) hC n) (id := id) rfl hsrc tags reset hu raising s.env s.view ?_
  · have hf : (Form.map I L C n id src tags reset u raising s).2.forms =
        (Lex.formMap I C (Lex.mapField I L C n) id src tags reset u raising s.env s.view).2.forms := href.agree.forms
    refine ⟨fun j hj hne => ?_, fun j o ho => ?_⟩
    · unfold St.formCore
      rw [hf]
      exact hk.forms j hj hne
    · rw [hf]
      exact hk.cls j o ho
  · intro r p hp
    exact curPathObj_wf hi hp

/-- C56 for a field: mapping a field whose hooks are functions of the value changes the contents of no form that was there before. -/
theorem C56_field (W : LawfulPath I) (hC : C.All (ValueHooks True)) (n : Nat) {f : Field} (hf : f.All (ValueHooks True)) (v : Val)
    {s : St P} (hi : Inv W s) (hl : Live s) :
    ∀ j, j < s.forms.length → (mapField I L C n f v s).2.formCore j = s.formCore j :=
  fun _ hj => forms_kept W hC n hf v hi hl hj

/-! ## C57 -/

/-- The parent of the form `j`. -/
def St.parentOf (s : St P) (j : Nat) : Option (Option Parent) := (s.forms[j]?).bind FormObj.parent

/-- The part of `Field.map` before the parent is attached. -/
theorem mapInner_keeps {W : LawfulPath I} {rec : Rec P} (hr : RecKeeps W rec) (f : Field) (v : Val) :
    Keeps W (withPush I (pushVars { field := some f.name, parent := some .field }) (fieldMapInner I L C rec f v)) := by
  have h1 := Keeps.withResolve (L := L) (C := C) hr f (Keeps.fieldStart (L := L) (C := C) hr f)
  have h2 := fun v => Keeps.fieldCheck (L := L) (C := C) hr f v
  have h4 : Keeps W (fieldMapInner I L C rec f v) := by
    unfold fieldMapInner
    split
    · exact h1
    · exact h2 v
  keeps [h1, h2, h4]

/-- C57. A field with `attach_parent` whose value is the form `j`: afterwards the parent of `j` is what
`ctx.parent` was where the field was mapped.  For any field, with any hooks, in any context. -/
theorem C57_attached (W : LawfulPath I) (n : Nat) {f : Field} (ha : f.core.attachParent = true) {v : Val}
    {j : Nat} {s s' : St P} (hi : Inv W s) (h : mapField I L C n f v s = (.ok (.form j), s'))
    (hj : j < s'.forms.length) : s'.parentOf j = some s.env.parent := by
  cases n with
  | zero => cases h
  | succ n =>
    have hr : RecKeeps W (mapField I L C n) := Keeps.mapField n
    have h : mapFieldF I L C (mapField I L C n) f v s = (.ok (.form j), s') := h
    unfold mapFieldF at h
    obtain ⟨w, s1, h1, h2⟩ := bindOk h
    have hst : s1.stack = s.stack := by
      have hk := (mapInner_keeps (L := L) (C := C) hr f v).run s hi
      rw [h1] at hk
      exact hk.stack
    have hw : w = .form j ∧ setParent w s1 = (.ok (), s') := by
      simp only [ha, Bool.true_and] at h2
      cases hg : w.isIgnore with
      | true => simp only [hg] at h2; cases h2; cases hg
      | false =>
        simp only [hg, Bool.not_false, if_true] at h2
        obtain ⟨_, s2, h3, h4⟩ := bindOk h2
        cases h4
        exact ⟨rfl, h3⟩
    obtain ⟨rfl, h3⟩ := hw
    have h3' : s' = { s1 with forms := s1.forms.modify j fun o => { o with parent := some (lookup Frame.parent s1.stack) } } := by
      injection h3 with _ h3
      exact h3.symm
    subst h3'
    rw [hst]
    simp only [List.length_modify] at hj
    unfold St.parentOf
    simp only [List.getElem?_modify, List.getElem?_eq_getElem hj]
    simp
    rfl

/-- C57 for forms. When `form.map(...)` returns, every attempt at a field with `attach_parent` that gave a form
left that form with `form` as its parent. -/
theorem C57_form (W : LawfulPath I) (n : Nat) {id : Nat} {src : SrcArg P} (hsrc : SrcOK W src)
    {tags : List String} {reset : Bool} {u : Unmapped} {raising : Bool} {s s' : St P} {e : Nat} (hi : Inv W s)
    (hl : Live s) (h : Form.map I L C n id src tags reset u raising s = (.ok e, s')) :
    ∃ cls fr as s1 s2 s3,
      Course I C (mapField I L C n) id cls src (s.tagsFor tags) reset u raising s e fr as s1 s2 s3 s' ∧
      ∀ a ∈ as, a.field.core.attachParent = true → ∀ j, a.value = .form j → j < a.after.forms.length →
        a.after.parentOf j = some (some (.form id)) := by
  have hr : RecKeeps W (mapField I L C n) := Keeps.mapField n
  obtain ⟨cls, fr, as, s1, s2, s3, hi1, c⟩ := formMap_course hr hsrc hi hl h
  refine ⟨cls, fr, as, s1, s2, s3, c, ?_⟩
  have hpar : s1.env.parent = some (.form id) := by
    show lookup Frame.parent s1.stack = _
    rw [c.stack1]
    rfl
  have hrounds := c.rounds
  clear c
  induction hrounds with
  | nil s => intro a ha; cases ha
  | cons hs h t ih =>
    rename_i a as s s'
    have hx := (hr a.field .NONE).run s hi1
    rw [h] at hx
    have hstored : Ext W a.after (stored id a.field a.value a.after) := Ext.stored (hx.inv hi1)
    intro b hb hba j hv hj
    rcases List.mem_cons.1 hb with rfl | hb
    · subst hs
      rw [← hpar]
      exact C57_attached W n hba hi1 (hv ▸ h) hj
    · exact ih (hstored.inv (hx.inv hi1)) (by show lookup Frame.parent _ = _; rw [hstored.stack, hx.stack]; exact hpar) b hb hba j hv hj

/-! ## Examples -/

section
open Demo

/-- `class Parent: child = SubForm(Child, attach_parent=True); children = List(SubForm(Child, attach_parent=True))`
and `class Child: a = Integer()`. -/
def family : Classes := fun cls => match cls with
  | 0 => { fields := [
      .mk { name := some "child", src := .str "child", attachParent := true } (.subform 1 false (.str .ignore)),
      field "children" (.list (.mk { attachParent := true } (.subform 1 false (.str .ignore))) none none false)] }
  | _ => { fields := [field "a" (.integer {})] }

def docFamily : Val := .dict [(.str "child", .dict [(.str "a", .int 1)]),
  (.str "children", .list [.dict [(.str "a", .int 2)]])]

/-- The thread has a form `0` of class `Parent` and another form `1`. -/
def two : St Path := { holding 0 [] with forms := [⟨0, [], none⟩, ⟨1, [(.str "a", .int 7)], none⟩] }

theorem two_inv : Inv (Path.lawful lib) two where
  wf := by intro p hp; cases hp
  seg := by simp [two, holding, SegOK, rootFrame]
  nodup := by simp [two, holding, srcRefs, rootFrame]
  root := ⟨rootFrame, rfl, rfl⟩

theorem two_live : Live two where
  root := by simp [two, holding]
  path := by intro r h; simp [two, holding, curPath, lookup, FrameSrc.path?, rootFrame] at h
  errs := by intro e h; simp [two, holding, lookup, rootFrame] at h
  ids := by intro fr hfr id h; simp [two, holding] at hfr; subst hfr; simp [rootFrame] at h

/-- The forms after mapping. -/
def familyAfter : St Path :=
  (Form.map (Path.ops lib) lib family 10 0 (.data docFamily) [] false (.str .ignore) false two).2

/-- The child made for a declared field has the form as its parent, the one made for an item of the list a
field; the other form was not touched. -/
example : familyAfter.forms.map FormObj.parent = [none, none, some (some (.form 0)), some (some .field)] ∧
    familyAfter.entry 0 "child" = some (.form 2) ∧ familyAfter.entry 0 "children" = some (.list [.form 3]) ∧
    familyAfter.entry 1 "a" = some (.int 7) := by
  decide +kernel

theorem family_hookFree : family.All HookFree := by
  intro cls f hf
  match cls with
  | 0 =>
    simp only [family, List.mem_cons, List.not_mem_nil, or_false] at hf
    rcases hf with rfl | rfl
    · exact .mk (hookFree_plain (by intro _ _ _ _ _ h; cases h)) (.subform .str)
    · exact .mk (hookFree_plain (by intro _ _ _ _ _ h; cases h))
        (.list (.mk (hookFree_plain (by intro _ _ _ _ _ h; cases h)) (.subform .str)))
  | n + 1 =>
    simp only [family, List.mem_cons, List.not_mem_nil, or_false] at hf
    subst hf
    exact .mk (hookFree_plain (by intro _ _ _ _ _ h; cases h)) .integer

theorem family_free : family.All (ValueHooks True) := family_hookFree.calm

/-- C56 at work. -/
example : familyAfter.formCore 1 = some (1, [(.str "a", .int 7)]) :=
  (C56_others (Path.lawful lib) family_free 10 (src := .data docFamily) trivial (u := .str .ignore) .str two_inv
    two_live).1 1 (by decide) (by decide)

/-- C57 at work. -/
example : ∃ as : List (Attempt Path), as.length = 2 ∧ ∀ a ∈ as, a.field.core.attachParent = true →
    ∀ j, a.value = .form j → j < a.after.forms.length → a.after.parentOf j = some (some (.form 0)) := by
  obtain ⟨cls, fr, as, s1, s2, s3, c, h⟩ := C57_form (Path.lawful lib) (L := lib) (C := family) 10
    (src := .data docFamily) trivial (tags := []) (reset := false) (u := .str .ignore) (raising := false)
    two_inv two_live (id := 0) (e := 0) (ran (by decide +kernel))
  refine ⟨as, ?_, h⟩
  have hcls : cls = 0 := by have := c.ofClass; cases this; rfl
  subst hcls
  have := congrArg List.length c.fields
  rw [List.length_map] at this
  exact this

end

end Pilo
