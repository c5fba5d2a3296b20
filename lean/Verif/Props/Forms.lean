import Verif.Props.Silent

/-!
# C06 at the level of forms, C08, C28, C29: what `form.map` attempts, stores and reports
-/

namespace Pilo
variable {P : Type} {I : PathOps P} {L : Lib} {C : Classes} {W : LawfulPath I} {rec : Rec P}

/-! ### Entries of forms -/

theorem pyEq_str {n : String} {k : Val} : Val.pyEq (.str n) k = true ↔ k = .str n := by
  cases k with
  | str m =>
    rw [show Val.pyEq (.str n) (.str m) = (n == m) from by unfold Val.pyEq; rfl]
    constructor
    · intro h; rw [eq_of_beq h]
    · intro h; cases h; simp
  | _ =>
    constructor
    · intro h; unfold Val.pyEq at h; cases h
    · intro h; cases h

/-- `form.get(name)`. -/
def St.entry (s : St P) (id : Nat) (n : String) : Option Val :=
  (s.forms[id]?).bind fun o => dictGet? o.items (.str n)

theorem dictGet?_dictSet (d : List (Val × Val)) (a b : String) (v : Val) :
    dictGet? (dictSet d (.str a) v) (.str b) = if a = b then some v else dictGet? d (.str b) := by
  induction d with
  | nil =>
    unfold dictSet dictGet?
    simp only [List.find?_cons, List.find?_nil]
    by_cases h : a = b
    · subst h; rw [pyEq_str.2 rfl, if_pos rfl]
    · rw [if_neg h]
      have : Val.pyEq (.str b) (.str a) = false := by
        rw [Bool.eq_false_iff, ne_eq, pyEq_str]
        rintro ⟨⟩; exact h rfl
      rw [this]
  | cons x d ih =>
    unfold dictSet
    split
    · rename_i hx
      have hx' := pyEq_str.1 hx
      unfold dictGet?
      simp only [List.find?_cons]
      by_cases h : a = b
      · subst h; rw [hx, if_pos rfl]
      · rw [if_neg h]
        have : Val.pyEq (.str b) x.1 = false := by
          rw [Bool.eq_false_iff, ne_eq, pyEq_str, hx']
          rintro ⟨⟩; exact h rfl
        rw [this]
    · rename_i hx
      unfold dictGet? at ih ⊢
      simp only [List.find?_cons]
      by_cases h : a = b
      · subst h
        rw [Bool.eq_false_iff.2 hx]
        exact ih
      · rw [if_neg h] at ih ⊢
        cases Val.pyEq (.str b) x.1 with
        | true => rfl
        | false => exact ih

theorem dictGet?_dictDel (d : List (Val × Val)) (a b : String) :
    dictGet? (dictDel d (.str a)) (.str b) = if a = b then none else dictGet? d (.str b) := by
  induction d with
  | nil => unfold dictDel dictGet?; simp
  | cons x d ih =>
    unfold dictDel at ih ⊢
    by_cases hx : Val.pyEq (.str a) x.1 = true
    · rw [List.filter_cons_of_neg (by simp [hx]), ih]
      by_cases h : a = b
      · rw [if_pos h, if_pos h]
      · rw [if_neg h, if_neg h]
        have : Val.pyEq (.str b) x.1 = false := by
          rw [Bool.eq_false_iff, ne_eq, pyEq_str, pyEq_str.1 hx]
          rintro ⟨⟩; exact h rfl
        unfold dictGet?
        rw [List.find?_cons, this]
    · rw [List.filter_cons_of_pos (by simp [hx])]
      unfold dictGet? at ih ⊢
      rw [List.find?_cons, List.find?_cons]
      by_cases h : a = b
      · subst h
        rw [Bool.eq_false_iff.2 hx]
        exact ih
      · rw [if_neg h] at ih ⊢
        cases Val.pyEq (.str b) x.1 with
        | true => rfl
        | false => exact ih


/-! ### Courses -/

theorem Live.ext {s s' : St P} (hl : Live s) (h : Ext W s s') : Live s' where
  root := by rw [h.stack]; exact hl.root
  path := by
    intro r hr
    rw [h.stack] at hr
    obtain ⟨q, hq, -⟩ := h.paths r _ (List.getElem?_eq_getElem (hl.path r hr))
    exact (List.getElem?_eq_some_iff.1 hq).1
  errs := by
    intro e he
    rw [h.stack] at he
    obtain ⟨q, hq, -⟩ := h.errs e _ (List.getElem?_eq_getElem (hl.errs e he))
    exact (List.getElem?_eq_some_iff.1 hq).1
  ids := by
    intro fr hfr id hid
    rw [h.stack] at hfr
    obtain ⟨q, hq, -⟩ := h.forms id _ (List.getElem?_eq_getElem (hl.ids fr hfr id hid))
    exact (List.getElem?_eq_some_iff.1 hq).1

/-- Mapping a field whose hooks are functions of the value leaves the entries of existing forms alone. -/
theorem forms_kept (W : LawfulPath I) (hC : C.All (ValueHooks True)) (n : Nat) {f : Field} (hf : f.All (ValueHooks True))
    (v : Val) {s : St P} (hi : Inv W s) (hl : Live s) {i : Nat} (h : i < s.forms.length) :
    ((mapField I L C n f v s).2.forms[i]?).map FormObj.core = (s.forms[i]?).map FormObj.core := by
  have hr := (Ref.mapField (I := I) (L := L) (hC.imp fun _ => ValueHooks.lexNode) n f v
    (hf.imp fun _ => ValueHooks.lexNode)).run hl
  have hk := TKeeps.mapField (L := L) (W := W) hC n f v hf s.env s.view fun r p hp => curPathObj_wf hi hp
  have := hk.forms i h (by intro h; exact h)
  rw [hr.2.2.1]
  exact this

/-- The state in which the fields are mapped is a proper context. -/
theorem Course.good {id cls : Nat} {src : SrcArg P} {T : List String} {reset : Bool} {u : Unmapped}
    {raising : Bool} {s s1 s2 s3 s' : St P} {e : Nat} {fr : Frame} {as : List (Attempt P)}
    (c : Course I C rec id cls src T reset u raising s e fr as s1 s2 s3 s') (hl : Live s) :
    Live s1 ∧ id < s1.forms.length ∧ curErrs s1 = some ⟨raising, []⟩ ∧ s1.env.src = some true ∧
      s1.env.ignoreMissing = s.env.ignoreMissing ∧ s1.env.tags = s.env.tags := by
  have hlen : s1.forms.length = s.forms.length := by
    rw [c.forms1]; unfold resetForms; split <;> simp
  have hid : id < s.forms.length := by
    cases h : s.forms[id]? with
    | none => rw [List.getElem?_eq_none_iff] at h; have := c.ofClass; rw [List.getElem?_eq_none h] at this; cases this
    | some o => exact (List.getElem?_eq_some_iff.1 h).1
  have herr : lookup Frame.errors s1.stack = some e := by
    rw [c.stack1, c.errors]; simp [lookup, formFrame]
  obtain ⟨r, p, h1, -, h3⟩ := c.start
  have hcp : ∀ r', curPath s1.stack = some (some r') → r' < s1.paths.length := by
    intro r' hr'
    unfold curPathObj at h1
    rw [hr'] at h1
    dsimp only at h1
    cases hp : s1.paths[r']? with
    | none => rw [hp] at h1; cases h1
    | some p => exact (List.getElem?_eq_some_iff.1 hp).1
  refine ⟨⟨?_, hcp, ?_, ?_⟩, by rw [hlen]; exact hid, ?_, ?_, ?_, ?_⟩
  · rw [c.stack1]; simp [hl.root]
  · intro e' he'
    rw [herr] at he'; cases he'
    rw [c.errs1, c.newList]; simp
  · intro fr' hfr' i hi
    rw [hlen]
    rw [c.stack1] at hfr'
    simp only [List.mem_cons] at hfr'
    rcases hfr' with rfl | rfl | hfr'
    · cases hi; exact hid
    · rw [c.errors] at hi; cases hi
    · exact hl.ids fr' hfr' i hi
  · unfold curErrs; rw [herr]
    show s1.errs[e]? = _
    rw [c.errs1, c.newList]; simp
  · show lookup _ s1.stack = _
    rw [c.stack1]
    rcases h3 with ⟨-, h, hf, -⟩ | ⟨-, hf, -⟩
    · simp only [lookup, List.findSome?_cons, hf, formFrame, FrameSrc.src?]
      exact h
    · simp [lookup, hf, formFrame, FrameSrc.src?]
  · show lookup _ s1.stack = _
    rw [c.stack1, c.errors]; simp [lookup, formFrame]; rfl
  · show lookup _ s1.stack = _
    rw [c.stack1, c.errors]; simp [lookup, formFrame]; rfl


/-! ## C08 -/

/-- The errors in list `e`. -/
def St.errors (s : St P) (e : Nat) : List Err := (s.errs[e]?).elim [] ErrBuf.items

/-- The errors added to list `e` between two states. -/
def added (e : Nat) (s s' : St P) : List Err := (s'.errors e).drop (s.errors e).length

theorem Ext.errors {s s' : St P} (h : Ext W s s') (e : Nat) : s.errors e <+: s'.errors e := by
  unfold St.errors
  cases hb : s.errs[e]? with
  | none => exact List.nil_prefix
  | some b =>
    obtain ⟨b', h1, -, h3⟩ := h.errs e b hb
    rw [h1]; exact h3

theorem added_eq {s s' : St P} {e : Nat} (h : s.errors e <+: s'.errors e) :
    s'.errors e = s.errors e ++ added e s s' := by
  obtain ⟨t, ht⟩ := h
  unfold added
  rw [← ht]; simp

theorem stored_errors (id : Nat) (f : Field) (v : Val) (s : St P) (e : Nat) :
    (stored id f v s).errors e = s.errors e := by
  unfold stored
  split <;> rfl

theorem Rounds.errors (hr : RecKeeps W rec) {id : Nat} {as : List (Attempt P)} {s s' : St P} {e : Nat}
    (h : Rounds rec id as s s') : Inv W s →
    s'.errors e = s.errors e ++ as.flatMap (fun a => added e a.before a.after) ∧
      ∀ a ∈ as, rec a.field .NONE a.before = (.ok a.value, a.after) ∧
        a.after.errors e = a.before.errors e ++ added e a.before a.after := by
  induction h with
  | nil s => intro _; simp
  | cons hs h t ih =>
    intro hi
    rename_i a as s s'
    subst hs
    have h1 := (hr a.field .NONE).run _ hi
    rw [h] at h1
    have h2 : Ext W _ (stored id a.field a.value a.after) := Ext.stored (h1.inv hi)
    obtain ⟨h3, h4⟩ := ih (h2.inv (h1.inv hi))
    have h5 := added_eq (h1.errors e)
    refine ⟨?_, ?_⟩
    · rw [h3, stored_errors, h5]
      simp [List.append_assoc]
    · intro x hx
      rcases List.mem_cons.1 hx with rfl | hx
      · exact ⟨h, h5⟩
      · exact h4 x hx

theorem Course.unmapped_ext (hr : RecKeeps W rec) {id cls : Nat} {src : SrcArg P} {T : List String}
    {reset : Bool} {u : Unmapped} {raising : Bool} {s s1 s2 s3 s' : St P} {e : Nat} {fr : Frame}
    {as : List (Attempt P)} (c : Course I C rec id cls src T reset u raising s e fr as s1 s2 s3 s')
    (hi : Inv W s1) : Inv W { s2 with stack := fr :: s.stack } ∧
      Ext W { s2 with stack := fr :: s.stack } s3 := by
  have h2 := c.rounds.ext hr hi
  have hi2 := h2.inv hi
  have hst : s2.stack = formFrame id :: fr :: s.stack := by rw [h2.stack, c.stack1]
  have hir : Inv W { s2 with stack := fr :: s.stack } := by
    have := (Inv.restore hi2 (by rw [hst]; simp))
    unfold restore at this
    rw [hst] at this
    simpa [formFrame] using this
  have := (Keeps.applyUnmapped hr id u).run _ hir
  rw [c.unmapped] at this
  exact ⟨hir, this⟩

/-- C08. `form.map` that returns has attempted every selected field, in class order; the list it returns is
the concatenation, in that order, of the errors added during each attempt, followed by those the `unmapped`
directive added.  (`Course` has the attempts start in the new context and follow one another.) -/
theorem C08_all_attempted (n : Nat) {id : Nat} {src : SrcArg P} (hsrc : SrcOK W src) {tags : List String}
    {reset : Bool} {u : Unmapped} {raising : Bool} {s s' : St P} {e : Nat} (hi : Inv W s) (hl : Live s)
    (h : Form.map I L C n id src tags reset u raising s = (.ok e, s')) :
    ∃ cls fr as s1 s2 s3,
      Course I C (mapField I L C n) id cls src (s.tagsFor tags) reset u raising s e fr as s1 s2 s3 s' ∧
      as.map Attempt.field = (C cls).fields.filter (selected (s.tagsFor tags)) ∧
      (∀ a ∈ as, mapField I L C n a.field .NONE a.before = (.ok a.value, a.after) ∧
        a.after.errors e = a.before.errors e ++ added e a.before a.after) ∧
      s'.errors e = as.flatMap (fun a => added e a.before a.after) ++ added e s2 s3 ∧
      (u = .str .ignore ∨ u = .str .none → added e s2 s3 = []) := by
  have hr : RecKeeps W (mapField I L C n) := Keeps.mapField n
  obtain ⟨cls, fr, as, s1, s2, s3, hi1, c⟩ := formMap_course hr hsrc hi hl h
  obtain ⟨h1, h2⟩ := c.rounds.errors (e := e) hr hi1
  have h3 := (c.unmapped_ext hr hi1).2.errors e
  have h0 : s1.errors e = [] := by
    unfold St.errors
    rw [c.errs1, c.newList]; simp
  have hs' : s'.errors e = s3.errors e := by unfold St.errors; rw [c.errs']
  refine ⟨cls, fr, as, s1, s2, s3, c, c.fields, h2, ?_, ?_⟩
  · have : s3.errors e = s2.errors e ++ added e s2 s3 := added_eq h3
    rw [hs', this, h1, h0, List.nil_append]
  · rintro (rfl | rfl)
    · have := c.unmapped
      injection this with _ this
      rw [← this]; unfold added; exact List.drop_length
    · have := c.unmapped
      injection this with _ this
      rw [← this]; unfold added; exact List.drop_length

/-- C08: the loop stops early only when a field raises: then the fields before it were attempted, in order. -/
theorem C08_raises (n id : Nat) (tags : List String) (fs : List Field) (s s' : St P) (e : Exc) :
    mapFields (mapField I L C n) id tags fs s = (.error e, s') ↔
      ∃ as f rest s1, Rounds (mapField I L C n) id as s s1 ∧ mapField I L C n f .NONE s1 = (.error e, s') ∧
        as.map Attempt.field ++ f :: rest = fs.filter (selected tags) :=
  mapFields_error id tags fs s s' e

/-! ## C28, C29 -/

/-- The value that the last successful attempt on a field named `n` gave. -/
def produced (as : List (Attempt P)) (n : String) : Option Val :=
  (as.reverse.find? fun a => a.field.name == some n && !a.value.isIgnore).map Attempt.value

theorem produced_cons (a : Attempt P) (as : List (Attempt P)) (n : String) :
    produced (a :: as) n = (produced as n).or
      (if a.field.name = some n ∧ a.value.isIgnore = false then some a.value else none) := by
  unfold produced
  rw [List.reverse_cons, List.find?_append]
  cases as.reverse.find? fun a => a.field.name == some n && !a.value.isIgnore with
  | some x => rfl
  | none =>
    simp only [Option.none_or, Option.map_none, List.find?_singleton]
    by_cases h : a.field.name = some n ∧ a.value.isIgnore = false
    · rw [if_pos (by simp [h.1, h.2]), if_pos h]; rfl
    · rw [if_neg (by simpa using h), if_neg h]; rfl

theorem entry_of_core {s s' : St P} {id : Nat} {n : String}
    (h : (s'.forms[id]?).map FormObj.core = (s.forms[id]?).map FormObj.core) :
    s'.entry id n = s.entry id n := by
  unfold St.entry
  cases h1 : s.forms[id]? with
  | none =>
    rw [h1] at h
    cases h2 : s'.forms[id]? with
    | none => rfl
    | some o => rw [h2] at h; cases h
  | some o =>
    rw [h1] at h
    cases h2 : s'.forms[id]? with
    | none => rw [h2] at h; cases h
    | some o' =>
      rw [h2] at h
      have : o'.items = o.items := by
        simp only [Option.map_some, Option.some.injEq, FormObj.core, Prod.mk.injEq] at h
        exact h.2
      simp [this]

theorem entry_modify (forms : List FormObj) (id : Nat) (g : List (Val × Val) → List (Val × Val))
    (hid : id < forms.length) (n : String) :
    (((forms.modify id fun o => { o with items := g o.items })[id]?).bind
      fun o => dictGet? o.items (.str n)) = dictGet? (g (forms[id]).items) (.str n) := by
  rw [List.getElem?_modify, List.getElem?_eq_getElem hid]
  simp

theorem stored_entry {id : Nat} {f : Field} {v : Val} {s : St P} (hf : f.name.isSome)
    (hid : id < s.forms.length) (n : String) : (stored id f v s).entry id n =
      if f.name = some n ∧ v.isIgnore = false then some v else s.entry id n := by
  obtain ⟨m, hm⟩ := Option.isSome_iff_exists.1 hf
  have hk : f.key = .str m := by unfold Field.key; rw [hm]
  unfold stored St.entry
  cases hv : v.isIgnore with
  | true => simp
  | false =>
    simp only [Bool.false_eq_true, if_false, and_true]
    rw [entry_modify _ _ (fun d => dictSet d f.key v) hid, hk, dictGet?_dictSet, hm, List.getElem?_eq_getElem hid]
    simp

theorem Rounds.entry (W : LawfulPath I) (hC : C.All (ValueHooks True)) (k : Nat) {id : Nat} {as : List (Attempt P)}
    {s s' : St P} (h : Rounds (mapField I L C k) id as s s') :
    Inv W s → Live s → id < s.forms.length → (∀ a ∈ as, a.field.All (ValueHooks True) ∧ a.field.name.isSome) →
    id < s'.forms.length ∧ ∀ n, s'.entry id n = (produced as n).or (s.entry id n) := by
  have hr : RecKeeps W (mapField I L C k) := Keeps.mapField k
  induction h with
  | nil s => intro _ _ hid _; exact ⟨hid, fun _ => rfl⟩
  | cons hs h t ih =>
    intro hi hl hid has
    rename_i a as s s'
    have h1 := (hr a.field .NONE).run _ hi
    have hkept := forms_kept (L := L) W hC k (has a (by simp)).1 .NONE hi hl hid
    rw [h] at h1 hkept
    have h2 : Ext W _ (stored id a.field a.value a.after) := Ext.stored (h1.inv hi)
    have hid1 : id < a.after.forms.length := by
      obtain ⟨o, ho, -⟩ := h1.forms id _ (List.getElem?_eq_getElem hid)
      exact (List.getElem?_eq_some_iff.1 ho).1
    have hid2 : id < (stored id a.field a.value a.after).forms.length := by
      unfold stored; split <;> simp [hid1]
    obtain ⟨h3, h4⟩ := ih (h2.inv (h1.inv hi)) ((hl.ext h1).ext h2) hid2 fun x hx => has x (by simp [hx])
    refine ⟨h3, fun n => ?_⟩
    rw [h4, stored_entry (has a (by simp)).2 hid1, produced_cons, entry_of_core hkept]
    cases produced as n with
    | some v => rfl
    | none =>
      simp only [Option.none_or]
      split <;> rfl

/-- Is `n` the name of a field that the tags select? -/
def isSelected (T : List String) (fs : List Field) (n : String) : Bool :=
  fs.any fun f => selected T f && f.name == some n

theorem resetItems_get (T : List String) (fs : List Field) (hn : ∀ f ∈ fs, f.name.isSome) (n : String) :
    ∀ d : List (Val × Val), dictGet? (resetItems T fs d) (.str n) =
      if isSelected T fs n then none else dictGet? d (.str n) := by
  induction fs with
  | nil => intro d; rfl
  | cons f fs ih =>
    intro d
    have ih := ih fun g hg => hn g (by simp [hg])
    obtain ⟨m, hm⟩ := Option.isSome_iff_exists.1 (hn f (by simp))
    have hk : f.key = .str m := by unfold Field.key; rw [hm]
    unfold isSelected at ih ⊢
    unfold resetItems at ih ⊢
    by_cases hf : selected T f = true
    · rw [List.filter_cons_of_pos hf, List.foldl_cons, ih, hk, dictGet?_dictDel, List.any_cons, hf, hm]
      by_cases hmn : m = n
      · subst hmn; simp
      · have : (some m == some n) = false := by simpa using hmn
        simp [hmn]
    · rw [List.filter_cons_of_neg hf, ih, List.any_cons, Bool.eq_false_iff.2 hf]
      simp

theorem resetForms_entry {reset : Bool} {id : Nat} {T : List String} {fs : List Field}
    (hn : ∀ f ∈ fs, f.name.isSome) {s s1 : St P} (h : s1.forms = resetForms reset id T fs s.forms)
    (hid : id < s.forms.length) (n : String) :
    s1.entry id n = if reset && isSelected T fs n then none else s.entry id n := by
  unfold St.entry
  rw [h]
  unfold resetForms
  cases reset with
  | false => simp
  | true =>
    simp only [if_true, Bool.true_and]
    rw [entry_modify _ _ (resetItems T fs) hid, resetItems_get T fs hn, List.getElem?_eq_getElem hid]
    rfl

/-- C28, C29. `form.map` of a form whose hooks are functions of the value, with nothing to do for unmapped keys: afterwards an entry has
the value its field produced in this mapping, if it produced one; else it is gone if the field is selected and
the form was reset; else it is what it was before. -/
theorem C29_content (W : LawfulPath I) (hN : Named C) (hC : C.All (ValueHooks True)) (k : Nat) {id : Nat}
    {src : SrcArg P} (hsrc : SrcOK W src) {tags : List String} {reset : Bool} {u : Unmapped}
    (hu : u = .str .ignore ∨ u = .str .none) {raising : Bool} {s s' : St P} {e : Nat} (hi : Inv W s)
    (hl : Live s) (h : Form.map I L C k id src tags reset u raising s = (.ok e, s')) :
    ∃ cls fr as s1 s2 s3,
      Course I C (mapField I L C k) id cls src (s.tagsFor tags) reset u raising s e fr as s1 s2 s3 s' ∧
      ∀ n, s'.entry id n = (produced as n).or
        (if reset && isSelected (s.tagsFor tags) (C cls).fields n then none else s.entry id n) := by
  have hr : RecKeeps W (mapField I L C k) := Keeps.mapField k
  obtain ⟨cls, fr, as, s1, s2, s3, hi1, c⟩ := formMap_course hr hsrc hi hl h
  refine ⟨cls, fr, as, s1, s2, s3, c, fun n => ?_⟩
  obtain ⟨hl1, hid, -⟩ := c.good hl
  have hmem : ∀ a ∈ as, a.field ∈ (C cls).fields := by
    intro a ha
    have : a.field ∈ as.map Attempt.field := List.mem_map_of_mem ha
    rw [c.fields] at this
    exact (List.mem_filter.1 this).1
  have h2 := (c.rounds.entry W hC k hi1 hl1 hid fun a ha => ⟨hC cls _ (hmem a ha), hN cls _ (hmem a ha)⟩).2 n
  have h3 : s'.forms = s2.forms := by
    rw [c.forms']
    have := c.unmapped
    rcases hu with rfl | rfl <;> · injection this with _ this; rw [← this]
  have hid' : id < s.forms.length := by
    have : s1.forms.length = s.forms.length := by
      rw [c.forms1]; unfold resetForms; split <;> simp
    omega
  rw [← resetForms_entry (hN cls) c.forms1 hid' n, ← h2]
  unfold St.entry
  rw [h3]

/-- What `selected` means: no tags at all, or one in common. -/
theorem selected_iff {T : List String} {f : Field} :
    selected T f = true ↔ T = [] ∨ ∃ t ∈ f.core.tags, t ∈ T := by
  unfold selected
  cases T with
  | nil => simp
  | cons a T => simp

/-- C28. `form.map(src, tags)` attempts exactly the fields with a tag among the given ones (all fields when
there are no tags), and leaves the entries of all other names as they were. -/
theorem C28_tags (W : LawfulPath I) (hN : Named C) (hC : C.All (ValueHooks True)) (k : Nat) {id : Nat}
    {src : SrcArg P} (hsrc : SrcOK W src) {tags : List String} (htags : tags ≠ []) {reset : Bool} {u : Unmapped}
    (hu : u = .str .ignore ∨ u = .str .none) {raising : Bool} {s s' : St P} {e : Nat} (hi : Inv W s)
    (hl : Live s) (h : Form.map I L C k id src tags reset u raising s = (.ok e, s')) :
    ∃ cls fr as s1 s2 s3,
      Course I C (mapField I L C k) id cls src tags reset u raising s e fr as s1 s2 s3 s' ∧
      (∀ f, f ∈ as.map Attempt.field ↔ f ∈ (C cls).fields ∧ ∃ t ∈ f.core.tags, t ∈ tags) ∧
      ∀ n, (∀ f ∈ (C cls).fields, f.name = some n → ∀ t ∈ f.core.tags, t ∉ tags) →
        s'.entry id n = s.entry id n := by
  obtain ⟨cls, fr, as, s1, s2, s3, c, hc⟩ := C29_content W hN hC k hsrc hu hi hl h
  have hT : s.tagsFor tags = tags := by
    unfold St.tagsFor pickTags
    cases tags with
    | nil => exact absurd rfl htags
    | cons a t => rfl
  rw [hT] at c hc
  refine ⟨cls, fr, as, s1, s2, s3, c, fun f => ?_, fun n hn => ?_⟩
  · rw [c.fields, List.mem_filter, selected_iff]
    simp [htags]
  · have hsel : isSelected tags (C cls).fields n = false := by
      rw [Bool.eq_false_iff]
      intro hh
      unfold isSelected at hh
      rw [List.any_eq_true] at hh
      obtain ⟨f, hf, hs⟩ := hh
      simp only [Bool.and_eq_true, beq_iff_eq] at hs
      rcases selected_iff.1 hs.1 with h0 | ⟨t, ht, ht'⟩
      · exact htags h0
      · exact hn f hf hs.2 t ht ht'
    have hprod : produced as n = none := by
      unfold produced
      rw [Option.map_eq_none_iff, List.find?_eq_none]
      intro a ha
      rw [List.mem_reverse] at ha
      have hmem : a.field ∈ as.map Attempt.field := List.mem_map_of_mem ha
      rw [c.fields, List.mem_filter] at hmem
      simp only [Bool.and_eq_true, beq_iff_eq, not_and]
      intro hname
      rcases selected_iff.1 hmem.2 with h0 | ⟨t, ht, ht'⟩
      · exact absurd h0 htags
      · exact absurd ht' (hn _ hmem.1 hname t ht)
    rw [hc n, hprod, hsel]
    simp

/-- C28: without tags, neither given nor in the context, every field is attempted. -/
theorem C28_no_tags (W : LawfulPath I) (k : Nat) {id : Nat} {src : SrcArg P} (hsrc : SrcOK W src)
    {reset : Bool} {u : Unmapped} {raising : Bool} {s s' : St P} {e : Nat} (hi : Inv W s) (hl : Live s)
    (ht : s.env.tags = none) (h : Form.map I L C k id src [] reset u raising s = (.ok e, s')) :
    ∃ cls fr as s1 s2 s3, Course I C (mapField I L C k) id cls src [] reset u raising s e fr as s1 s2 s3 s' ∧
      as.map Attempt.field = (C cls).fields := by
  have hr : RecKeeps W (mapField I L C k) := Keeps.mapField k
  obtain ⟨cls, fr, as, s1, s2, s3, hi1, c⟩ := formMap_course hr hsrc hi hl h
  have hT : s.tagsFor [] = [] := by unfold St.tagsFor pickTags; rw [ht]; rfl
  rw [hT] at c
  refine ⟨cls, fr, as, s1, s2, s3, c, ?_⟩
  rw [c.fields]
  exact List.filter_eq_self.2 fun f _ => by simp [selected]

theorem produced_some {as : List (Attempt P)} {n : String} {v : Val} (h : produced as n = some v) :
    ∃ a ∈ as, a.field.name = some n ∧ a.value = v ∧ v.isIgnore = false := by
  unfold produced at h
  rw [Option.map_eq_some_iff] at h
  obtain ⟨a, ha, rfl⟩ := h
  have := List.find?_some ha
  simp only [Bool.and_eq_true, beq_iff_eq, Bool.not_eq_true'] at this
  exact ⟨a, by simpa using List.mem_of_find?_eq_some ha, this.1, rfl, this.2⟩

theorem produced_none {as : List (Attempt P)} {n : String}
    (h : ∀ a ∈ as, a.field.name = some n → a.value.isIgnore = true) : produced as n = none := by
  unfold produced
  rw [Option.map_eq_none_iff, List.find?_eq_none]
  intro a ha
  rw [List.mem_reverse] at ha
  simp only [Bool.and_eq_true, beq_iff_eq, not_and]
  intro hn
  simp [h a ha hn]

/-- C29. After `form.map(src, reset=True)` a selected field is in the form only with a value that this mapping
got for it: stale values are gone. -/
theorem C29_reset (W : LawfulPath I) (hN : Named C) (hC : C.All (ValueHooks True)) (k : Nat) {id : Nat}
    {src : SrcArg P} (hsrc : SrcOK W src) {tags : List String} {u : Unmapped}
    (hu : u = .str .ignore ∨ u = .str .none) {raising : Bool} {s s' : St P} {e : Nat} (hi : Inv W s)
    (hl : Live s) (h : Form.map I L C k id src tags true u raising s = (.ok e, s')) :
    ∃ cls fr as s1 s2 s3,
      Course I C (mapField I L C k) id cls src (s.tagsFor tags) true u raising s e fr as s1 s2 s3 s' ∧
      ∀ f ∈ (C cls).fields, selected (s.tagsFor tags) f = true → ∀ n, f.name = some n → ∀ v,
        s'.entry id n = some v → ∃ a ∈ as, a.field.name = some n ∧ a.value = v ∧ v.isIgnore = false := by
  obtain ⟨cls, fr, as, s1, s2, s3, c, hc⟩ := C29_content W hN hC k hsrc hu hi hl h
  refine ⟨cls, fr, as, s1, s2, s3, c, fun f hf hsel n hn v hv => ?_⟩
  have hs : isSelected (s.tagsFor tags) (C cls).fields n = true := by
    unfold isSelected
    rw [List.any_eq_true]
    exact ⟨f, hf, by simp [hsel, hn]⟩
  rw [hc n, hs] at hv
  simp only [Bool.and_self, if_true, Option.or_none] at hv
  exact produced_some hv

/-- C29. Without `reset` a name for which this mapping got no value keeps its entry. -/
theorem C29_no_reset (W : LawfulPath I) (hN : Named C) (hC : C.All (ValueHooks True)) (k : Nat) {id : Nat}
    {src : SrcArg P} (hsrc : SrcOK W src) {tags : List String} {u : Unmapped}
    (hu : u = .str .ignore ∨ u = .str .none) {raising : Bool} {s s' : St P} {e : Nat} (hi : Inv W s)
    (hl : Live s) (h : Form.map I L C k id src tags false u raising s = (.ok e, s')) :
    ∃ cls fr as s1 s2 s3,
      Course I C (mapField I L C k) id cls src (s.tagsFor tags) false u raising s e fr as s1 s2 s3 s' ∧
      ∀ n, (∀ a ∈ as, a.field.name = some n → a.value.isIgnore = true) → s'.entry id n = s.entry id n := by
  obtain ⟨cls, fr, as, s1, s2, s3, c, hc⟩ := C29_content W hN hC k hsrc hu hi hl h
  refine ⟨cls, fr, as, s1, s2, s3, c, fun n hn => ?_⟩
  rw [hc n, produced_none hn]
  simp

/-! ## C06 for forms -/

theorem Rounds.says (W : LawfulPath I) (S : Sane I) (hN : Named C) (hL : SoberLib L) (hC : C.All Tame)
    (k : Nat) {id : Nat} {as : List (Attempt P)} {s s' : St P} (h : Rounds (mapField I L C k) id as s s') :
    Inv W s → Live s → s.env.src = some true → s.env.ignoreMissing = some false →
    (∀ a ∈ as, a.field.All Tame) → (∀ r p, curPathObj s = some (some (r, p)) → S.Q p) →
    ∀ b, curErrs s = some b → b.raising = false →
    ∃ es, curErrs s' = some { b with items := b.items ++ es } ∧
      (es = [] → ∀ a ∈ as, a.value.isIgnore = false) := by
  have hr : RecKeeps W (mapField I L C k) := Keeps.mapField k
  induction h with
  | nil s => intro _ _ _ _ _ _ b hb _; exact ⟨[], by simpa using hb, by intro _ a ha; cases ha⟩
  | cons hs h t ih =>
    intro hi hl hsrc him has hq b hb hcol
    rename_i a as s s'
    have h1 := (hr a.field .NONE).run _ hi
    have hrun := (Ref.mapField (I := I) (L := L) ((Tame.classes hC).imp fun _ => HookFree.lexNode) k a.field
      .NONE ((Tame.free (has a (by simp))).imp fun _ => HookFree.lexNode)).run hl
    obtain ⟨es, hes, hqt, h3⟩ := Says.mapField (S := S) hN hL hC k a.field .NONE (has a (by simp)) rfl
      s.env s.view b ⟨hsrc, him, hb, hq⟩
    rw [h] at h1 hrun
    have h2 : Ext W _ (stored id a.field a.value a.after) := Ext.stored (h1.inv hi)
    have hstk : (stored id a.field a.value a.after).stack = s.stack := by rw [h2.stack, h1.stack]
    have henv : (stored id a.field a.value a.after).env = s.env := by unfold St.env; rw [hstk]
    have hobj : curPathObj (stored id a.field a.value a.after) = curPathObj a.after := by
      unfold stored; split <;> rfl
    have herr : curErrs (stored id a.field a.value a.after) = curErrs a.after := by
      unfold stored; split <;> rfl
    obtain ⟨es', h4, h5⟩ := ih (h2.inv (h1.inv hi)) ((hl.ext h1).ext h2) (by rw [henv]; exact hsrc)
      (by rw [henv]; exact him) (fun x hx => has x (by simp [hx]))
      (by
        intro r p hp
        rw [hobj, hrun.2.2.2.1] at hp
        exact hqt r p hp)
      { b with items := b.items ++ es } (by rw [herr, hrun.2.1, hes]) hcol
    refine ⟨es ++ es', by rw [h4]; simp [List.append_assoc], ?_⟩
    intro hnil x hx
    rw [List.append_eq_nil_iff] at hnil
    rcases List.mem_cons.1 hx with rfl | hx
    · cases hv : x.value.isIgnore with
      | false => rfl
      | true => exact absurd hnil.1 (h3 hcol _ hrun.1.symm hv)
    · exact h5 hnil.2 x hx

theorem dictSet_has (d : List (Val × Val)) (k v : Val) (n : String)
    (h : (dictGet? d (.str n)).isSome) : (dictGet? (dictSet d k v) (.str n)).isSome := by
  induction d with
  | nil => cases h
  | cons x d ih =>
    unfold dictSet
    split
    · unfold dictGet? at h ⊢
      rw [List.find?_cons] at h ⊢
      cases hx : Val.pyEq (.str n) x.1 with
      | true => rfl
      | false => rw [hx] at h; exact h
    · unfold dictGet? at h ih ⊢
      rw [List.find?_cons] at h ⊢
      cases hx : Val.pyEq (.str n) x.1 with
      | true => rfl
      | false => rw [hx] at h; exact ih h

theorem dictUpdate_has (kvs : List (Val × Val)) (n : String) : ∀ d : List (Val × Val),
    (dictGet? d (.str n)).isSome → (dictGet? (dictUpdate d kvs) (.str n)).isSome := by
  unfold dictUpdate
  induction kvs with
  | nil => intro d h; exact h
  | cons x kvs ih => intro d h; exact ih _ (dictSet_has d _ _ n h)

/-- The `unmapped` directive removes no entry. -/
theorem applyUnmapped_has (W : LawfulPath I) (hC : C.All (ValueHooks True)) (k : Nat) {id : Nat} {u : Unmapped}
    (hu : u.All (ValueHooks True)) {s s' : St P} (hi : Inv W s) (hl : Live s) (hid : id < s.forms.length)
    (h : applyUnmapped (mapField I L C k) id u s = (.ok (), s')) {n : String}
    (hn : (s.entry id n).isSome) : (s'.entry id n).isSome := by
  have go : ∀ kf vf : Field, kf.All (ValueHooks True) → vf.All (ValueHooks True) →
      (mapField I L C k (unmappedField id kf vf) .NONE >>= fun v => match v with
        | .none => M.pure ()
        | .dict kvs => formModify id (dictUpdate · kvs)
        | _ => M.raise (.typeError "'_Constant' object is not iterable")) s = (.ok (), s') →
      (s'.entry id n).isSome := by
    intro kf vf hk hv hgo
    obtain ⟨v, s1, h1, h2⟩ := bindOk hgo
    have hkept := forms_kept (L := L) W hC k (unmappedField_calm (id := id) hk hv) .NONE hi hl hid
    rw [h1] at hkept
    have hs1 : (s1.entry id n).isSome := by rw [entry_of_core hkept]; exact hn
    split at h2
    · cases h2; exact hs1
    · rename_i kvs
      injection h2 with _ h2
      rw [← h2]
      have hid1 : id < s1.forms.length := by
        have h3 := (Keeps.mapField (W := W) (L := L) (C := C) k (unmappedField id kf vf) .NONE).run s hi
        rw [h1] at h3
        obtain ⟨o, ho, -⟩ := h3.forms id _ (List.getElem?_eq_getElem hid)
        exact (List.getElem?_eq_some_iff.1 ho).1
      show (Option.isSome (Option.bind ((s1.forms.modify id fun o =>
        { o with items := dictUpdate o.items kvs })[id]?) fun o => dictGet? o.items (.str n))) = true
      rw [entry_modify _ _ (fun d => dictUpdate d kvs) hid1]
      refine dictUpdate_has kvs n _ ?_
      unfold St.entry at hs1
      rw [List.getElem?_eq_getElem hid1] at hs1
      exact hs1
    · cases h2
  unfold applyUnmapped at h
  cases hu with
  | value hv => exact go _ _ captureKey_free.calm hv h
  | pair hk hv => exact go _ _ hk hv h
  | str =>
    rename_i u
    cases u with
    | capture => exact go _ _ captureKey_free.calm captureValue_free.calm h
    | none => cases h; exact hn
    | ignore => cases h; exact hn
    | bad => cases h

/-- C06 for forms. If `form.map` in collect mode, on clean data and without `ignore_missing`, returns an empty
list, then every selected field is in the form. -/
theorem C06_form (W : LawfulPath I) (S : Sane I) (hN : Named C) (hL : SoberLib L) (hC : C.All Tame) (k : Nat)
    {id : Nat} {src : SrcArg P} (hsrc : SrcOK W src) {tags : List String} {reset : Bool} {u : Unmapped}
    (hu : u.All (ValueHooks True)) {s s' : St P} {e : Nat} (hi : Inv W s) (hl : Live s)
    (him : s.env.ignoreMissing = some false) (hq : ∀ r p, curPathObj s = some (some (r, p)) → S.Q p)
    (hq' : ∀ cls p, StartsAt I C cls src p → S.Q p)
    (h : Form.map I L C k id src tags reset u false s = (.ok e, s')) (hnil : s'.errors e = []) :
    ∃ cls, (s.forms[id]?).map FormObj.cls = some cls ∧
      ∀ f ∈ (C cls).fields, selected (s.tagsFor tags) f = true → ∀ n, f.name = some n →
        (s'.entry id n).isSome := by
  have hC' := Tame.classes hC
  have hr : RecKeeps W (mapField I L C k) := Keeps.mapField k
  obtain ⟨cls, fr, as, s1, s2, s3, hi1, c⟩ := formMap_course hr hsrc hi hl h
  refine ⟨cls, c.ofClass, fun f hf hsel n hn => ?_⟩
  obtain ⟨hl1, hid, herr, henv, him1, -⟩ := c.good hl
  have hmem : ∀ a ∈ as, a.field ∈ (C cls).fields := by
    intro a ha
    have : a.field ∈ as.map Attempt.field := List.mem_map_of_mem ha
    rw [c.fields] at this
    exact (List.mem_filter.1 this).1
  have hq1 : ∀ r p, curPathObj s1 = some (some (r, p)) → S.Q p := by
    intro r p hp
    obtain ⟨r0, p0, h1, -, h3⟩ := c.start
    rw [h1] at hp
    cases hp
    refine S.mapping ?_
    rcases h3 with ⟨-, -, -, h4, -⟩ | ⟨-, -, -, -, h4⟩
    · exact hq _ _ h4
    · exact hq' _ _ h4
  obtain ⟨es, hes, hall⟩ := c.rounds.says W S hN hL hC k hi1 hl1 henv (by rw [him1]; exact him)
    (fun a ha => hC cls _ (hmem a ha)) hq1 _ herr rfl
  obtain ⟨hir, hext⟩ := c.unmapped_ext hr hi1
  have hes0 : es = [] := by
    have h1 := hext.errors e
    have h2 : s3.errors e = [] := by
      have : s'.errors e = s3.errors e := by unfold St.errors; rw [c.errs']
      rw [← this]; exact hnil
    have h4 : s2.errors e = es := by
      have hst : lookup Frame.errors s2.stack = some e := by
        rw [(c.rounds.ext hr hi1).stack, c.stack1, c.errors]; simp [lookup, formFrame]
      unfold curErrs at hes
      rw [hst] at hes
      have hes : s2.errs[e]? = _ := hes
      unfold St.errors
      rw [hes]; rfl
    have h5 : s2.errors e <+: s3.errors e := h1
    rw [h2, h4] at h5
    simpa using h5
  have hent := c.rounds.entry W hC'.calm k hi1 hl1 hid fun a ha => ⟨(hC' cls _ (hmem a ha)).calm, hN cls _ (hmem a ha)⟩
  have hs2 : (s2.entry id n).isSome := by
    rw [hent.2 n]
    have hfm : f ∈ as.map Attempt.field := by rw [c.fields]; exact List.mem_filter.2 ⟨hf, hsel⟩
    obtain ⟨a, ha, rfl⟩ := List.mem_map.1 hfm
    have : (produced as n).isSome := by
      unfold produced
      rw [Option.isSome_map, List.find?_isSome]
      exact ⟨a, by simpa using ha, by simp [hn, hall hes0 a ha]⟩
    cases hp : produced as n with
    | none => rw [hp] at this; cases this
    | some v => rfl
  have hl2 : Live { s2 with stack := fr :: s.stack } := by
    have h2 := hl1.ext (c.rounds.ext hr hi1)
    have hst : s2.stack = formFrame id :: fr :: s.stack := by
      rw [(c.rounds.ext hr hi1).stack, c.stack1]
    refine ⟨by simp [hl.root], ?_, ?_, ?_⟩
    · intro r hr'
      refine h2.path r ?_
      rw [hst, curPath_cons]
      exact hr'
    · intro e' he'
      refine h2.errs e' ?_
      rw [hst]
      simpa [lookup, formFrame] using he'
    · intro fr' hfr' i hfi
      exact h2.ids fr' (by rw [hst]; exact List.mem_cons_of_mem _ hfr') i hfi
  have := applyUnmapped_has W hC'.calm k hu hir hl2 hent.1 c.unmapped hs2
  unfold St.entry at this ⊢
  rw [c.forms']
  exact this

/-! ## C10 -/

/-- `Form(src)` and `Form().map(src)` read the same source. -/
theorem Form.map_initSrc (n id : Nat) (src : SrcArg P)
    (h : ∀ v, src = .data v → (∃ d, v = .dict d) ∨ (∃ l, v = .list l) ∨ ∃ t, v = .tuple t) :
    Form.map I L C n id (initSrc I src) = Form.map I L C n id src := by
  cases src with
  | none => rfl
  | source mk => rfl
  | data v => rcases h v rfl with ⟨d, rfl⟩ | ⟨l, rfl⟩ | ⟨t, rfl⟩ <;> rfl

/-- C10. `Form(src)` with a dict, sequence or source: it makes the form, maps it as `Form().map(src)` does,
and then raises a `FormError` with exactly the errors that call returns, in order, if there are any; else the
result is that form, as that mapping left it. -/
theorem C10_constructor (n cls : Nat) (src : SrcArg P) (hsrc : src ≠ .none)
    (hd : ∀ v, src = .data v → (∃ d, v = .dict d) ∨ (∃ l, v = .list l) ∨ ∃ t, v = .tuple t) (s : St P) :
    let id := s.forms.length
    let s0 : St P := { s with forms := s.forms ++ [{ cls := cls, items := [] }] }
    (∀ e s', Form.map I L C n id src [] false (.str .ignore) false s0 = (.ok e, s') →
      Form.init I L C n cls src s =
        (if s'.errors e = [] then .ok id else .error (.formError (s'.errors e)), s')) ∧
    (∀ x s', Form.map I L C n id src [] false (.str .ignore) false s0 = (.error x, s') →
      Form.init I L C n cls src s = (.error x, s')) := by
  intro id s0
  have h0 : newForm cls s = (.ok id, s0) := rfl
  have key : ∀ m : M P Nat, m = Form.map I L C n id src →
      Form.init I L C n cls src s = (m >>= fun e => errItems e >>= fun es =>
        if es.isEmpty then M.pure id else M.raise (.formError es)) s0 := by
    rintro m rfl
    rw [← Form.map_initSrc n id src hd]
    unfold Form.init
    rw [M.bind_ok h0]
    cases src with
    | none => exact absurd rfl hsrc
    | data v => rfl
    | source mk => rfl
  constructor
  · intro e s' h
    rw [key _ rfl, M.bind_ok h]
    have h1 : errItems e s' = (.ok (s'.errors e), s') := rfl
    rw [M.bind_ok h1]
    cases hes : s'.errors e with
    | nil => rfl
    | cons x xs => rfl
  · intro x s' h
    rw [key _ rfl, M.bind_error h]

end Pilo
