import Verif.Props.Getattr

/-!
# C70: attributes of a form are a store

`pilo/fields.py:622-663`: `Field.__get__`, `__set__` and `__delete__`.
-/

namespace Pilo
variable {P : Type} {I : PathOps P} {L : Lib} {C : Classes}

open Getattr

/-- `form.name = value` or `del form.name`. -/
inductive Edit
  | set (id : Nat) (name : String) (v : Val)
  | del (id : Nat) (name : String)

namespace Edit

/-- The form an edit is of. -/
def id : Edit → Nat
  | .set i _ _ => i
  | .del i _ => i

/-- The attribute an edit is of. -/
def name : Edit → String
  | .set _ n _ => n
  | .del _ n => n

/-- What an edit leaves behind. -/
def value : Edit → Option Val
  | .set _ _ v => some v
  | .del _ _ => none

/-- The statement an edit is. -/
def run (C : Classes) : Edit → M P Unit
  | .set i n v => formSetattr C i n v
  | .del i n => formDelattr C i n

/-- One statement after another. -/
def runAll (C : Classes) : List Edit → M P Unit
  | [] => M.pure ()
  | e :: es => do
    e.run C
    runAll C es

/-- What is under `name` in form `id` after a sequence of edits that started with `v` there: what the last edit of just
that attribute left, if there was one. -/
def final (id : Nat) (name : String) (v : Option Val) (es : List Edit) : Option Val :=
  match (es.filter fun e => e.id = id ∧ e.name = name).getLast? with
  | some e => e.value
  | none => v

theorem final_cons (i : Nat) (n : String) (v : Option Val) (e : Edit) (es : List Edit) :
    final i n v (e :: es) = final i n (if e.id = i ∧ e.name = n then e.value else v) es := by
  unfold final
  rw [List.filter_cons]
  by_cases h : e.id = i ∧ e.name = n
  · rw [if_pos (by simpa using h), if_pos h, List.getLast?_cons]
    cases (es.filter fun e => e.id = i ∧ e.name = n).getLast? <;> rfl
  · rw [if_neg (by simpa using h), if_neg h]

end Edit

/-- Nothing but entries of forms differs: the context, the sources and the errors are the same, and so are the forms, with
their classes and parents. -/
structure EntriesOnly (s s' : St P) : Prop where
  stack : s'.stack = s.stack
  paths : s'.paths = s.paths
  errs : s'.errs = s.errs
  forms : s'.forms.map (fun o => (o.cls, o.parent)) = s.forms.map fun o => (o.cls, o.parent)

theorem EntriesOnly.declares {s s' : St P} (h : EntriesOnly s s') {id : Nat} {name : String} {f : Field}
    (hd : Declares C s id name f) : Declares C s' id name f := by
  obtain ⟨o, h1, h2⟩ := hd
  have h3 := congrArg (fun l => l[id]?) h.forms
  simp only [List.getElem?_map, h1, Option.map_some] at h3
  cases ho : s'.forms[id]? with
  | none => rw [ho] at h3; cases h3
  | some o' =>
    rw [ho] at h3
    simp only [Option.map_some, Option.some.injEq, Prod.mk.injEq] at h3
    exact ⟨o', ho, by rw [h3.1]; exact h2⟩

theorem EntriesOnly.modify (s : St P) (id : Nat) (g : List (Val × Val) → List (Val × Val)) :
    EntriesOnly s { s with forms := s.forms.modify id fun o => { o with items := g o.items } } := by
  refine ⟨rfl, rfl, rfl, ?_⟩
  dsimp only
  apply List.ext_getElem?
  intro i
  simp only [List.getElem?_map, List.getElem?_modify]
  cases s.forms[i]? with
  | none => rfl
  | some o => by_cases h : id = i <;> simp [h]

theorem entry_other (s : St P) (id id' : Nat) (n : String) (g : List (Val × Val) → List (Val × Val)) (h : id ≠ id') :
    St.entry { s with forms := s.forms.modify id fun o => { o with items := g o.items } } id' n = s.entry id' n := by
  unfold St.entry
  dsimp only
  rw [List.getElem?_modify]
  simp [h]

theorem dictHas_get (d : List (Val × Val)) (k : Val) (h : dictHas d k = false) : dictGet? d k = none := by
  unfold dictHas at h
  unfold dictGet?
  have : d.find? (fun p => k.pyEq p.1) = none := by
    rw [List.find?_eq_none]
    rw [List.any_eq_false] at h
    exact h
  rw [this]

theorem setattr_run {s : St P} {id : Nat} {name : String} {f : Field} (v : Val) (hd : Declares C s id name f) :
    ∃ s', formSetattr C id name v s = (.ok (), s') ∧ EntriesOnly s s' ∧
      ∀ i n, s'.entry i n = if id = i ∧ name = n then some v else s.entry i n := by
  have hk := hd.name.2
  obtain ⟨o, h1, h2⟩ := hd
  have hlt : id < s.forms.length := (List.getElem?_eq_some_iff.1 h1).1
  have ho : s.forms[id] = o := (List.getElem?_eq_some_iff.1 h1).2
  have h3 : formCls id s = (.ok o.cls, s) := by unfold formCls; rw [h1]
  refine ⟨_, ?_, .modify s id (dictSet · f.key v), fun i m => ?_⟩
  · unfold formSetattr
    rw [M.bind_ok h3, h2]
    rfl
  · by_cases hi : id = i
    · subst hi
      unfold St.entry
      dsimp only
      rw [entry_modify _ _ (dictSet · f.key v) hlt, hk, dictGet?_dictSet, ho, h1]
      simp
    · rw [entry_other s id i m (dictSet · f.key v) hi, if_neg (fun h => hi h.1)]

theorem delattr_run {s : St P} {id : Nat} {name : String} {f : Field} (hd : Declares C s id name f) :
    ∃ s', formDelattr C id name s = (.ok (), s') ∧ EntriesOnly s s' ∧
      ∀ i n, s'.entry i n = if id = i ∧ name = n then none else s.entry i n := by
  have hk := hd.name.2
  obtain ⟨o, h1, h2⟩ := hd
  have hlt : id < s.forms.length := (List.getElem?_eq_some_iff.1 h1).1
  have ho : s.forms[id] = o := (List.getElem?_eq_some_iff.1 h1).2
  have h3 : formCls id s = (.ok o.cls, s) := by unfold formCls; rw [h1]
  have h4 : formItems id s = (.ok o.items, s) := by unfold formItems; rw [h1]; rfl
  have hrun : formDelattr C id name s = (if dictHas o.items f.key then formDel id f.key else M.pure ()) s := by
    unfold formDelattr
    rw [M.bind_ok h3, h2]
    dsimp only
    rw [M.bind_ok h4]
  rw [hrun]
  cases hh : dictHas o.items f.key with
  | true =>
    refine ⟨_, rfl, .modify s id (dictDel · f.key), fun i m => ?_⟩
    by_cases hi : id = i
    · subst hi
      unfold St.entry
      dsimp only
      rw [entry_modify _ _ (dictDel · f.key) hlt, hk, dictGet?_dictDel, ho, h1]
      simp
    · rw [entry_other s id i m (dictDel · f.key) hi, if_neg (fun h => hi h.1)]
  | false =>
    refine ⟨s, rfl, ⟨rfl, rfl, rfl, rfl⟩, fun i m => ?_⟩
    by_cases hi : id = i ∧ name = m
    · rw [if_pos hi, ← hi.1, ← hi.2]
      rw [hk] at hh
      unfold St.entry
      rw [h1]
      exact dictHas_get _ _ hh
    · rw [if_neg hi]

/-- One edit of a declared attribute. -/
theorem Edit.run_spec {s : St P} {e : Edit} {f : Field} (hd : Declares C s e.id e.name f) :
    ∃ s', e.run C s = (.ok (), s') ∧ EntriesOnly s s' ∧
      ∀ i n, s'.entry i n = if e.id = i ∧ e.name = n then e.value else s.entry i n := by
  cases e with
  | set id name v => exact setattr_run v hd
  | del id name => exact delattr_run hd

/-- C70.  Any state (outside or inside of mappings), any classes with any hooks.  A sequence of assignments to and deletions
of declared attributes, of any forms in any order: none of them raises; nothing but entries of forms changes; under every
name of every form there is what the last edit of just that attribute left, or what was there before if there was none.
Reading a declared attribute afterwards gives the value last assigned, and changes nothing; and if it was deleted after
that, and the form is not being mapped, it is mapped as in `C45_read`. -/
theorem C70_store (es : List Edit) (s : St P) (hd : ∀ e ∈ es, ∃ f, Declares C s e.id e.name f) :
    ∃ s', Edit.runAll C es s = (.ok (), s') ∧ EntriesOnly s s' ∧
      (∀ i n, s'.entry i n = Edit.final i n (s.entry i n) es) ∧
      ∀ i n f, Declares C s i n f → ∀ k,
        (∀ v, Edit.final i n (s.entry i n) es = some v → Form.getattr I L C k i n s' = (.ok v, s')) ∧
        (Edit.final i n (s.entry i n) es = none → Idle s i →
          Form.getattr I L C k i n s' = (Empty I i (mapField I L C k f .NONE) >>= getFinish f i) s') := by
  have main : ∃ s', Edit.runAll C es s = (.ok (), s') ∧ EntriesOnly s s' ∧
      (∀ i n, s'.entry i n = Edit.final i n (s.entry i n) es) := by
    induction es generalizing s with
    | nil => exact ⟨s, rfl, ⟨rfl, rfl, rfl, rfl⟩, fun _ _ => rfl⟩
    | cons e es ih =>
      obtain ⟨f, hf⟩ := hd e (by simp)
      obtain ⟨s1, h1, h2, h3⟩ := Edit.run_spec hf
      obtain ⟨s2, h4, h5, h6⟩ := ih s1 fun e' he' => by
        obtain ⟨f', hf'⟩ := hd e' (by simp [he'])
        exact ⟨f', h2.declares hf'⟩
      refine ⟨s2, ?_, ⟨h5.stack.trans h2.stack, h5.paths.trans h2.paths, h5.errs.trans h2.errs,
        h5.forms.trans h2.forms⟩, fun i n => ?_⟩
      · show (e.run C >>= fun _ => Edit.runAll C es) s = _
        rw [M.bind_ok h1, h4]
      · rw [h6, Edit.final_cons, h3]
  obtain ⟨s', h1, h2, h3⟩ := main
  refine ⟨s', h1, h2, h3, fun i n f hf k => ⟨fun v hv => ?_, fun hn hi => ?_⟩⟩
  · exact C45_stored (h2.declares hf) ((h3 i n).trans hv) k
  · rw [(h2.declares hf).run, get_idle hf.name.2 ((h3 i n).trans hn) (by unfold Idle; rw [h2.stack]; exact hi)]

section
open Demo

/-- `form.a = 1; form.c = 2; form.a = "x"; del form.c; del form.d`. -/
def Demo.edits : List Edit := [.set 0 "a" (.int 1), .set 0 "c" (.int 2), .set 0 "a" (.str "x"), .del 0 "c", .del 0 "d"]

/-- Then `form.a` is the string, though the field would not have mapped one, and `form.c` is the default again. -/
example : ∃ s', Edit.runAll tableD edits (holding 0 []) = (.ok (), s') ∧
    Form.getattr (Path.ops lib) lib tableD 5 0 "a" s' = (.ok (.str "x"), s') ∧
    (Form.getattr (Path.ops lib) lib tableD 5 0 "c" s').1 = .ok (.int 7) := by
  obtain ⟨s', h1, -, -, h2⟩ := C70_store (I := Path.ops lib) (L := lib) (C := tableD) edits (holding 0 []) (by
    intro e he
    simp only [edits, List.mem_cons, List.not_mem_nil, or_false] at he
    rcases he with rfl | rfl | rfl | rfl | rfl <;> exact ⟨_, _, rfl, rfl⟩)
  refine ⟨s', h1, (h2 0 "a" _ ⟨_, rfl, rfl⟩ 5).1 (.str "x") (by decide +kernel), ?_⟩
  have hs : s' = (Edit.runAll tableD edits (holding 0 [])).2 := by rw [h1]
  rw [hs]
  decide +kernel

end
end Pilo
