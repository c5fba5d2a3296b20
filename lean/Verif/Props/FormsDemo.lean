import Verif.Props.Forms
import Verif.Props.Silent
import Verif.Props.Unparsable
import Verif.ValEq

/-!
# Examples for C06, C07, C08, C10, C28, C29
-/

namespace Pilo
namespace Demo

theorem lib_sober : SoberLib lib where
  call := by intro id v h; cases h; rfl
  compile := by intro s v h; cases h
  load := by intro n a v h; cases n <;> cases h

theorem lib_clean : CleanLib lib where
  attrs := by intro v s w _ h; cases h
  call := by intro id v h; cases h; exact .int 7

theorem tame {n : String} {k : Kind} (hk : ∀ kf vf h r m, k ≠ .dict kf vf (some h) r m) :
    Tame (field n k) := ⟨hookFree_plain hk, sober_plain⟩

/-- `class T: a = Integer(tags=['x']); b = Integer(tags=['y'])`. -/
def classT : ClassDef where
  fields := [.mk { name := some "a", src := .str "a", tags := ["x"] } (.integer {}),
    .mk { name := some "b", src := .str "b", tags := ["y"] } (.integer {})]

/-- A class table: `F`, `G` and `T`. -/
def table : Classes
  | 0 => classF
  | 1 => classG
  | 2 => classT
  | _ => { fields := [] }

theorem table_tame : table.All Tame := by
  intro cls f hf
  match cls with
  | 0 =>
    simp only [table, classF, List.mem_cons, List.not_mem_nil, or_false] at hf
    rcases hf with rfl | rfl
    · exact .mk (tame (by intro _ _ _ _ _ h; cases h)) .integer
    · refine .mk ⟨⟨.inr ⟨_, rfl⟩, rfl, rfl, rfl, rfl, rfl, rfl, by intro _ _ _ _ _ h; cases h⟩, ?_, ?_⟩ .string
      · intro v h; cases h; exact .inr rfl
      · intro kv h; cases h
  | 1 =>
    simp only [table, classG, List.mem_cons, List.not_mem_nil, or_false] at hf
    rcases hf with rfl | rfl
    · exact .mk (tame (by intro _ _ _ _ _ h; cases h)) (.subform .str)
    · exact .mk (tame (by intro _ _ _ _ _ h; cases h))
        (.list (.mk ⟨hookFree_plain (by intro _ _ _ _ _ h; cases h), sober_plain⟩ .integer))
  | 2 =>
    simp only [table, classT, List.mem_cons, List.not_mem_nil, or_false] at hf
    rcases hf with rfl | rfl <;>
      exact .mk ⟨hookFree_plain (by intro _ _ _ _ _ h; cases h), sober_plain⟩ .integer
  | n + 3 => simp [table] at hf

theorem table_named : Named table := by
  intro cls f hf
  match cls with
  | 0 =>
    simp only [table, classF, List.mem_cons, List.not_mem_nil, or_false] at hf
    rcases hf with rfl | rfl <;> rfl
  | 1 =>
    simp only [table, classG, List.mem_cons, List.not_mem_nil, or_false] at hf
    rcases hf with rfl | rfl <;> rfl
  | 2 =>
    simp only [table, classT, List.mem_cons, List.not_mem_nil, or_false] at hf
    rcases hf with rfl | rfl <;> rfl
  | n + 3 => simp [table] at hf

/-- A thread that holds one form of class `cls` with the given entries. -/
def holding (cls : Nat) (items : List (Val × Val)) : St Path where
  stack := [rootFrame]
  paths := []
  errs := []
  forms := [⟨cls, items, none⟩]

theorem holding_inv (cls : Nat) (items : List (Val × Val)) : Inv (Path.lawful lib) (holding cls items) where
  wf := by intro p hp; cases hp
  seg := by simp [holding, SegOK, rootFrame]
  nodup := by simp [holding, srcRefs, rootFrame]
  root := ⟨rootFrame, rfl, rfl⟩

theorem holding_live (cls : Nat) (items : List (Val × Val)) : Live (holding cls items) where
  root := by simp [holding]
  path := by intro r h; simp [holding, curPath, lookup, FrameSrc.path?, rootFrame] at h
  errs := by intro e h; simp [holding, lookup, rootFrame] at h
  ids := by intro fr hfr id h; simp [holding] at hfr; subst hfr; simp [rootFrame] at h

/-- Errors and entries of the form after a run of `form.map`. -/
def after (m : Except Exc Nat × St Path) (names : List String) :
    Except Exc (List (ErrKind × String)) × List (Option Val) :=
  (m.1.map fun e => (m.2.errors e).map fun x => (x.kind, x.path), names.map (m.2.entry 0))

theorem ran {α : Type} {r : Except Exc α × St P} {a : α} (h : r.1 = .ok a) : r = (.ok a, r.2) := by
  rw [← h]

end Demo

section
open Demo

/-- A list item that does not parse, deep inside a subform. -/
def docBad : Val := .dict [(.str "f", .dict [(.str "a", .str "x")])]

theorem docBad_clean : Clean docBad :=
  .dict (by intro kv h; simp at h; subst h; exact ⟨rfl, rfl, rfl⟩) (by
    intro kv h; simp at h; subst h
    exact .dict (by intro kv h; simp at h; subst h; exact ⟨rfl, rfl, rfl⟩) (by
      intro kv h; simp at h; subst h; exact .str _))

/-- C06: a subform with a failing field gives `ERROR`; so it has reported something. -/
example : ∃ es, es ≠ [] ∧ curErrs (mapField (Path.ops lib) lib table 10 (field "f" (.subform 0 false (.str .ignore)))
      .NONE (here (Path.ops lib) docBad)).2 = some ⟨false, es⟩ :=
  C06_builtin lib_sober lib_clean table_named table_tame 10
    (.mk (tame (by intro _ _ _ _ _ h; cases h)) (.subform .str)) (here_live _) rfl rfl
    (b := ⟨false, []⟩) rfl rfl
    (by intro r p h; cases h; exact Path.native_clean docBad_clean (by intro a h; cases h))
    (v := .ERROR) (ran (by decide +kernel)) rfl

/-- C07: an integer that does not parse is one error, a good one none. -/
example : ∃ es, curErrs (mapFieldF (SPath.ops lib) lib classes (mapField (SPath.ops lib) lib classes 0) (field "a" (.integer {}))
      .NONE (here (SPath.ops lib) (.dict [(.str "a", .str "x")]))).2 = some ⟨false, es⟩ ∧ es.length = 1 :=
  C07_one_error (SPath.sane lib_clean) (SPath.lawful lib) lib_sober (tame (by intro _ _ _ _ _ h; cases h)) rfl
    (here_inv _ _) (here_live _) rfl (b := ⟨false, []⟩) rfl rfl
    (by intro r p h; cases h; exact SPath.native_clean (.inl (.dict (by intro kv h; simp at h; subst h; exact ⟨rfl, rfl, rfl⟩)
      (by intro kv h; simp at h; subst h; exact .str _))) (by intro a h; cases h))
    (v := .ERROR) (ran (by decide +kernel))

/-- C08: errors of both fields, in class order; the first failure does not stop the second. -/
example : after (Form.map (Path.ops lib) lib table 10 0
      (.data (.dict [(.str "xs", .list [.str "u", .int 2, .str "v"]), (.str "f", .dict [(.str "a", .str "x")])]))
      [] false (.str .ignore) false (holding 1 [])) ["f", "xs"] =
    (.ok [(.invalid "\"x\" is not an integer", "f.a"), (.invalid "\"u\" is not an integer", "xs[0]"),
      (.invalid "\"v\" is not an integer", "xs[2]")], [none, some (.list [.int 2])]) := by decide +kernel

example : ∃ as : List (Attempt Path), as.map Attempt.field = classG.fields ∧
    ((Form.map (Path.ops lib) lib table 10 0 (.data doc) [] false (.str .ignore) false (holding 1 [])).2).errors 0 =
      as.flatMap fun a => added 0 a.before a.after := by
  obtain ⟨cls, fr, as, s1, s2, s3, c, h1, -, h3, h4⟩ := C08_all_attempted (W := Path.lawful lib)
    (L := lib) (C := table) 10 (src := .data doc) trivial (tags := []) (reset := false) (u := .str .ignore)
    (raising := false) (holding_inv 1 []) (holding_live 1 []) (id := 0) (e := 0) (ran (by decide +kernel))
  have hcls : cls = 1 := by have := c.ofClass; cases this; rfl
  subst hcls
  exact ⟨as, h1, by rw [h3, h4 (.inl rfl), List.append_nil]⟩

/-- C28: only `a` has the tag; the errors and the old value of `b` play no part. -/
example : after (Form.map (Path.ops lib) lib table 10 0 (.data (.dict [(.str "a", .int 1), (.str "b", .str "z")]))
      ["x"] false (.str .ignore) false (holding 2 [(.str "b", .int 5)])) ["a", "b"] =
    (.ok [], [some (.int 1), some (.int 5)]) := by decide +kernel

example : (Form.map (Path.ops lib) lib table 10 0 (.data (.dict [(.str "a", .int 1), (.str "b", .str "z")]))
      ["x"] true (.str .ignore) false (holding 2 [(.str "b", .int 5)])).2.entry 0 "b" = some (.int 5) := by
  obtain ⟨cls, fr, as, s1, s2, s3, c, -, h⟩ := C28_tags (L := lib) (C := table) (Path.lawful lib) table_named
    (Tame.classes table_tame).calm 10 (src := .data (.dict [(.str "a", .int 1), (.str "b", .str "z")])) trivial
    (tags := ["x"]) (by intro h; cases h) (reset := true) (u := .str .ignore) (.inl rfl) (raising := false)
    (holding_inv 2 [(.str "b", .int 5)]) (holding_live 2 _) (id := 0) (e := 0) (ran (by decide +kernel))
  have hcls : cls = 2 := by have := c.ofClass; cases this; rfl
  subst hcls
  refine h "b" ?_
  intro f hf hn t ht
  simp only [table, classT, List.mem_cons, List.not_mem_nil, or_false] at hf
  rcases hf with rfl | rfl
  · exact absurd hn (by decide)
  · cases ht with
    | head => decide
    | tail _ h => cases h

/-- C29: with `reset` the old value of a field that fails is gone, without it stays. -/
example : after (Form.map (Path.ops lib) lib table 10 0 (.data (.dict [(.str "a", .int 1), (.str "b", .str "z")]))
      [] true (.str .ignore) false (holding 2 [(.str "b", .int 5)])) ["a", "b"] =
    (.ok [(.invalid "\"z\" is not an integer", "b")], [some (.int 1), none]) := by decide +kernel
example : after (Form.map (Path.ops lib) lib table 10 0 (.data (.dict [(.str "a", .int 1), (.str "b", .str "z")]))
      [] false (.str .ignore) false (holding 2 [(.str "b", .int 5)])) ["a", "b"] =
    (.ok [(.invalid "\"z\" is not an integer", "b")], [some (.int 1), some (.int 5)]) := by decide +kernel

/-- C10: `F({'a': 'x'})` raises with the error that `map` returns; `F({'a': 1})` gives the form. -/
example : (Form.init (Path.ops lib) lib table 10 0 (.data (.dict [(.str "a", .str "x")])) St.init).1 =
    .error (.formError [⟨.invalid "\"x\" is not an integer", "a", some "a", some 0⟩]) := by decide +kernel
example : (Form.init (Path.ops lib) lib table 10 0 (.data (.dict [(.str "a", .int 1)])) St.init).1 =
    .ok 0 := by decide +kernel

end
end Pilo
