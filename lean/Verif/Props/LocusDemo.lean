import Verif.Props.Locus
import Verif.Props.ModesDemo

/-!
# Examples for C49, and where it fails
-/

namespace Pilo
open Demo


/-- `{'f': {'a': 'x'}, 'xs': [1, 'y']}`. -/
def docTwo : List (Val × Val) :=
  [(.str "f", .dict [(.str "a", .str "x")]), (.str "xs", .list [.int 1, .str "y"])]

def runTwo : Except Exc Nat × St Path :=
  Form.map (Path.ops lib) lib table 10 0 (.data (.dict docTwo)) [] false (.str .ignore) false (holding 1 [])

/-- What the mapping reports: the field names and paths. -/
theorem runTwo_errors : (runTwo.1.map fun e => (runTwo.2.errors e).map fun x => (x.field, x.path))
    = .ok [(some "a", "f.a"), (none, "xs[1]")] := by decide +kernel

/-- Both errors are about something the declaration has there. -/
example : InForm table 1 (.str .ignore) [.str "f", .str "a"] (some "a") ∧
    InForm table 1 (.str .ignore) [.str "xs", .int 1] none := by
  constructor
  · exact .field (f := field "f" (.subform 0 false (.str .ignore))) (by simp [table, classG])
      (.part (rel := [.str "a"]) (.form (.field (f := field "a" (.integer {})) (by simp [table, classF]) .self)))
  · exact .field (f := field "xs" (.list (.mk {} (.integer {})) none none false)) (by simp [table, classG])
      (.part (rel := [.int 1]) (.item 1 .self))

theorem runTwo_ok : ∃ st, Form.map (Path.ops lib) lib table 10 0 (.data (.dict docTwo)) [] false (.str .ignore)
    false (holding 1 []) = (.ok 0, st) ∧ (st.errors 0).length = 2 := by
  have h : runTwo.1 = .ok 0 := by decide +kernel
  have h' : (runTwo.2.errors 0).length = 2 := by decide +kernel
  unfold runTwo at h h'
  generalize Form.map (Path.ops lib) lib table 10 0 (.data (.dict docTwo)) [] false (.str .ignore) false
    (holding 1 []) = r at h h'
  exact ⟨r.2, by rw [← h], h'⟩

/-- C49 for that mapping. -/
example : ∃ st, Form.map (Path.ops lib) lib table 10 0 (.data (.dict docTwo)) [] false (.str .ignore)
    false (holding 1 []) = (.ok 0, st) ∧ (st.errors 0).length = 2 ∧ ∀ err ∈ st.errors 0, ∃ rel,
    InForm table 1 (.str .ignore) rel err.field ∧ PathSt.keysText lib rel = .ok err.path := by
  obtain ⟨st, h, hn⟩ := runTwo_ok
  refine ⟨st, h, hn, ?_⟩
  obtain ⟨cls, h1, h2⟩ := C49_dict (table_mono.imp fun _ => Mono.typed) 10 .str (holding_inv 1 []) (holding_live 1 []) h
  cases Option.some.inj (show some 1 = some cls from h1)
  exact h2

theorem typedTable_typed : typedTable.All Typed := by
  have ht : typeField.All Typed :=
    .mk ⟨(hookFree_plain (by intro _ _ _ _ _ h; cases h)).calm, by intro _ _ _ _ _ h; cases h⟩ .string
  intro cls f hf
  match cls with
  | 0 =>
    simp only [typedTable, List.mem_cons, List.not_mem_nil, or_false] at hf
    rcases hf with rfl | rfl
    · exact ht
    · exact .mk ⟨(hookFree_plain (by intro _ _ _ _ _ h; cases h)).calm, by intro _ _ _ _ _ h; cases h⟩ .integer
  | 1 =>
    simp only [typedTable, List.mem_cons, List.not_mem_nil, or_false] at hf
    subst hf
    exact .mk ⟨(hookFree_plain (by intro _ _ _ _ _ h; cases h)).calm, by intro _ _ _ _ _ h; cases h; exact ⟨rfl, (hookFree_plain (by intro _ _ _ _ _ h; cases h)).wordless⟩⟩
      (.poly ht .str)
  | 2 =>
    simp only [typedTable, List.mem_cons, List.not_mem_nil, or_false] at hf
    subst hf
    exact ht
  | n + 3 => simp [typedTable] at hf

def runTyped : Except Exc Nat × St Path :=
  Form.map (Path.ops lib) lib typedTable 12 0 (.data (.dict docTyped)) [] false (.str .ignore) false (holding 1 [])

/-- The error inside the polymorphic form has the path of the field. -/
theorem runTyped_errors : (runTyped.1.map fun e => (runTyped.2.errors e).map fun x => (x.field, x.path))
    = .ok [(some "n", "p.n")] := by decide +kernel

example : ∃ e st, runTyped = (.ok e, st) ∧ ∃ cls, ∀ err ∈ st.errors e, ∃ rel,
    InForm typedTable cls (.str .ignore) rel err.field ∧ PathSt.keysText lib rel = .ok err.path := by
  have h := runTyped_errors
  have hd : runTyped = Form.map (Path.ops lib) lib typedTable 12 0 (.data (.dict docTyped)) [] false (.str .ignore)
    false (holding 1 []) := rfl
  rcases hr : runTyped with ⟨r, st⟩
  rw [hr] at h
  cases r with
  | error e => cases h
  | ok e =>
    obtain ⟨cls, -, h2⟩ := C49_dict typedTable_typed 12 .str (holding_inv 1 []) (holding_live 1 []) (hd.symm.trans hr)
    exact ⟨e, st, rfl, cls, h2⟩

end Pilo
