import Verif.Props.Positional
import Verif.Props.ModesDemo

/-!
# C22: examples, and where the code does not do it
-/

namespace Pilo
open Demo Positional

/-- Class `G` has two fields, `f` and `xs`. -/
theorem Demo.g_declared (xs : List Val) (seq : Val) : Declared lib (table 1).fields xs seq where
  some := by intro h; cases h
  nodup := by decide
  keyed := by
    intro f hf
    simp only [table, classG, List.mem_cons, List.not_mem_nil, or_false] at hf
    rcases hf with rfl | rfl
    · exact ⟨"f", rfl, rfl, ⟨by decide, by decide⟩, by intro gs h; cases h⟩
    · exact ⟨"xs", rfl, rfl, ⟨by decide, by decide⟩, by intro gs h; cases h⟩
  attrs := fun _ _ _ _ _ _ => ⟨rfl, rfl⟩

/-- A tuple of two items, the first of which has an error inside. -/
def Demo.twoItems : List Val := [.dict [(.str "a", .str "x")], .list [.int 4, .str "5"]]

example := C22_positional_partial (L := lib) (C := table) (table_mono.imp fun _ h => h.1) 10 0 [] false false (cls := 1)
  (xs := twoItems) .tuple (g_declared _ _) (holding_live 1 []) rfl

/-- What happens. -/
example : after (Form.map (Path.ops lib) lib table 10 0 (.data (.tuple twoItems)) [] false (.str .ignore) false (holding 1 []))
    ["xs"] = (.ok [(.invalid "\"x\" is not an integer", "f.a")], [some (.list [.int 4, .int 5])]) := by decide +kernel

/-- With one item only, the second field is missing. -/
example : after (Form.map (Path.ops lib) lib table 10 0 (.data (.list [.dict [(.str "a", .int 1)]])) [] false
    (.str .ignore) false (holding 1 [])) ["xs"] = (.ok [(.missing, "xs")], [none]) := by decide +kernel

/-- Item 1 below a list of two. -/
example : ∃ p, (Path.ops lib).append ((Path.ops lib).native (.list twoItems) (some (seqAliases (table 1).fields))) (.str "xs") = .ok p ∧
    ((Path.ops lib).value p).1 = .ok (.list [.int 4, .str "5"]) := by
  obtain ⟨p, h1, h2, -⟩ := C22_reads_partial (L := lib) (xs := twoItems) .list (g_declared _ _) (i := 1) rfl
  exact ⟨p, h1, h2⟩

/-! ### Counterexamples -/

namespace Demo

/-- `class R: a = String(src='b')`; `class M: count = Field(), index = Field()`; a class without fields. -/
def oddTable : Classes
  | 0 => { fields := [.mk { name := some "a", src := .str "b" } (.string {})] }
  | 1 => { fields := [field "count" .base, field "index" .base] }
  | _ => { fields := [] }

/-- A library in which lists have their methods. -/
def listLib : Lib := { lib with
  attrs := fun v k => match v with
    | .list _ => if k = "index" then some (.func 0) else none
    | _ => none }

end Demo

/-- A field that is read from another key than its name does not get its item. -/
theorem C22_counterexample_src :
    after (Form.map (Path.ops lib) lib oddTable 10 0 (.data (.list [.str "x"])) [] false (.str .ignore) false (holding 0 []))
      ["a"] = (.ok [(.missing, "b")], [none]) := by decide +kernel

/-- Where an item is missing and the field is named like a method of lists, the field gets the method. -/
theorem C22_counterexample_method :
    after (Form.map (Path.ops listLib) listLib oddTable 10 0 (.data (.list [.int 1])) [] false (.str .ignore) false
      (holding 1 [])) ["count", "index"] = (.ok [], [some (.int 1), some (.func 0)]) := by decide +kernel

/-- A class without fields cannot be mapped from a list, though it can from a dictionary. -/
theorem C22_counterexample_empty :
    (Form.map (Path.ops lib) lib oddTable 10 0 (.data (.list [])) [] false (.str .ignore) false (holding 2 [])).1 =
      .error (.sourceError "is not a mapping") ∧
    (Form.map (Path.ops lib) lib oddTable 10 0 (.data (.dict [])) [] false (.str .ignore) false (holding 2 [])).1 = .ok 0 :=
  ⟨by decide +kernel, by decide +kernel⟩

end Pilo
