import Verif.Props.Modes
import Verif.Props.FormsDemo

/-!
# Examples for C09
-/

namespace Pilo
open Demo

theorem Demo.table_mono : table.All Mono := by
  intro cls f hf
  match cls with
  | 0 =>
    simp only [table, classF, List.mem_cons, List.not_mem_nil, or_false] at hf
    rcases hf with rfl | rfl
    · exact .mk ⟨(hookFree_plain (by intro _ _ _ _ _ h; cases h)).calm, trivial⟩ .integer
    · exact .mk ⟨HookFree.calm ⟨.inr ⟨_, rfl⟩, rfl, rfl, rfl, rfl, rfl, rfl, by intro _ _ _ _ _ h; cases h⟩, trivial⟩ .string
  | 1 =>
    simp only [table, classG, List.mem_cons, List.not_mem_nil, or_false] at hf
    rcases hf with rfl | rfl
    · exact .mk ⟨(hookFree_plain (by intro _ _ _ _ _ h; cases h)).calm, trivial⟩ (.subform .str)
    · exact .mk ⟨(hookFree_plain (by intro _ _ _ _ _ h; cases h)).calm, trivial⟩
        (.list (.mk ⟨(hookFree_plain (by intro _ _ _ _ _ h; cases h)).calm, trivial⟩ .integer))
  | 2 =>
    simp only [table, classT, List.mem_cons, List.not_mem_nil, or_false] at hf
    rcases hf with rfl | rfl <;>
      exact .mk ⟨(hookFree_plain (by intro _ _ _ _ _ h; cases h)).calm, trivial⟩ .integer
  | n + 3 => simp [table] at hf

theorem Demo.table_typed : table.All StringTyped := table_mono.imp fun _ => Mono.stringTyped

/-- Two failing fields: `collect` gives both errors; so `raise` raises a `FormError`. -/
example : ∃ es, (Form.map (Path.ops lib) lib table 10 0 (.data (.dict [(.str "a", .str "u"), (.str "b", .str "v")]))
    [] false (.str .ignore) true (holding 2 [])).1 = .error (.formError es) :=
  ((C09_modes_agree (L := lib) (Path.renders lib) table_typed 10 0
      (src := .data (.dict [(.str "a", .str "u"), (.str "b", .str "v")])) trivial [] false (u := .str .ignore) .str
      (holding_inv 2 []) (holding_live 2 [])).1 0 (by decide +kernel)).2 (by decide +kernel)

/-- What the two modes give: two errors; the first one raised. -/
example : (after (Form.map (Path.ops lib) lib table 10 0 (.data (.dict [(.str "a", .str "u"), (.str "b", .str "v")]))
    [] false (.str .ignore) false (holding 2 [])) ["a"]).1 =
    .ok [(.invalid "\"u\" is not an integer", "a"), (.invalid "\"v\" is not an integer", "b")] := by decide +kernel
example : (Form.map (Path.ops lib) lib table 10 0 (.data (.dict [(.str "a", .str "u"), (.str "b", .str "v")]))
    [] false (.str .ignore) true (holding 2 [])).1 =
    .error (.formError [⟨.invalid "\"u\" is not an integer", "a", some "a", some 0⟩]) := by decide +kernel

/-- A document without errors: both modes leave the same forms, subform included. -/
example : (Form.map (Path.ops lib) lib table 10 0 (.data (.dict [(.str "f", .dict [(.str "a", .int 1)]),
      (.str "xs", .list [.int 2])])) [] false (.str .ignore) true (holding 1 [])).2.forms =
    (Form.map (Path.ops lib) lib table 10 0 (.data (.dict [(.str "f", .dict [(.str "a", .int 1)]),
      (.str "xs", .list [.int 2])])) [] false (.str .ignore) false (holding 1 [])).2.forms :=
  ((C09_modes_agree (L := lib) (Path.renders lib) table_typed 10 0 (src := .data (.dict [(.str "f", .dict [(.str "a", .int 1)]),
      (.str "xs", .list [.int 2])])) trivial [] false (u := .str .ignore) .str
      (holding_inv 1 []) (holding_live 1 [])).2.2.2 0 (by decide +kernel) (by decide +kernel)).2

/-- Items of a list fail: collecting reports both.  Raising, the list catches the `FormError` of the first and
reports its text, which is raised. -/
example : (after (Form.map (Path.ops lib) lib table 10 0 (.data (.dict [(.str "f", .dict [(.str "a", .int 1)]),
      (.str "xs", .list [.str "u", .str "v"])])) [] false (.str .ignore) false (holding 1 [])) []).1 =
    .ok [(.invalid "\"u\" is not an integer", "xs[0]"), (.invalid "\"v\" is not an integer", "xs[1]")] := by
  decide +kernel
example : (Form.map (Path.ops lib) lib table 10 0 (.data (.dict [(.str "f", .dict [(.str "a", .int 1)]),
      (.str "xs", .list [.str "u", .str "v"])])) [] false (.str .ignore) true (holding 1 [])).1 =
    .error (.formError [⟨.invalid "\"u\" is not an integer", "xs[0]", none, some 0⟩,
      ⟨.invalid (Exc.formError [⟨.invalid "\"u\" is not an integer", "xs[0]", none, some 0⟩]).str, "xs", some "xs", some 0⟩]) := by
  decide +kernel
example : ∃ es e, (Form.map (Path.ops lib) lib table 10 0 (.data (.dict [(.str "f", .dict [(.str "a", .int 1)]),
      (.str "xs", .list [.str "u", .str "v"])])) [] false (.str .ignore) true (holding 1 [])).1 = .error (.formError es) ∧
    es.head? = some e ∧ e.path = "xs[0]" := by
  have hdoc : SrcOK (Path.lawful lib) (.data (.dict [(.str "f", .dict [(.str "a", .int 1)]),
    (.str "xs", .list [.str "u", .str "v"])])) := trivial
  obtain ⟨es, hes⟩ := ((C09_modes_agree (L := lib) (Path.renders lib) table_typed 10 0 hdoc
    [] false (u := .str .ignore) .str (holding_inv 1 []) (holding_live 1 [])).1 0 (by decide +kernel)).2 (by decide +kernel)
  obtain ⟨e, he, hc⟩ := (C96_first (L := lib) (Path.renders lib) table_typed 10 0 hdoc
    [] false (u := .str .ignore) .str (holding_inv 1 []) (holding_live 1 []) (e := 0) (by decide +kernel) hes).1
  refine ⟨es, e, hes, he, ?_⟩
  have : ((Form.map (Path.ops lib) lib table 10 0 (.data (.dict [(.str "f", .dict [(.str "a", .int 1)]),
      (.str "xs", .list [.str "u", .str "v"])])) [] false (.str .ignore) false (holding 1 [])).2.errors 0).head?.map Err.path
      = some "xs[0]" := by decide +kernel
  rw [hc] at this
  exact Option.some.inj this

/-! ### A polymorphic field -/

/-- `class K: kind = Type(); n = Integer()` and `class R: p = PolymorphicSubForm(K.kind)`; the third class is
the probe for the type. -/
def typeField : Field := .mk { name := some "kind", src := .str "kind" } (.string {})

def typedTable : Classes
  | 0 => { fields := [typeField, field "n" (.integer {})] }
  | 1 => { fields := [field "p" (.poly typeField 2 [(.str "k", 0)] false (.str .ignore))] }
  | 2 => { fields := [typeField] }
  | _ => { fields := [] }

/-- `{'p': {'kind': 'k', 'n': 'x'}}`. -/
def docTyped : List (Val × Val) := [(.str "p", .dict [(.str "kind", .str "k"), (.str "n", .str "x")])]

theorem typedTable_stringTyped : typedTable.All StringTyped := by
  have ht : typeField.All StringTyped :=
    .mk ⟨(hookFree_plain (by intro _ _ _ _ _ h; cases h)).calm, trivial⟩ .string
  intro cls f hf
  match cls with
  | 0 =>
    simp only [typedTable, List.mem_cons, List.not_mem_nil, or_false] at hf
    rcases hf with rfl | rfl
    · exact ht
    · exact .mk ⟨(hookFree_plain (by intro _ _ _ _ _ h; cases h)).calm, trivial⟩ .integer
  | 1 =>
    simp only [typedTable, List.mem_cons, List.not_mem_nil, or_false] at hf
    subst hf
    exact .mk ⟨(hookFree_plain (by intro _ _ _ _ _ h; cases h)).calm, ⟨_, rfl⟩, (hookFree_plain (by intro _ _ _ _ _ h; cases h)).wordless⟩ (.poly ht .str)
  | 2 =>
    simp only [typedTable, List.mem_cons, List.not_mem_nil, or_false] at hf
    subst hf
    exact ht
  | n + 3 => simp [typedTable] at hf

/-- The type decides the class of `p`, whose field `n` fails: `raise` raises a `FormError`. -/
example : ∃ es, (Form.map (Path.ops lib) lib typedTable 12 0 (.data (.dict docTyped)) [] false (.str .ignore) true
    (holding 1 [])).1 = .error (.formError es) :=
  ((C09_modes_agree (L := lib) (Path.renders lib) typedTable_stringTyped 12 0 (src := .data (.dict docTyped)) trivial
      [] false (u := .str .ignore) .str (holding_inv 1 []) (holding_live 1 [])).1 0 (by decide +kernel)).2
    (by decide +kernel)

/-- A type nobody declared: both modes report it. -/
example : ∃ es, (Form.map (Path.ops lib) lib typedTable 12 0 (.data (.dict [(.str "p", .dict [(.str "kind", .str "z")])]))
    [] false (.str .ignore) true (holding 1 [])).1 = .error (.formError es) :=
  ((C09_modes_agree (L := lib) (Path.renders lib) typedTable_stringTyped 12 0
      (src := .data (.dict [(.str "p", .dict [(.str "kind", .str "z")])])) trivial
      [] false (u := .str .ignore) .str (holding_inv 1 []) (holding_live 1 [])).1 0 (by decide +kernel)).2
    (by decide +kernel)

end Pilo
