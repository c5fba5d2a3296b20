import Verif.Props.Anywhere
import Verif.Props.ModesDemo

/-!
# Examples for C51
-/

namespace Pilo
open Demo

/-- The same thread in the middle of mapping the key `g` of some other document: a source, an error list with
an error in it, a field and a parent are bound. -/
def Demo.midway (cls : Nat) (items : List (Val × Val)) : St Path where
  stack := [{ src := .source 0, errors := some 0, form := some 0, parent := some (.form 0), field := some (some "g") },
    rootFrame]
  paths := [(Path.ops lib).native (.list [.dict [(.str "a", .int 5)]]) none]
  errs := [⟨true, [⟨.missing, "g", some "g", some 0⟩]⟩]
  forms := [⟨cls, items, none⟩]

theorem Demo.midway_live (cls : Nat) (items : List (Val × Val)) : Live (midway cls items) where
  root := by simp [midway]
  path := by
    intro r h
    simp [midway, curPath, lookup, FrameSrc.path?] at h
    subst h; simp [midway]
  errs := by
    intro e h
    simp [midway, lookup] at h
    subst h; simp [midway]
  ids := by
    intro fr hfr id h
    simp [midway] at hfr
    rcases hfr with rfl | rfl
    · cases h; simp [midway]
    · simp [rootFrame] at h

theorem Demo.table_hookFree : table.All HookFree := table_tame.imp fun _ h => h.1

/-- The subform of a document with errors, mapped on its own and mapped while another mapping is under way. -/
example : (Form.map (Path.ops lib) lib table 10 0 (.data docBad) [] false (.str .ignore) false (holding 1 [])).2.forms =
    (Form.map (Path.ops lib) lib table 10 0 (.data docBad) [] false (.str .ignore) false (midway 1 [])).2.forms :=
  (C51_anywhere_partial (W := Path.lawful lib) table_hookFree.calm 10 0 (src := .data docBad) trivial rfl [] false
    (u := .str .ignore) .str (.inr (.inl rfl)) false (holding_live 1 []) (midway_live 1 []) rfl rfl rfl rfl).2.2

example : (after (Form.map (Path.ops lib) lib table 10 0 (.data docBad) [] false (.str .ignore) false (holding 1 [])) []).1 =
      .ok [(.invalid "\"x\" is not an integer", "f.a"), (.missing, "xs")] ∧
    (after (Form.map (Path.ops lib) lib table 10 0 (.data docBad) [] false (.str .ignore) false (midway 1 [])) []).1 =
      .ok [(.invalid "\"x\" is not an integer", "f.a"), (.missing, "xs")] := by decide +kernel

/-- `class K: kind = Type(translate={"x": ERROR})` and a subclass, `class H: pass` for the form that is mapped. -/
def Demo.polyTable : Classes
  | 0 => { fields := [.mk { name := some "kind", src := .str "kind", translations := [(.str "x", .ERROR)] } (.string {})] }
  | _ => { fields := [] }

/-- `unmapped=PolymorphicSubForm(K.kind)`. -/
def Demo.polyValue : Field :=
  .mk { name := some "v" } (.poly (.mk { name := some "kind", src := .str "kind", translations := [(.str "x", .ERROR)] } (.string {})) 0
    [(.str "k", 0)] false (.str .ignore))

theorem Demo.hasError {α : Type} {x : Except Exc α} (h : (match x with | .ok _ => false | .error _ => true) = true) :
    ∃ e, x = .error e := by
  cases x with
  | ok _ => cases h
  | error e => exact ⟨e, rfl⟩

/-- Where C51 fails: the unmapped values of a form are mapped outside the frame of the form
(`pilo/fields.py:1598-1609`), and a `PolymorphicSubForm` there whose type field comes out as an ignored
constant reads its probe through `Field.__get__`, which asks for the surrounding form.  The same map of the
same document reports an error at top level and raises inside another mapping. -/
theorem C51_counterexample :
    ∃ (C : Classes) (u : Unmapped) (doc : Val) (s1 s2 : St Path), Live s1 ∧ Live s2 ∧ s1.forms = s2.forms ∧
      lookup Frame.tags s2.stack = lookup Frame.tags s1.stack ∧
      lookup Frame.ignoreDefault s2.stack = lookup Frame.ignoreDefault s1.stack ∧
      lookup Frame.ignoreMissing s2.stack = lookup Frame.ignoreMissing s1.stack ∧
      (∃ e, (Form.map (Path.ops lib) lib C 12 0 (.data doc) [] false u false s1).1 = .ok e) ∧
      (∃ x, (Form.map (Path.ops lib) lib C 12 0 (.data doc) [] false u false s2).1 = .error x) :=
  ⟨polyTable, .value polyValue, .dict [(.str "z", .dict [(.str "kind", .str "x")])], holding 1 [], midway 1 [],
    holding_live 1 [], midway_live 1 [], rfl, rfl, rfl, rfl, ⟨0, by decide +kernel⟩, hasError (by decide +kernel)⟩

end Pilo
