import Verif.Props.Read
import Verif.Props.FormsDemo

/-!
# Examples for C79
-/

namespace Pilo
namespace ReadDemo
open Demo Getattr Read

/-- A field computed by a hook whose body is given the form. -/
def computed (n : String) (k : Kind) (body : Val → Prog) : Field :=
  .mk { name := some n, src := .str n, compute := some { body := body } } k

/-- `class H: t = Integer(); a = Integer()` where `t` is computed as `self.a`. -/
def classH : ClassDef where
  fields := [computed "t" (.integer {}) (fun f => .getattr f "a"), field "a" (.integer {})]

/-- `class S: u = Field(); p = SubForm(F)` where `u` is computed as `self.p`. -/
def classS : ClassDef where
  fields := [computed "u" .base (fun f => .getattr f "p"), field "p" (.subform 2 false (.str .ignore))]

/-- `class O: t = Field(); w = Field(default=NONE)` where `t` is computed as 1 if `self.w` is the constant `NONE`. -/
def classO : ClassDef where
  fields := [computed "t" .base (fun f => .bind (.getattr f "w") fun v => if v.isNONE then .ret (.int 1) else .ret v),
    .mk { name := some "w", src := .str "w", default := .value .NONE } .base]

def tableH : Classes
  | 0 => classH
  | 1 => classS
  | 2 => classF
  | 3 => classO
  | _ => { fields := [] }

abbrev ops := Path.ops lib

/-- A thread with a form of class `H` that is being mapped from `{"t": …, "a": …}` and is at field `t`, where hooks run. -/
def atT (a : Val) (raising : Bool) : St Path :=
  (pushKey ops (.str "t") {} (pushVars { field := some (some "t"), parent := some .field }
    (pushVars { form := some 0, parent := some (.form 0) }
      (pushSource (.ok (ops.native (.dict [(.str "t", .int 1), (.str "a", a)]) none)) { errors := some 0 }
        { (holding 0 [] : St Path) with errs := [⟨raising, []⟩] }).2).2).2).2

theorem atT_inv (a : Val) (raising : Bool) : Inv (Path.lawful lib) (atT a raising) := by
  refine (PushOK.key _ _).inv ((PushOK.vars _).inv ((PushOK.vars _).inv ((PushOK.source ?_).inv ?_)))
  · intro p hp; cases hp; exact (Path.lawful lib).native_wf
  · have h := holding_inv 0 []
    exact ⟨h.wf, h.seg, h.nodup, h.root⟩


theorem atT_declares (a : Val) (raising : Bool) : Declares tableH (atT a raising) 0 "a" (field "a" (.integer {})) :=
  ⟨⟨0, [], none⟩, rfl, rfl⟩

theorem atT_inside (a : Val) (raising : Bool) : ¬ Idle (atT a raising) 0 := by
  intro h
  exact h { form := some 0, parent := some (.form 0) } (by show _ ∈ [_, _, _, _, _]; simp) rfl

theorem atT_rewound :
    (mapField ops lib tableH 5 (field "a" (.integer {})) .NONE (rewind ops (isFormFrame 0) (atT (.str "7") false)).2).1 = .ok (.int 7) ∧
    ((mapField ops lib tableH 5 (field "a" (.integer {})) .NONE (rewind ops (isFormFrame 0) (atT (.str "7") false)).2).2.forms.map
      FormObj.items) = [[]] := by
  decide +kernel

/-- C79 in the hook of `t`: `a` is read from beside `t`, not from below it, and is not stored. -/
example : (Form.getattr ops lib tableH 5 0 "a" (atT (.str "7") false)).1 = .ok (.int 7) ∧
    (Form.getattr ops lib tableH 5 0 "a" (atT (.str "7") false)).2.forms.map FormObj.items = [[]] ∧
    Undisturbed ops (atT (.str "7") false) (Form.getattr ops lib tableH 5 0 "a" (atT (.str "7") false)).2 := by
  have hd := atT_declares (.str "7") false
  have hi := atT_inv (.str "7") false
  have hn := atT_inside (.str "7") false
  have h0 : (atT (.str "7") false).entry 0 "a" = none := by decide +kernel
  have hf : (atT (.str "7") false).env.form ≠ none := by decide +kernel
  have hp : (atT (.str "7") false).env.parent ≠ some (.form 0) := by decide +kernel
  have hE := atT_rewound
  generalize atT (.str "7") false = s at *
  obtain ⟨s1, h1, h⟩ := C79_read (L := lib) hd hi h0 hf hp hn 5
  rw [← h1.rewound] at hE
  obtain ⟨h2, -, h3, h4⟩ := h (by rw [hE.1]; intro h; cases h)
  exact ⟨h2.trans hE.1, (congrArg _ h3).trans hE.2, h4⟩

/-- The whole mapping: `t` gets the value of `a` though `a` is declared, and mapped, after it. -/
example : ((Form.init ops lib tableH 5 0 (.data (.dict [(.str "t", .int 1), (.str "a", .str "7")]))) St.init).2.forms.map
    FormObj.items = [[(.str "t", .int 7), (.str "a", .int 7)]] := by decide +kernel

/-- An invalid field that a hook reads is reported twice, once when it is read and once when it is mapped. -/
theorem C79_twice_counterexample : ∃ e : Err,
    ((Form.init ops lib tableH 5 0 (.data (.dict [(.str "a", .str "x")]))) St.init).1 = .error (.formError [e, e]) :=
  ⟨⟨.invalid "\"x\" is not an integer", "a", some "a", some 0⟩, by decide +kernel⟩

/-- A sub form that a hook reads is not the sub form that the form gets, which is a second one with the same entries. -/
theorem C79_subform_counterexample : ∃ (s : St Path) (i j : Nat), i ≠ j ∧
    s = ((Form.init ops lib tableH 5 1 (.data (.dict [(.str "p", .dict [(.str "a", .int 3)])]))) St.init).2 ∧
    s.entry 0 "u" = some (.form i) ∧ s.entry 0 "p" = some (.form j) ∧ (s.forms[i]?).map FormObj.items = (s.forms[j]?).map FormObj.items :=
  ⟨_, 1, 2, by decide, rfl, by decide +kernel, by decide +kernel, by decide +kernel⟩

/-- A field that cannot be mapped: the hook is given the constant `NONE`, where `getattr` elsewhere raises. -/
theorem C79_constant_counterexample :
    ((Form.init ops lib tableH 5 3 (.data (.dict []))) St.init).2.forms.map FormObj.items = [[(.str "t", .int 1)]] ∧
    (Form.getattr ops lib tableH 5 0 "w" (holding 3 [])).1 = .error (.attributeError "form cannot map field") := by
  decide +kernel

/-- A form mapped a second time without `reset`: the hook of `t` is given the old value of `a`, which is mapped later. -/
theorem C79_stale_counterexample :
    let src : SrcArg Path := .data (.dict [(.str "a", .int 8)])
    (Form.map ops lib tableH 5 0 src [] false (.str .ignore) false (holding 0 [(.str "a", .int 7)])).2.forms.map FormObj.items =
      [[(.str "a", .int 8), (.str "t", .int 7)]] ∧
    (Form.map ops lib tableH 5 0 src [] true (.str .ignore) false (holding 0 [(.str "a", .int 7)])).2.forms.map FormObj.items =
      [[(.str "t", .int 8), (.str "a", .int 8)]] := by
  decide +kernel

end ReadDemo
end Pilo
