import Verif.Props.Merged
import Verif.Props.Lenient
import Verif.Props.Local
import Verif.Props.Frame
import Verif.Props.AnywhereDemo
import Verif.Props.LocusDemo
import Verif.Props.ModesDemo
import Verif.Props.FormsDemo
import Verif.Props.Terminates

/-!
# Examples with hooks that are functions of the value

The theorems about classes whose `munge`, `filter` and `validate` hooks are functions of the value (`ValueHooks`), used for
classes that have such hooks.
-/

namespace Pilo
namespace Demo

/-- `return value + '!'` -/
def shout : Val → Except Exc Val
  | .str x => .ok (.str (x ++ "!"))
  | w => .ok w

/-- `return value != 'skip!'` -/
def unskipped (v : Val) : Except Exc Val := .ok (.bool (!(v.pyEq (.str "skip!"))))

/-- `if value == 'bad!': raise ValueError('bad')`, `if value == 'no!': ctx.errors.invalid('no name'); return False` and
`return True` -/
def decent (v : Val) : List String × Except Exc Val :=
  if v.pyEq (.str "bad!") then ([], .error (.valueError "bad"))
  else if v.pyEq (.str "no!") then (["no name"], .ok (.bool false))
  else ([], .ok (.bool true))

/-- `name = String()` with these as its `munge`, `filter` and `validate` hooks. -/
def hookedName : Field := .mk
  { name := some "name", src := .str "name",
    munge := some { body := fun _ v => Prog.ofExcept (shout v) },
    filter := some { body := fun _ v => Prog.ofExcept (unskipped v) },
    validate := some { body := fun _ v => Prog.saying (decent v).1 (decent v).2 } } (.string {})

/-- `class A: name = ...; class B: one = SubForm(A); many = List(SubForm(A))`. -/
def hooked : Classes
  | 0 => { fields := [hookedName] }
  | 1 => { fields := [field "one" (.subform 0 false (.str .ignore)),
      field "many" (.list (.mk {} (.subform 0 false (.str .ignore))) none none false)] }
  | _ => { fields := [] }

theorem hookedName_values : ValueHooks True hookedName where
  default := .inl rfl
  resolve := rfl
  compute := rfl
  parse := rfl
  munge := by intro h hh; cases hh; exact ⟨.inl trivial, fun v => ([], shout v), fun _ _ => rfl⟩
  filter := by intro h hh; cases hh; exact ⟨.inl trivial, fun v => ([], unskipped v), fun _ _ => rfl⟩
  validate := by intro h hh; cases hh; exact ⟨.inl trivial, decent, fun _ _ => rfl⟩
  keyFilter := by intro _ _ _ _ _ h; cases h

theorem hooked_all {p : Field → Prop} (h0 : p hookedName) (h1 : p (field "one" (.subform 0 false (.str .ignore))))
    (h2 : p (field "many" (.list (.mk {} (.subform 0 false (.str .ignore))) none none false)))
    (h3 : p (.mk {} (.subform 0 false (.str .ignore)))) : hooked.All p := by
  intro cls f hf
  match cls with
  | 0 =>
    simp only [hooked, List.mem_singleton] at hf
    subst hf
    exact .mk h0 .string
  | 1 =>
    simp only [hooked, List.mem_cons, List.not_mem_nil, or_false] at hf
    rcases hf with rfl | rfl
    · exact .mk h1 (.subform .str)
    · exact .mk h2 (.list (.mk h3 (.subform .str)))
  | n + 2 => simp [hooked] at hf

theorem hooked_values : hooked.All (ValueHooks True) :=
  hooked_all hookedName_values (hookFree_plain (by intro _ _ _ _ _ h; cases h)).calm
    (hookFree_plain (by intro _ _ _ _ _ h; cases h)).calm (hookFree_plain (by intro _ _ _ _ _ h; cases h)).calm

theorem hooked_mono : hooked.All Mono :=
  hooked_all ⟨hookedName_values, trivial⟩ ⟨(hookFree_plain (by intro _ _ _ _ _ h; cases h)).calm, trivial⟩
    ⟨(hookFree_plain (by intro _ _ _ _ _ h; cases h)).calm, trivial⟩ ⟨(hookFree_plain (by intro _ _ _ _ _ h; cases h)).calm, trivial⟩

theorem hooked_named : Named hooked := by
  intro cls f hf
  match cls with
  | 0 => simp only [hooked, List.mem_singleton] at hf; subst hf; rfl
  | 1 =>
    simp only [hooked, List.mem_cons, List.not_mem_nil, or_false] at hf
    rcases hf with rfl | rfl <;> rfl
  | n + 2 => simp [hooked] at hf

/-- `{"one": {"name": "a"}, "many": [{"name": "b"}, {"name": "skip"}]}`. -/
def hookedDoc : List (Val × Val) := [(.str "one", .dict [(.str "name", .str "a")]),
  (.str "many", .list [.dict [(.str "name", .str "b")]])]

/-- The same with a name that is refused and one at which the hook raises. -/
def hookedBad : List (Val × Val) := [(.str "one", .dict [(.str "name", .str "no")]),
  (.str "many", .list [.dict [(.str "name", .str "bad")]])]

/-- The hooks do something: names are munged; the hook reports a name that it refuses; what it raises is reported by the list. -/
example : (Form.map (Path.ops lib) lib hooked 12 0 (.data (.dict hookedDoc)) [] false (.str .ignore) false (holding 1 [])).2.errors 0 = [] ∧
    (Form.map (Path.ops lib) lib hooked 12 0 (.data (.dict hookedDoc)) [] false (.str .ignore) false (holding 1 [])).2.formCore 1 =
      some (0, [(.str "name", .str "a!")]) ∧
    ((Form.map (Path.ops lib) lib hooked 12 0 (.data (.dict hookedBad)) [] false (.str .ignore) false (holding 1 [])).2.errors 0).map
      (fun e => (e.kind, e.path)) = [(.invalid "no name", "one.name"), (.invalid "bad", "many[0]")] := by decide +kernel

/-- C09: since collecting reports errors, raising raises a `FormError`. -/
example : ∃ es, (Form.map (Path.ops lib) lib hooked 12 0 (.data (.dict hookedBad))
    [] false (.str .ignore) true (holding 1 [])).1 = .error (.formError es) :=
  ((C09_modes_agree (L := lib) (Path.renders lib) (hooked_mono.imp fun _ => Mono.stringTyped) 12 0
      (src := .data (.dict hookedBad)) trivial [] false (u := .str .ignore) .str
      (holding_inv 1 []) (holding_live 1 [])).1 0 (by decide +kernel)).2 (by decide +kernel)

/-- C29: a name that is skipped, and a reset: the old one is gone.  Without the reset it stays. -/
example : (Form.map (Path.ops lib) lib hooked 12 0 (.data (.dict [(.str "name", .str "skip")])) [] true (.str .ignore) false
      (holding 0 [(.str "name", .str "old")])).2.entry 0 "name" = none ∧
    (Form.map (Path.ops lib) lib hooked 12 0 (.data (.dict [(.str "name", .str "skip")])) [] false (.str .ignore) false
      (holding 0 [(.str "name", .str "old")])).2.entry 0 "name" = some (.str "old") := by decide +kernel
example := C29_content (L := lib) (C := hooked) (Path.lawful lib) hooked_named hooked_values 12
  (src := .data (.dict [(.str "name", .str "skip")])) trivial (tags := []) (reset := true) (u := .str .ignore) (.inl rfl)
  (raising := false) (holding_inv 0 [(.str "name", .str "old")]) (holding_live 0 _) (id := 0) (e := 0)
  (ran (by decide +kernel))

/-- C95: what the strict document gives, the lenient one gives. -/
example : let A := Form.map (Path.ops lib) lib hooked 12 0 (.source (.ok (.base (.simple
      (.json true none { root := .dict hookedDoc, parts := [] }))))) [] false (.str .ignore) false (holding 1 [])
    let B := Form.map (Path.ops lib) lib hooked 12 0 (.source (.ok (.base (.simple
      (.json false none { root := .dict hookedDoc, parts := [] }))))) [] false (.str .ignore) false (holding 1 [])
    ∃ e', B.1 = .ok e' ∧ B.2.errors e' = [] ∧ B.2.forms = A.2.forms ∧ B.2.stack = [rootFrame] :=
  C95_lenient (L := lib) hooked_values .str 12 0 [] false false (.dict hookedDoc) none none
    (holding_live 1 []) 0 (by decide +kernel) (by decide +kernel)

/-- C59: a key that nobody reads does not matter. -/
example := C59_local (L := lib) (C := hooked) hooked_values 10 0 [] false false (cls := 0)
  (d := [(.str "zip", .int 1), (.str "name", .str "a")]) (d' := [(.str "name", .str "a")]) (fun _ => rfl) (holding_live 0 []) rfl (by
    intro f hf _
    simp only [hooked, List.mem_singleton] at hf
    subst hf
    refine ⟨(by intro gs h; cases h), "name", rfl, fun p hp => ?_⟩
    rw [consults_ident ⟨by decide, by decide⟩ (by decide) hp]
    rfl)

/-- C56: the other forms keep what they hold. -/
example := C56_others (L := lib) (Path.lawful lib) hooked_values 12 (id := 0) (src := .data (.dict hookedDoc)) trivial (tags := [])
  (reset := true) (u := .str .ignore) .str (raising := false) (holding_inv 1 []) (holding_live 1 [])

/-- C51: mapped on its own and while another mapping is under way. -/
example : (Form.map (Path.ops lib) lib hooked 12 0 (.data (.dict hookedBad)) [] false (.str .ignore) false (holding 1 [])).2.forms =
    (Form.map (Path.ops lib) lib hooked 12 0 (.data (.dict hookedBad)) [] false (.str .ignore) false (midway 1 [])).2.forms :=
  (C51_anywhere_partial (W := Path.lawful lib) hooked_values 12 0 (src := .data (.dict hookedBad)) trivial rfl [] false
    (u := .str .ignore) .str (.inr (.inl rfl)) false (holding_live 1 []) (midway_live 1 []) rfl rfl rfl rfl).2.2

/-- C49: the errors are where the fields read. -/
example := @C49_dict lib hooked (hooked_mono.imp fun _ => Mono.typed) 12 0 hookedBad [] false (.str .ignore) .str false
  (holding 1 []) _ 0 (holding_inv 1 []) (holding_live 1 []) (ran (by decide +kernel))

theorem hooked_fitting : Follow.Fitting hooked where
  all := hooked_all ⟨hookedName_values, trivial⟩ ⟨(hookFree_plain (by intro _ _ _ _ _ h; cases h)).calm, .inl rfl⟩
    ⟨(hookFree_plain (by intro _ _ _ _ _ h; cases h)).calm, rfl⟩ ⟨(hookFree_plain (by intro _ _ _ _ _ h; cases h)).calm, .inl rfl⟩
  src := by
    intro cls f hf
    match cls with
    | 0 => simp only [hooked, List.mem_singleton] at hf; subst hf; exact ⟨_, rfl, by decide +kernel⟩
    | 1 =>
      simp only [hooked, List.mem_cons, List.not_mem_nil, or_false] at hf
      rcases hf with rfl | rfl <;> exact ⟨_, rfl, by decide +kernel⟩
    | n + 2 => simp [hooked] at hf

/-- C107: the name is in the second document. -/
example := C107_merged_partial (L := lib) (C := hooked) (m := .combine) (sm := .combine) hooked_fitting (u := .str .ignore) (.inl rfl)
  (by decide) (by decide) (kvs := [(.str "name", .str "a")]) (dd := [(none, []), (none, [(.str "name", .str "a")])]) (by decide)

end Demo
end Pilo
