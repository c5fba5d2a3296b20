import Verif.Props.Terminates
import Verif.Props.Unparsable

/-!
# C78: examples, and a schema that does not terminate
-/

namespace Pilo
namespace Demo

/-! ## A tree -/

/-- `class Node: v = Integer(); kids = List(SubForm(Node))`. -/
def nodeClass : Classes
  | 0 => { fields := [field "v" (.integer {}),
      field "kids" (.list (.mk {} (.subform 0 false (.str .ignore))) none none false)] }
  | _ => { fields := [] }

/-- Every name but `name`. -/
def names (s : String) : Bool := s ≠ "name"

theorem node_bounded : nodeClass.All (Bounded nodeClass (named names) 3) := by
  have depth : ∀ f, depthB nodeClass (named names) 3 f = true → Depth nodeClass (named names) 3 f := fun f h => depthB_sound h
  intro cls f hf
  cases cls with
  | succ n => cases hf
  | zero =>
    simp only [nodeClass, List.mem_cons, List.not_mem_nil, or_false] at hf
    rcases hf with rfl | rfl
    · exact .mk ⟨(hookFree_plain (fun _ _ _ _ _ h => by cases h)).calm, depth _ (by decide +kernel)⟩ .integer
    · refine .mk ⟨(hookFree_plain (fun _ _ _ _ _ h => by cases h)).calm, depth _ (by decide +kernel)⟩ (.list ?_)
      exact .mk ⟨(hookFree_plain (fun _ _ _ _ _ h => by cases h)).calm, depth _ (by decide +kernel)⟩ (.subform .str)

/-- Nothing has attributes and functions return numbers in `lib`. -/
def heights : Heights lib names where
  fn _ := 0
  ob _ := 0
  inner _ _ := rfl
  name := by decide +kernel
  attr := by intro v s w h; cases h
  attrN := by intro v s w _ h; cases h
  call := by intro i w h _; cases h; exact Nat.le_refl _

def leafNode (i : Int) : Val := .dict [(.str "v", .int i), (.str "kids", .list [])]

/-- A tree of nodes. -/
def treeNode : Val := .dict [(.str "v", .int 1), (.str "kids", .list [leafNode 2,
  .dict [(.str "v", .int 3), (.str "kids", .list [leafNode 4])]])]


/-- The tree has height 6, so that 28 nested calls are enough, whatever happens beyond. -/
example (n m : Nat) (hn : 28 ≤ n) (hm : 28 ≤ m) (e e' : Exc) :
    SameRun (Form.initOr (Path.ops lib) lib nodeClass e n 0 (.data treeNode) St.init)
      (Form.initOr (Path.ops lib) lib nodeClass e' m 0 (.data treeNode) St.init) :=
  C78_data (z := 6) (v := treeNode) heights node_bounded 0 (by decide +kernel) hn hm

/-- With enough calls the tree is mapped; with too few it is not. -/
example : (Form.init (Path.ops lib) lib nodeClass 28 0 (.data treeNode) St.init).1.toOption = some 0 := by decide +kernel
example : (Form.init (Path.ops lib) lib nodeClass 4 0 (.data treeNode) St.init).1.toOption = none := by decide +kernel

/-- A field of the tree mapped on its own, at the place of a source that the context is at. -/
example (n m : Nat) (hn : 21 ≤ n) (hm : 21 ≤ m) (e e' : Exc) :
    SameRun (mapFieldOr (Path.ops lib) lib nodeClass e n (nodeClass 0).fields[1] .NONE (here (Path.ops lib) treeNode))
      (mapFieldOr (Path.ops lib) lib nodeClass e' m (nodeClass 0).fields[1] .NONE (here (Path.ops lib) treeNode)) := by
  refine C78_field (Path.sized heights.rank) node_bounded (node_bounded 0 _ (by simp)) (here_live _)
    (z := 6) (by omega) ?_ hn hm
  intro r p hp
  cases hp
  exact ⟨(Path.roomy heights.rank).native_wf, (by decide +kernel : treeNode.height (fun _ => 0) (fun _ => 0) ≤ 6)⟩

/-- A form mapped from a list inside another mapping, capturing what is not mapped; the names are aliases of the
positions. -/
example (n m : Nat) (hn : 21 ≤ n) (hm : 21 ≤ m) (e e' : Exc) :
    SameMap (Form.mapOr (Path.ops lib) lib nodeClass e n 0 (.data (.list [.int 1, .list []])) [] true (.str .capture) true
        (here (Path.ops lib) treeNode))
      (Form.mapOr (Path.ops lib) lib nodeClass e' m 0 (.data (.list [.int 1, .list []])) [] true (.str .capture) true
        (here (Path.ops lib) treeNode)) := by
  refine C78_form (Path.sized heights.rank) node_bounded (cls := 0) ?_ (here_live _) rfl rfl (z := 6) (by omega) ?_ ?_ _ _ hn hm
  · exact .mk ⟨(hookFree_plain (fun _ _ _ _ _ h => by cases h)).calm, depthB_sound (by decide +kernel)⟩ (.subform .str)
  · intro r p hp
    cases hp
    exact ⟨(Path.roomy heights.rank).native_wf, (by decide +kernel : treeNode.height (fun _ => 0) (fun _ => 0) ≤ 6)⟩
  · intro hb al
    have h : Path.size heights.rank ((Path.ops lib).native (.list [.int 1, .list []]) al) ≤ 6 := by
      rw [Path.native_size heights.rank hb]
      exact (by decide +kernel : Val.height (fun _ => 0) (fun _ => 0) (.list [.int 1, .list []]) ≤ 6)
    exact h

/-- The same tree as a JSON document. -/
example (n m : Nat) (hn : 28 ≤ n) (hm : 28 ≤ m) (e e' : Exc) :
    let p : Path := .base (.simple (.json true none { root := treeNode, parts := [] }))
    SameRun (Form.initOr (Path.ops lib) lib nodeClass e n 0 (.source (.ok p)) St.init)
      (Form.initOr (Path.ops lib) lib nodeClass e' m 0 (.source (.ok p)) St.init) :=
  C78_json (z := 6) (v := treeNode) heights node_bounded 0 true none (by decide +kernel) hn hm

/-- Any configuration, for the same schema. -/
example (n m : Nat) (hn : 20 ≤ n) (hm : 20 ≤ m) (e e' : Exc) :
    let cfg : ConfigCfg := { data := ⟨[("sec", [("v", "1"), ("kids", "a b")])]⟩, sectionName := some "sec" }
    let p : Path := .base (.simple (.config cfg { root := cfg.rootVal, parts := [] }))
    SameRun (Form.initOr (Path.ops lib) lib nodeClass e n 0 (.source (.ok p)) St.init)
      (Form.initOr (Path.ops lib) lib nodeClass e' m 0 (.source (.ok p)) St.init) :=
  C78_config heights node_bounded 0 rfl hn hm

/-! ## A schema that does not terminate -/

/-- A form inside itself at the same place: `SubForm(Loop)` with no source. -/
def loopField : Field := .mk { name := some "loop" } (.subform 0 false (.str .ignore))

def loopClass : Classes := fun _ => { fields := [loopField] }

section
variable {P : Type} {I : PathOps P} {L : Lib}

/-- A path at a mapping on which reading changes nothing. -/
structure Rests (I : PathOps P) (p : P) : Prop where
  exists_ : I.exists_ p = (.ok true, p)
  isNull : I.isNull p = (.ok false, p)
  mapping : ∃ kv, I.mapping p = (.ok kv, p)

theorem withErrs_error {α : Type} {raising : Bool} {t : T P α} {env : Env} {τ τ' : TSt P} {e : Exc}
    (h : t env { τ with errs := some { raising := raising, items := [] } } = (.error e, τ')) :
    T.withErrs raising t env τ = (.error e, { τ' with errs := τ.errs }) := by
  unfold T.withErrs; rw [h]

theorem withSource_error {α : Type} {p : P} {t : T P α} {env : Env} {τ τ' : TSt P} {e : Exc}
    (h : t { env with src := some true } { τ with path := some (some (τ.npaths, p)), npaths := τ.npaths + 1 } =
      (.error e, τ')) : T.withSource (.ok p) t env τ = (.error e, { τ' with path := τ.path }) := by
  unfold T.withSource; dsimp only; rw [h]

theorem loop_field {p : P} (hp : Rests I p) {e : Exc} (hs : e.isSourceError = false) (hv : e.isValueError = false) :
    ∀ (n : Nat) (env : Env) (τ : TSt P) (r : Nat), τ.path = some (some (r, p)) → env.src = some true → env.tags = none →
      ∃ τ', Lex.mapFieldOr I L loopClass e n loopField .NONE env τ = (.error e, τ') := by
  intro n
  induction n with
  | zero => intros; exact ⟨_, rfl⟩
  | succ n ih =>
    intro env τ r hr hsrc htags
    obtain ⟨kv, hkv⟩ := hp.mapping
    have body : ∀ (env : Env) (τ : TSt P) (id r : Nat), τ.path = some (some (r, p)) → env.src = some true → env.tags = none →
        (∃ x, τ.forms[id]? = some x) →
        ∃ τ', Lex.formMapBody I loopClass (Lex.mapFieldOr I L loopClass e n) id [] (.str .ignore) env τ = (.error e, τ') := by
      intro env τ id r hr hsrc htags ⟨x, hx⟩
      unfold Lex.formMapBody
      rw [T.bind_ok (a := kv) (τ' := { τ with path := some (some (r, p)) }) (by simp [T.onPath, hr, hkv])]
      rw [T.bind_ok (a := x.cls) (τ' := { τ with path := some (some (r, p)) }) (by simp [T.formCls, hx])]
      obtain ⟨τ', h⟩ := ih { env with form := some id, parent := some (.form id) } { τ with path := some (some (r, p)) } r rfl hsrc htags
      refine ⟨τ', T.bind_error ?_⟩
      show Lex.mapFields _ id [] [loopField] _ _ = _
      refine T.bind_error ?_
      exact T.bind_error h
    have map : ∀ (env : Env) (τ : TSt P) (id r : Nat), τ.path = some (some (r, p)) → env.src = some true →
        env.tags = none → (∃ x, τ.forms[id]? = some x) →
        ∃ τ', Lex.formMap I loopClass (Lex.mapFieldOr I L loopClass e n) id .none [] false (.str .ignore) false env τ =
          (.error e, τ') := by
      intro env τ id r hr hsrc htags hx
      obtain ⟨τ', h⟩ := body env { τ with errs := some { raising := false, items := [] } } id r hr hsrc htags hx
      unfold Lex.formMap
      rw [T.bind_ok (a := env.tags) (τ' := τ) rfl, htags]
      rw [T.bind_ok (a := ()) (τ' := τ) rfl]
      rw [T.bind_ok (a := true) (τ' := τ) (by simp [T.ctxGet, hsrc])]
      refine ⟨{ τ' with errs := τ.errs }, T.bind_error (T.bind_error ?_)⟩
      exact withErrs_error h
    have start : ∃ τ', Lex.fieldStart I L loopClass (Lex.mapFieldOr I L loopClass e n) loopField
        { env with field := some loopField.name, parent := some .field } τ = (.error e, τ') := by
      obtain ⟨τ', h⟩ := map { env with field := some loopField.name, parent := some .field }
        { τ with path := some (some (r, p)), forms := τ.forms ++ [{ cls := 0, items := [] }] } τ.forms.length r rfl hsrc htags
        ⟨{ cls := 0, items := [] }, by simp⟩
      refine ⟨τ', T.bind_error ?_⟩
      show Lex.fieldCompute _ _ _ _ _ _ _ = _
      unfold Lex.fieldCompute
      rw [T.bind_ok (a := true) (τ' := { τ with path := some (some (r, p)) }) (by simp [T.onPath, hr, hp.exists_])]
      simp only [Bool.not_true, Bool.false_eq_true, if_false]
      rw [T.bind_ok (a := false) (τ' := { τ with path := some (some (r, p)) }) (by simp [T.onPath, hp.isNull])]
      simp only [Bool.false_eq_true, if_false]
      have hp : Lex.fieldParse I L loopClass (Lex.mapFieldOr I L loopClass e n) loopField
          { env with field := some loopField.name, parent := some .field } { τ with path := some (some (r, p)) } =
          (.error e, τ') := by
        show Lex.subParse _ _ _ _ _ _ _ _ = _
        unfold Lex.subParse
        rw [T.bind_ok rfl]
        exact T.bind_error h
      unfold T.tryCatch
      rw [hp]
      simp only [hs, hv, Bool.or_false, Bool.false_eq_true, if_false]
      rfl
    obtain ⟨τ', h⟩ := start
    exact ⟨τ', T.bind_error h⟩

end

/-- The loop never ends: whatever the budget, it is used up. -/
theorem loop_diverges (n : Nat) (kvs : List (Val × Val)) :
    (Form.init (Path.ops lib) lib loopClass n 0 (.data (.dict kvs)) St.init).1 = .error .recursion := by
  have hl : loopClass.All LexNode := by
    intro cls f hf
    cases List.mem_singleton.1 hf
    exact .mk (hookFree_plain (fun _ _ _ _ _ h => by cases h)).lexNode (.subform .str)
  rw [← Form.initOr_recursion, ((Ref.initOr hl .recursion n 0 (.data (.dict kvs))).run Live.init).1]
  have hp : Rests (Path.ops lib) ((Path.ops lib).mapping ((Path.ops lib).native (.dict kvs) none)).2 := ⟨rfl, rfl, _, rfl⟩
  obtain ⟨τ', h⟩ := loop_field (L := lib) hp (e := .recursion) rfl rfl n
    { (St.init (P := Path)).env with src := some true, form := some 0, parent := some (.form 0) }
    { path := some (some (0, _)), errs := some { raising := false, items := [] }, forms := [{ cls := 0, items := [] }],
      npaths := 1 } 0 rfl rfl rfl
  have body : Lex.formMapBody (Path.ops lib) loopClass (Lex.mapFieldOr (Path.ops lib) lib loopClass .recursion n) 0 []
      (.str .ignore) { (St.init (P := Path)).env with src := some true }
      { path := some (some (0, (Path.ops lib).native (.dict kvs) none)), errs := some { raising := false, items := [] },
        forms := [{ cls := 0, items := [] }], npaths := 1 } = (.error .recursion, τ') := by
    unfold Lex.formMapBody
    rw [T.bind_ok rfl, T.bind_ok rfl]
    refine T.bind_error ?_
    show Lex.mapFields _ 0 [] [loopField] _ _ = _
    exact T.bind_error (T.bind_error h)
  have go : T.withErrs false (T.withSource (.ok ((Path.ops lib).native (.dict kvs) none))
      (Lex.formMapBody (Path.ops lib) loopClass (Lex.mapFieldOr (Path.ops lib) lib loopClass .recursion n) 0 []
      (.str .ignore))) (St.init (P := Path)).env { (St.init (P := Path)).view with forms := [{ cls := 0, items := [] }] } =
      (.error .recursion, { τ' with path := some none, errs := none }) := by
    exact withErrs_error (τ := { (St.init (P := Path)).view with forms := [{ cls := 0, items := [] }] })
      (withSource_error (env := (St.init (P := Path)).env) body)
  have all : Lex.initOr (Path.ops lib) lib loopClass .recursion n 0 (.data (.dict kvs)) (St.init (P := Path)).env
      (St.init (P := Path)).view = (.error .recursion, { τ' with path := some none, errs := none }) := by
    unfold Lex.initOr
    rw [T.bind_ok rfl]
    refine T.bind_error ?_
    unfold Lex.formMap
    rw [T.bind_ok rfl, T.bind_ok rfl, T.bind_ok rfl]
    exact T.bind_error (by show Lex.rootMap _ _ _ _ _ _ _ _ _ _ = _; unfold Lex.rootMap; rw [T.bind_ok rfl]; exact T.bind_error go)
  rw [all]

/-- **C78** does not hold of every schema without hooks: what is mapped must follow a name now and then. -/
theorem C78_false : ¬ ∀ (C : Classes), C.All HookFree → ∀ v : Val, ∃ n,
    (Form.init (Path.ops lib) lib C n 0 (.data v) St.init).1 ≠ .error .recursion := by
  intro h
  obtain ⟨n, hn⟩ := h loopClass (by
    intro cls f hf
    cases List.mem_singleton.1 hf
    exact .mk (hookFree_plain (fun _ _ _ _ _ h => by cases h)) (.subform .str)) (.dict [])
  exact hn (loop_diverges n [])

end Demo
end Pilo
