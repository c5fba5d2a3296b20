import Verif.LexRef
import Verif.All

/-!
# The evaluator refines the lexical semantics

One lemma per definition of `Verif.Eval`; the recursion is closed by induction on the recursion budget.
-/

namespace Pilo

/-! ## Lexical fields -/

/-- The program does not read attributes of forms (`form.name` may rewind the context). -/
def Prog.Lex : Prog → Prop
  | .bind p k => p.Lex ∧ ∀ v, (k v).Lex
  | .tryCatch p h => p.Lex ∧ ∀ e, (h e).Lex
  | .getattr v _ => ∀ id, v ≠ .form id
  | .withVars _ p => p.Lex
  | .withKey _ p => p.Lex
  | .withData _ p => p.Lex
  | .withErrors _ p => p.Lex
  | .withReset p => p.Lex
  | _ => True

def Hook.Lex (h : Hook Prog) : Prop := ∀ self, (h.body self).Lex
def Hook.Lex1 (h : Hook (Val → Prog)) : Prop := ∀ self v, (h.body self v).Lex

def Default.Lex : Default → Prop
  | .hook h => h.Lex
  | .callable p => p.Lex
  | _ => True

def ResolveHook.Lex : ResolveHook → Prop
  | .key h => h.Lex
  | .data h => h.Lex

/-- No hook of the field itself reads form attributes. -/
structure LexNode (f : Field) : Prop where
  default : f.core.default.Lex
  resolve : ∀ h, f.core.resolve = some h → h.Lex
  compute : ∀ h, f.core.compute = some h → h.Lex
  parse : ∀ h, f.core.parse = some h → h.Lex
  munge : ∀ h, f.core.munge = some h → h.Lex1
  filter : ∀ h, f.core.filter = some h → h.Lex1
  validate : ∀ h, f.core.validate = some h → h.Lex1
  keyFilter : ∀ kf vf h r m, f.kind = .dict kf vf (some h) r m → h.Lex1

variable {P α β : Type} {I : PathOps P} {L : Lib} {C : Classes}

/-! ## Heap operations -/

theorem Ref.forms {a : α} {g : List FormObj → List FormObj}
    (hg : ∀ fs, fs.length ≤ (g fs).length) :
    Ref (fun s => (.ok a, { s with forms := g s.forms }) : M P α)
      (fun _ t => (.ok a, { t with forms := g t.forms })) := by
  intro env τ s ha
  refine ⟨rfl, ?_, ?_⟩
  · exact ha.back rfl ha.path ha.errs (by simp only [ha.forms]) ha.npaths (hg _)
  · exact { Fr.refl s with forms := hg _ }

theorem Ref.formModify (i : Nat) (g : List (Val × Val) → List (Val × Val)) :
    Ref (formModify i g : M P Unit) (T.formModify i g) :=
  Ref.forms (a := ()) (g := fun fs => fs.modify i fun o => { o with items := g o.items })
    (by intro fs; simp)

theorem Ref.formSet (i : Nat) (k v : Val) :
    Ref (formSet i k v : M P Unit) (T.formModify i (dictSet · k v)) := Ref.formModify _ _

theorem Ref.formDel (i : Nat) (k : Val) :
    Ref (formDel i k : M P Unit) (T.formModify i (dictDel · k)) := Ref.formModify _ _

theorem Ref.formItems (i : Nat) : Ref (formItems i : M P _) (T.formItems i) := by
  intro env τ s ha
  refine ⟨?_, ha, Fr.refl s⟩
  simp only [Pilo.formItems, T.formItems, ha.forms]

theorem Ref.newForm (c : Nat) : Ref (newForm c : M P Nat) (T.newForm c) := by
  intro env τ s ha
  refine ⟨?_, ?_, ?_⟩
  · simp only [Pilo.newForm, T.newForm, ha.forms]
  · exact ha.back rfl ha.path ha.errs (by simp only [T.newForm, Pilo.newForm, ha.forms]) ha.npaths
      (by simp [Pilo.newForm])
  · exact { Fr.refl s with forms := by simp [Pilo.newForm] }

theorem Ref.formCls (i : Nat) : Ref (formCls i : M P Nat) (T.formCls i) := by
  intro env τ s ha
  cases h : τ.forms[i]? with
  | none =>
    refine ⟨?_, ?_, ?_⟩ <;> simp only [Pilo.formCls, T.formCls, ha.forms, h]
    · exact ha
    · exact Fr.refl s
  | some o =>
    refine ⟨?_, ?_, ?_⟩ <;> simp only [Pilo.formCls, T.formCls, ha.forms, h]
    · exact ha
    · exact Fr.refl s

theorem Ref.pathText : Ref (pathText I) (T.pathText I) := by
  intro env τ s ha
  have hp := ha.path
  unfold PathAgree at hp
  rcases hτ : τ.path with _ | _ | ⟨r, p⟩
  · simp only [hτ] at hp
    refine ⟨?_, ?_, ?_⟩ <;> simp only [Pilo.pathText, T.pathText, hτ, hp]
    · exact ha
    · exact Fr.refl s
  · simp only [hτ] at hp
    refine ⟨?_, ?_, ?_⟩ <;> simp only [Pilo.pathText, T.pathText, hτ, hp]
    · exact ha
    · exact Fr.refl s
  · simp only [hτ] at hp
    obtain ⟨h1, h2⟩ := hp
    cases hr : I.render p with
    | ok x =>
      refine ⟨?_, ?_, ?_⟩ <;> simp only [Pilo.pathText, T.pathText, hτ, h1, h2, hr]
      · exact ha
      · exact Fr.refl s
    | error x =>
      refine ⟨?_, ?_, ?_⟩ <;> simp only [Pilo.pathText, T.pathText, hτ, h1, h2, hr]
      · exact ha
      · exact Fr.refl s

/-- Changing the current error list. -/
theorem Agree.extend {env : Env} {τ : TSt P} {s : St P} (ha : Agree env τ s) {e : Nat} {b : ErrBuf}
    (he : lookup Frame.errors s.stack = some e) (hb : s.errs[e]? = some b) (es : List Err) :
    Agree env { τ with errs := some { b with items := b.items ++ es } }
      { s with errs := s.errs.modify e fun b => { b with items := b.items ++ es } } ∧
    Fr s { s with errs := s.errs.modify e fun b => { b with items := b.items ++ es } } := by
  refine ⟨ha.back rfl ha.path ⟨e, he, ?_⟩ ha.forms ha.npaths (Nat.le_refl _),
    { Fr.refl s with elen := by simp, errs := ?_ }⟩
  · simp only [List.getElem?_modify, hb]; simp
  · intro i hi hne
    have : e ≠ i := by intro h; subst h; exact hne he
    simp [this]

theorem ctxGet_state (proj : Frame → Option α) (name : String) (s : St P) :
    (ctxGet proj name s).2 = s := by
  unfold Pilo.ctxGet; split <;> rfl

theorem T.ctxGet_state (proj : Env → Option α) (name : String) (env : Env) (τ : TSt P) :
    (T.ctxGet proj name env τ).2 = τ := by
  unfold T.ctxGet; split <;> rfl

theorem pathText_state (s : St P) : (pathText I s).2 = s := by
  unfold Pilo.pathText; repeat' split
  all_goals rfl

theorem T.pathText_state (env : Env) (τ : TSt P) : (T.pathText I env τ).2 = τ := by
  unfold T.pathText; repeat' split
  all_goals rfl

theorem Ref.report (k : ErrKind) : Ref (report I k) (T.report I k) := by
  intro env τ s ha
  have he := ha.errs
  unfold ErrAgree at he
  cases hτ : τ.errs with
  | none =>
    simp only [hτ] at he
    have h1 : Pilo.ctxGet Frame.errors "errors" s = (.error (noCtxAttr "errors"), s) := by
      simp only [Pilo.ctxGet, he]
    have h2 : T.errsBound env τ = (.error (noCtxAttr "errors"), τ) := by
      simp only [T.errsBound, hτ]
    unfold Pilo.report T.report
    refine ⟨?_, ?_, ?_⟩ <;> simp only [M.bind_error h1, T.bind_error h2]
    · exact ha
    · exact Fr.refl s
  | some b =>
    simp only [hτ] at he
    obtain ⟨e, h1, hb⟩ := he
    have h1' : Pilo.ctxGet Frame.errors "errors" s = (.ok e, s) := ctxGet_ok h1
    have h2 : T.errsBound env τ = (.ok (), τ) := by simp only [T.errsBound, hτ]
    suffices h : RefAt (Pilo.ctxGet Frame.field "field" >>= fun field => Pilo.pathText I >>= fun x =>
        errCall e { kind := k, path := x.1, field := field, pathRef := x.2 })
        (T.ctxGet Env.field "field" >>= fun field => T.pathText I >>= fun x =>
        T.record { kind := k, path := x.1, field := field, pathRef := x.2 }) env τ s by
      unfold Pilo.report T.report
      obtain ⟨h3, h4, h5⟩ := h
      refine ⟨?_, ?_, ?_⟩
      · rw [M.bind_ok h1', T.bind_ok h2]; exact h3
      · rw [M.bind_ok h1', T.bind_ok h2]; exact h4
      · rw [M.bind_ok h1']; exact h5
    refine (Ref.ctxGet (fun _ _ _ h => h.field) "field" env τ s ha).bind ?_
    intro fld s' τ' hs' hτ' ha' _
    refine (Ref.pathText env τ' s' ha').bind ?_
    intro x s'' τ'' hs'' hτ'' ha'' _
    have e1 : s' = s := by have := ctxGet_state Frame.field "field" s; rw [hs'] at this; exact this
    have e2 : τ' = τ := by
      have := T.ctxGet_state Env.field "field" env τ; rw [hτ'] at this; exact this
    subst e1 e2
    have e1 : s'' = s' := by have := pathText_state (I := I) s'; rw [hs''] at this; exact this
    have e2 : τ'' = τ' := by have := T.pathText_state (I := I) env τ'; rw [hτ''] at this; exact this
    subst e1 e2
    generalize hx : ({ kind := k, path := x.1, field := fld, pathRef := x.2 } : Err) = er
    obtain ⟨h3, h4⟩ := ha''.extend h1 hb [er]
    have hM : errCall e er s'' = ((if b.raising then .error (.formError (b.items ++ [er])) else .ok ()),
        { s'' with errs := s''.errs.modify e fun b => { b with items := b.items ++ [er] } }) := by
      unfold errCall
      rw [M.bind_ok (m := errExtend e [er]) rfl]
      rw [M.bind_ok (m := M.get) rfl]
      simp only [List.getElem?_modify, hb, if_true, Option.map_eq_map, Option.map_some]
      cases b.raising <;> rfl
    have hT : T.record er env τ'' = ((if b.raising then .error (.formError (b.items ++ [er])) else .ok ()),
        { τ'' with errs := some { b with items := b.items ++ [er] } }) := by
      simp only [T.record, hτ]
    refine ⟨?_, ?_, ?_⟩ <;> simp only [hM, hT]
    · exact h3
    · exact h4

/-! ## One step of a refinement proof -/

theorem Ref.ctxForm : Ref (Pilo.ctxGet Frame.form "form" : M P Nat) (T.ctxGet Env.form "form") :=
  Ref.ctxGet (fun _ _ _ h => h.form) _
theorem Ref.ctxForm? : Ref (Pilo.ctxGet? Frame.form : M P _) (T.ctxGet? Env.form) :=
  Ref.ctxGet? (fun _ _ _ h => h.form)
theorem Ref.ctxParent? : Ref (Pilo.ctxGet? Frame.parent : M P _) (T.ctxGet? Env.parent) :=
  Ref.ctxGet? (fun _ _ _ h => h.parent)
theorem Ref.ctxTags? : Ref (Pilo.ctxGet? Frame.tags : M P _) (T.ctxGet? Env.tags) :=
  Ref.ctxGet? (fun _ _ _ h => h.tags)
theorem Ref.ctxSrc : Ref (Pilo.ctxGet (fun f : Frame => f.src.src?) "src" : M P _) (T.ctxGet Env.src "src") :=
  Ref.ctxGet (fun _ _ _ h => h.src) _
theorem Ref.ctxIgnoreDefault (n : String) :
    Ref (Pilo.ctxGet Frame.ignoreDefault n : M P _) (T.ctxGet Env.ignoreDefault n) :=
  Ref.ctxGet (fun _ _ _ h => h.ignoreDefault) _
theorem Ref.ctxIgnoreMissing (n : String) :
    Ref (Pilo.ctxGet Frame.ignoreMissing n : M P _) (T.ctxGet Env.ignoreMissing n) :=
  Ref.ctxGet (fun _ _ _ h => h.ignoreMissing) _
theorem Ref.readPath (f : P → Except Exc α × P) : Ref (readPath f) (T.onPath f) := Ref.onPath f

theorem Ref.invalid (m : String) : Ref (invalid I m) (Lex.invalid I m) := Ref.report _
theorem Ref.missing : Ref (missing I) (Lex.missing I) := Ref.report _

theorem Ref.ite {c : Prop} [Decidable c] {m m' : M P α} {t t' : T P α} (h : c → Ref m t)
    (h' : ¬ c → Ref m' t') : Ref (if c then m else m') (if c then t else t') := by
  split
  · exact h ‹_›
  · exact h' ‹_›

/-- One step of a refinement proof. -/
macro "ref_step" : tactic => `(tactic| with_reducible first
  | assumption
  | exact Ref.pure _ | exact Ref.raise _ | exact Ref.ofExcept _
  | exact Ref.ctxForm | exact Ref.ctxForm? | exact Ref.ctxParent? | exact Ref.ctxTags?
  | exact Ref.ctxSrc | exact Ref.ctxIgnoreDefault _ | exact Ref.ctxIgnoreMissing _
  | exact Ref.newForm _ | exact Ref.formModify _ _ | exact Ref.formSet _ _ _
  | exact Ref.formDel _ _ | exact Ref.formItems _ | exact Ref.formCls _
  | exact Ref.readPath _ | exact Ref.onPath _ | exact Ref.invalid _ | exact Ref.missing
  | refine Ref.key ?_ | refine Ref.reset ?_ | refine Ref.source ?_
  | refine Ref.tryCatch ?_ ?_
  | refine Ref.bind ?_ ?_
  | refine Ref.bind' ?_ ?_
  | refine Ref.ite ?_ ?_
  | intro _
  | (split <;> (try simp only [*]))
  | dsimp only)

macro "refs" : tactic => `(tactic| repeat' ref_step)

macro "refs" "[" ts:term,* "]" : tactic => do
  let ts := ts.getElems
  `(tactic| repeat' first $[| with_reducible apply $ts]* | ref_step)

theorem Ref.missingNotSet : Ref (missingNotSet I) (Lex.missingNotSet I) := by
  unfold Pilo.missingNotSet Lex.missingNotSet; refs

theorem Ref.rejectWith (m : String) : Ref (rejectWith I m) (Lex.rejectWith I m) := by
  unfold Pilo.rejectWith Lex.rejectWith; refs

theorem Ref.failWith (m : String) : Ref (failWith I m) (Lex.failWith I m) := by
  unfold Pilo.failWith Lex.failWith; refs

macro_rules | `(tactic| ref_step) => `(tactic| exact Ref.rejectWith _)
macro_rules | `(tactic| ref_step) => `(tactic| exact Ref.failWith _)

theorem Ref.baseValidate (f : Field) (v : Val) : Ref (baseValidate I f v) (Lex.baseValidate I f v) := by
  unfold Pilo.baseValidate Lex.baseValidate; refs

theorem Ref.stringValidate (f : Field) (c : StrCfg) (v : Val) :
    Ref (stringValidate I L f c v) (Lex.stringValidate I L f c v) := by
  unfold Pilo.stringValidate Lex.stringValidate; refs

theorem Ref.rangeValidate (lo hi : Option Val) (a b : Val → Val → String) (v : Val) :
    Ref (rangeValidate I L lo hi a b v) (Lex.rangeValidate I L lo hi a b v) := by
  unfold Pilo.rangeValidate Lex.rangeValidate; refs

theorem Ref.listValidate (lo hi : Option Nat) (v : Val) :
    Ref (listValidate I lo hi v) (Lex.listValidate I lo hi v) := by
  unfold Pilo.listValidate Lex.listValidate; refs

theorem Ref.dictValidate (req : Required) (mx : Option Nat) (v : Val) :
    Ref (dictValidate I L req mx v) (Lex.dictValidate I L req mx v) := by
  unfold Pilo.dictValidate Lex.dictValidate; refs

theorem Ref.kindValidate (f : Field) (v : Val) :
    Ref (kindValidate I L f v) (Lex.kindValidate I L f v) := by
  unfold Pilo.kindValidate Lex.kindValidate
  refine Ref.bind (Ref.baseValidate f v) fun ok => ?_
  refine Ref.ite (fun _ => Ref.pure _) fun _ => Ref.ite (fun _ => Ref.pure _) fun _ => ?_
  cases f.kind <;> first
    | exact Ref.stringValidate _ _ _
    | exact Ref.rangeValidate _ _ _ _ _
    | exact Ref.listValidate _ _ _
    | exact Ref.dictValidate _ _ _
    | exact Ref.pure _

theorem Ref.decimalParse : Ref (decimalParse I L) (Lex.decimalParse I L) := by
  unfold Pilo.decimalParse Lex.decimalParse; refs

theorem Ref.dateParse (c : DateCfg) : Ref (dateParse I L c) (Lex.dateParse I L c) := by
  unfold Pilo.dateParse Lex.dateParse; refs

theorem Ref.timeParse (c : DateCfg) : Ref (timeParse I L c) (Lex.timeParse I L c) := by
  unfold Pilo.timeParse Lex.timeParse; refs

theorem Ref.datetimeParse (c : DateCfg) : Ref (datetimeParse I L c) (Lex.datetimeParse I L c) := by
  unfold Pilo.datetimeParse Lex.datetimeParse; refs

theorem Ref.codeParse : Ref (codeParse I L) (Lex.codeParse I L) := by
  unfold Pilo.codeParse Lex.codeParse; refs

theorem Ref.uuidParse : Ref (uuidParse I L) (Lex.uuidParse I L) := by
  unfold Pilo.uuidParse Lex.uuidParse; refs

theorem Ref.iterKeys (kv : KeysView) : Ref (iterKeys kv : M P _) (Lex.iterKeys kv) := by
  unfold Pilo.iterKeys Lex.iterKeys; refs

theorem Ref.pathHasSrc : Ref (pathHasSrc I) (Lex.pathHasSrc I) := by
  unfold Pilo.pathHasSrc Lex.pathHasSrc Pilo.readPath; exact Ref.onPath _

theorem Ref.seqTry : Ref (seqTry I) (Lex.seqTry I) := by
  unfold Pilo.seqTry Lex.seqTry; refs [Ref.pathHasSrc]

theorem Ref.probeSrc : Ref (probeSrc I) (Lex.probeSrc I) := by
  unfold Pilo.probeSrc Lex.probeSrc
  exact Ref.bind (Ref.readPath _) fun v => Ref.readPath _

theorem Ref.hookTarget {γ : Type} (h : Hook γ) : Ref (hookTarget h : M P Val) (Lex.hookTarget h) := by
  unfold Pilo.hookTarget Lex.hookTarget; refs

theorem Ref.asForm (v : Val) : Ref (asForm v : M P Nat) (Lex.asForm v) := by
  unfold Pilo.asForm Lex.asForm; cases v <;> refs

/-! ## The recursion -/

/-- Recursive calls refine. -/
def RecRef (rec : Rec P) (trec : TRec P) : Prop := ∀ f v, f.All LexNode → Ref (rec f v) (trec f v)

variable {rec : Rec P} {trec : TRec P}

theorem Ref.formReset (id : Nat) (tags : List String) (fs : List Field) :
    Ref (formReset id tags fs : M P Unit) (Lex.formReset id tags fs) := by
  induction fs with
  | nil => exact Ref.pure _
  | cons f fs ih => unfold Pilo.formReset Lex.formReset; refs

theorem lexNode_plain (c : FieldCore) (k : Kind) (hd : c.default = .unset) (hr : c.resolve = none)
    (hc : c.compute = none) (hp : c.parse = none) (hm : c.munge = none) (hf : c.filter = none)
    (hv : c.validate = none) (hk : ∀ kf vf h r m, k = .dict kf vf (some h) r m → h.Lex1) :
    LexNode (.mk c k) where
  default := by simp [Field.core, hd, Default.Lex]
  resolve h e := by simp [Field.core, hr] at e
  compute h e := by simp [Field.core, hc] at e
  parse h e := by simp [Field.core, hp] at e
  munge h e := by simp [Field.core, hm] at e
  filter h e := by simp [Field.core, hf] at e
  validate h e := by simp [Field.core, hv] at e
  keyFilter kf vf h r m e := hk kf vf h r m e

theorem captureKey_lex : captureKeyField.All LexNode :=
  .mk (lexNode_plain _ _ rfl rfl rfl rfl rfl rfl rfl (by intro _ _ _ _ _ h; cases h)) .string

theorem captureValue_lex : captureValueField.All LexNode :=
  .mk (lexNode_plain _ _ rfl rfl rfl rfl rfl rfl rfl (by intro _ _ _ _ _ h; cases h)) .base

theorem unmappedField_lex (id : Nat) {kf vf : Field} (hk : kf.All LexNode) (hv : vf.All LexNode) :
    (unmappedField id kf vf).All LexNode := by
  refine .mk (lexNode_plain _ _ rfl rfl rfl rfl rfl rfl rfl ?_) (.dict hk hv)
  intro _ _ h _ _ e
  cases e
  intro self v
  exact ⟨trivial, fun _ => trivial⟩

theorem Ref.unmappedGo (hr : RecRef rec trec) (id : Nat) {kf vf : Field} (hk : kf.All LexNode)
    (hv : vf.All LexNode) : Ref (do
      match ← rec (unmappedField id kf vf) .NONE with
      | .none => M.pure ()
      | .dict kvs => Pilo.formModify id (dictUpdate · kvs)
      | _ => M.raise (.typeError "'_Constant' object is not iterable") : M P Unit)
    (Lex.unmappedGo trec id kf vf) := by
  unfold Lex.unmappedGo
  refine Ref.bind (hr _ _ (unmappedField_lex id hk hv)) fun v => ?_
  cases v <;> refs

theorem Ref.applyUnmapped (hr : RecRef rec trec) (id : Nat) {u : Unmapped} (hu : u.All LexNode) :
    Ref (applyUnmapped rec id u) (Lex.applyUnmapped trec id u) := by
  unfold Pilo.applyUnmapped Lex.applyUnmapped
  cases hu with
  | @str u =>
    cases u with
    | none => exact Ref.pure _
    | ignore => exact Ref.pure _
    | capture => exact Ref.unmappedGo hr id captureKey_lex captureValue_lex
    | bad => exact Ref.raise _
  | value h => exact Ref.unmappedGo hr id captureKey_lex h
  | pair hk hv => exact Ref.unmappedGo hr id hk hv

theorem Ref.mapFields (hr : RecRef rec trec) (id : Nat) (tags : List String) (fs : List Field)
    (hfs : ∀ f ∈ fs, f.All LexNode) : Ref (mapFields rec id tags fs) (Lex.mapFields trec id tags fs) := by
  induction fs with
  | nil => exact Ref.pure _
  | cons f fs ih =>
    unfold Pilo.mapFields Lex.mapFields Pilo.mapOne Lex.mapOne
    have h1 := hr f .NONE (hfs f (by simp))
    have h2 := ih fun g hg => hfs g (by simp [hg])
    refs

theorem Ref.formMapBody (hC : C.All LexNode) (hr : RecRef rec trec) (id : Nat) (tags : List String)
    {u : Unmapped} (hu : u.All LexNode) :
    Ref (formMapBody I C rec id tags u) (Lex.formMapBody I C trec id tags u) := by
  unfold Pilo.formMapBody Lex.formMapBody
  refine Ref.bind (Ref.readPath _) fun _ => ?_
  intro env τ s ha
  refine (Ref.formCls id env τ s ha).bind ?_
  intro cls s' τ' hs' _ ha' _
  have hid : id < s'.forms.length := by
    unfold Pilo.formCls at hs'
    split at hs'
    · rename_i h
      cases hs'
      exact (List.getElem?_eq_some_iff.1 h).1
    · cases hs'
  refine RefAt.bind ?_ fun _ s'' τ'' _ _ ha'' _ => Ref.applyUnmapped hr id hu env τ'' s'' ha''
  refine RefAt.vars (Ref.mapFields hr id tags _ (hC cls)) rfl (fun _ => rfl) ?_ ha'
  intro i hi
  cases hi
  exact hid

theorem newErrs_run (b : Bool) (k : Nat → M P α) (s : St P) :
    (newErrs b >>= k) s = k s.errs.length { s with errs := s.errs ++ [⟨b, []⟩] } := rfl

theorem RefE.nestedMap (hC : C.All LexNode) (hr : RecRef rec trec) (id : Nat) (tags : List String)
    {u : Unmapped} (hu : u.All LexNode) (raising : Bool) :
    RefE (nestedMap I C rec id tags u raising) (Lex.nestedMap I C trec id tags u raising) := by
  intro env τ s ha
  obtain ⟨r, s', τ', hm, ht, ha', hfr⟩ := errs_vars (I := I) (raising := raising)
    (Ref.formMapBody (I := I) hC hr id tags hu) ha
  rw [newErrs_run] at hm
  unfold Pilo.nestedMap Lex.nestedMap
  cases r with
  | error x =>
    dsimp only at ht
    refine ⟨?_, ?_, ?_⟩ <;> rw [newErrs_run, M.bind_error hm]
    · rw [T.bind_error ht]
    · rw [T.bind_error ht]; exact ha'
    · exact hfr
  | ok a =>
    dsimp only at ht
    have he := ha'.errs
    unfold ErrAgree at he
    cases hτ : τ'.errs with
    | none =>
      simp only [hτ] at he
      have h1 : Pilo.ctxGet Frame.errors "errors" s' = (.error (noCtxAttr "errors"), s') := by
        simp only [Pilo.ctxGet, he]
      have h2 : ∀ es, T.extend es env τ' = (.error (noCtxAttr "errors"), τ') := by
        intro es; simp only [T.extend, hτ]
      refine ⟨?_, ?_, ?_⟩ <;> rw [newErrs_run, M.bind_ok hm, M.bind_error h1]
      · rw [T.bind_ok ht]; simp only [T.bind_error (h2 _)]
      · rw [T.bind_ok ht]; simp only [T.bind_error (h2 _)]; exact ha'
      · exact hfr
    | some b =>
      simp only [hτ] at he
      obtain ⟨e, h1, hb⟩ := he
      have h1' : Pilo.ctxGet Frame.errors "errors" s' = (.ok e, s') := ctxGet_ok h1
      have hlt : e < s.errs.length := by
        have := ha.errs
        rw [hfr.stack] at h1
        unfold ErrAgree at this
        split at this
        · rw [this] at h1; cases h1
        · obtain ⟨e', h2, h3⟩ := this
          rw [h2] at h1; cases h1
          exact (List.getElem?_eq_some_iff.1 h3).1
      generalize hes : (s'.errs[s.errs.length]?).elim [] ErrBuf.items = es at ht
      obtain ⟨h3, h4⟩ := ha'.extend h1 hb es
      have h5 : errItems s.errs.length s' = (.ok es, s') := by unfold errItems; rw [hes]
      have hT : T.extend es env τ' = (.ok (), { τ' with errs := some { b with items := b.items ++ es } }) := by
        simp only [T.extend, hτ]
      have hM : errExtend e es s' = (.ok (),
          { s' with errs := s'.errs.modify e fun b => { b with items := b.items ++ es } }) := rfl
      have hne : e ≠ s.errs.length := Nat.ne_of_lt hlt
      refine ⟨?_, ?_, ?_⟩ <;>
        rw [newErrs_run, M.bind_ok hm, M.bind_ok h1', M.bind_ok h5, M.bind_ok hM]
      · rw [T.bind_ok ht]
        simp only [T.bind_ok hT]
        simp only [M.pure, T.pure, List.getElem?_modify, hne, if_false, Option.map_eq_map, Option.map_id_fun', _root_.id]
        exact hes
      · rw [T.bind_ok ht]
        simp only [T.bind_ok hT]
        exact h3
      · exact hfr.trans h4

theorem Ref.rootSource (id : Nat) (src : SrcArg P) :
    Ref (rootSource I C id src) (Lex.rootSource I C id src) := by
  unfold Pilo.rootSource Lex.rootSource
  cases src with
  | none => exact Ref.pure _
  | source mk => exact Ref.pure _
  | data v => cases v <;> refs

theorem RefE.rootMap (hC : C.All LexNode) (hr : RecRef rec trec) (id : Nat) (src : SrcArg P)
    (tags : List String) {u : Unmapped} (hu : u.All LexNode) (raising : Bool) :
    RefE (rootMap I C rec id src tags u raising) (Lex.rootMap I C trec id src tags u raising) := by
  unfold Pilo.rootMap Lex.rootMap
  refine RefE.bind (Ref.rootSource id src) fun mk => ?_
  intro env τ s ha
  obtain ⟨r, s', τ', hm, ht, ha', hfr⟩ := errs_source (I := I) (raising := raising) (mk := mk)
    (f := {}) (g := _root_.id) (Ref.formMapBody (I := I) hC hr id tags hu) ha (fun _ => rfl) (by simp)
  rw [newErrs_run] at hm
  have ht : T.withErrs raising (T.withSource mk (Lex.formMapBody I C trec id tags u)) env τ = _ := ht
  cases r with
  | error x =>
    dsimp only at ht
    refine ⟨?_, ?_, ?_⟩ <;> rw [newErrs_run, M.bind_error hm]
    · rw [T.bind_error ht]
    · rw [T.bind_error ht]; exact ha'
    · exact hfr
  | ok a =>
    dsimp only at ht
    refine ⟨?_, ?_, ?_⟩ <;> rw [newErrs_run, M.bind_ok hm]
    · rw [T.bind_ok ht]; rfl
    · rw [T.bind_ok ht]; exact ha'
    · exact hfr

/-- `Form.map`. -/
theorem RefE.formMap (hC : C.All LexNode) (hr : RecRef rec trec) (id : Nat) (src : SrcArg P)
    (tags : List String) (reset : Bool) {u : Unmapped} (hu : u.All LexNode) (raising : Bool) :
    RefE (formMap I C rec id src tags reset u raising)
      (Lex.formMap I C trec id src tags reset u raising) := by
  unfold Pilo.formMap Lex.formMap
  refine RefE.bind Ref.ctxTags? fun ct => ?_
  refine RefE.bind ?_ fun _ => ?_
  · unfold Pilo.formResetIf Lex.formResetIf
    have h := fun tags fs => Ref.formReset (P := P) id tags fs
    refs [h]
  refine RefE.bind Ref.ctxSrc fun cs => ?_
  have hat : RefE (formMapAt I C rec id src (pickTags tags ct) u raising cs)
      (Lex.formMapAt I C trec id src (pickTags tags ct) u raising cs) := by
    unfold Pilo.formMapAt Lex.formMapAt
    split
    · split
      · exact RefE.nestedMap hC hr id _ hu raising
      · exact RefE.rootMap hC hr id .none _ hu raising
    · exact RefE.rootMap hC hr id src _ hu raising
  intro env τ s ha
  obtain ⟨hres, ha', hfr⟩ := hat env τ s ha
  rcases hm : formMapAt I C rec id src (pickTags tags ct) u raising cs s with ⟨r, s'⟩
  rcases ht : Lex.formMapAt I C trec id src (pickTags tags ct) u raising cs env τ with ⟨r', τ'⟩
  simp only [hm, ht] at hres ha' hfr
  cases r with
  | error x => cases r' with
    | ok _ => exact hres.elim
    | error y =>
      refine ⟨?_, ?_, ?_⟩ <;> simp only [M.bind_error hm, T.bind_error ht]
      · exact hres
      · exact ha'
      · exact hfr
  | ok e => cases r' with
    | error _ => exact hres.elim
    | ok es =>
      dsimp only at hres
      have hi : errItems e s' = (.ok es, s') := by unfold errItems; rw [hres]
      have hM : formFinish raising e s' = (if raising && !es.isEmpty then .error (.formError es) else .ok e, s') := by
        unfold Pilo.formFinish
        cases raising with
        | false => rfl
        | true =>
          simp only [if_true, M.bind_ok hi]
          cases es <;> rfl
      have hT : Lex.formFinish raising es env τ'
          = (if raising && !es.isEmpty then .error (.formError es) else .ok es, τ') := by
        unfold Lex.formFinish
        cases raising with
        | false => rfl
        | true => cases es <;> rfl
      refine ⟨?_, ?_, ?_⟩ <;> simp only [M.bind_ok hm, T.bind_ok ht, hM, hT]
      · cases raising <;> cases es <;> first | exact hres | rfl
      · exact ha'
      · exact hfr

theorem Ref.getFinish (f : Field) (id : Nat) (v : Val) :
    Ref (getFinish f id v : M P Val) (Lex.getFinish f id v) := by
  unfold Pilo.getFinish Lex.getFinish; refs

/-- Reading a field of a form that no enclosing `map` is working on. -/
theorem RefAt.fieldGet (hr : RecRef rec trec) {f : Field} (hf : f.All LexNode) (id : Nat) {env τ}
    {s : St P} (ha : Agree env τ s) (hid : id < s.forms.length)
    (hno : ∀ fr ∈ s.stack, fr.parent ≠ some (.form id)) :
    RefAt (fieldGet I rec f id) (Lex.fieldGet I trec f id) env τ s := by
  have h1 := hr f .NONE hf
  unfold Pilo.fieldGet Lex.fieldGet
  have hi := ha.forms
  have e1 : Pilo.formItems id s = (.ok ((s.forms[id]?).elim [] FormObj.items), s) := rfl
  have e2 : T.formItems id env τ = (.ok ((s.forms[id]?).elim [] FormObj.items), τ) := by rw [hi]; rfl
  have unf : ∀ {m : M P Val} {t : T P Val}, RefAt m t env τ s →
      ∀ {m' : M P Val} {t' : T P Val}, m' s = m s → t' env τ = t env τ → RefAt m' t' env τ s := by
    intro m t h m' t' hm ht
    exact ⟨by rw [hm, ht]; exact h.res, by rw [hm, ht]; exact h.agree, by rw [hm]; exact h.fr⟩
  refine unf ?_ (M.bind_ok e1) (T.bind_ok e2)
  cases hd : dictGet? ((s.forms[id]?).elim [] FormObj.items) f.key with
  | some v => exact Ref.pure v env τ s ha
  | none =>
    simp only
    have e3 : Pilo.ctxGet? Frame.form s = (.ok env.form, s) := by
      simp only [Pilo.ctxGet?, ha.form]
    have e4 : T.ctxGet? Env.form env τ = (.ok env.form, τ) := rfl
    refine unf ?_ (M.bind_ok e3) (T.bind_ok e4)
    cases env.form with
    | none =>
      simp only
      obtain ⟨r, s', τ', hm, ht, ha', hfr⟩ := errs_source (I := I) (raising := true)
        (mk := .ok (I.native (.dict []) none)) (f := { form := some id, parent := some (.form id) })
        (g := fun env => { env with form := some id, parent := some (.form id) }) h1 ha
        (fun _ => rfl) (by intro i hi; cases hi; exact hid)
      rw [newErrs_run] at hm
      unfold Lex.getEmpty
      cases r with
      | error x =>
        dsimp only at ht
        refine ⟨?_, ?_, ?_⟩ <;> rw [newErrs_run, M.bind_error hm]
        · rw [T.bind_error ht]
        · rw [T.bind_error ht]; exact ha'
        · exact hfr
      | ok a =>
        dsimp only at ht
        obtain ⟨g1, g2, g3⟩ := Ref.getFinish f id a env τ' s' ha'
        refine ⟨?_, ?_, ?_⟩ <;> rw [newErrs_run, M.bind_ok hm]
        · rw [T.bind_ok ht]; exact g1
        · rw [T.bind_ok ht]; exact g2
        · exact hfr.trans g3
    | some g =>
      simp only
      have e5 : Pilo.ctxGet? Frame.parent s = (.ok env.parent, s) := by
        simp only [Pilo.ctxGet?, ha.parent]
      have e6 : T.ctxGet? Env.parent env τ = (.ok env.parent, τ) := rfl
      refine unf ?_ (M.bind_ok e5) (T.bind_ok e6)
      by_cases hpar : env.parent = some (.form id)
      · rw [if_pos hpar, if_pos hpar]
        exact (h1 env τ s ha).bind fun a s' τ' _ _ ha' _ => Ref.getFinish f id a env τ' s' ha'
      · rw [if_neg hpar, if_neg hpar]
        have hrw : withRewind I (isFormFrame id) (rec f .NONE) s = (.error .rewindDidNotStop, s) := by
          have : rewind I (isFormFrame id) s = (.error .rewindDidNotStop, s) := by
            unfold Pilo.rewind
            have : s.stack.findIdx? (isFormFrame id) = none := by
              rw [List.findIdx?_eq_none_iff]
              intro fr hfr
              unfold isFormFrame
              exact beq_eq_false_iff_ne.2 (hno fr hfr)
            rw [this]
          unfold withRewind
          rw [M.bind_error this]
        have hcatch : ∀ h : Exc → M P Val, M.tryCatch (withRewind I (isFormFrame id) (rec f .NONE)) h s
            = h .rewindDidNotStop s := by
          intro h; unfold M.tryCatch; rw [hrw]
        refine unf (m := do
            let v ← withPush I (pushSource (.ok (I.native (.dict []) none))
              { form := some id, parent := some (.form id) }) (rec f .NONE)
            Pilo.getFinish f id v) ?_ (hcatch _) rfl
        unfold Lex.getEmpty
        refine (RefAt.source (f := { form := some id, parent := some (.form id) })
          (g := fun env => { env with form := some id, parent := some (.form id) }) h1 (fun _ => rfl) rfl
          (by intro i hi; cases hi; exact hid) ha).bind
          fun a s' τ' _ _ ha' _ => Ref.getFinish f id a env τ' s' ha'

theorem Ref.evalProg (hC : C.All LexNode) (hr : RecRef rec trec) (p : Prog) (hp : p.Lex) :
    Ref (evalProg I L C rec p) (Lex.evalProg I L C trec p) := by
  have ha := fun v => Ref.asForm (P := P) v
  induction p with
  | bind p k ih1 ih2 => exact Ref.bind' (ih1 hp.1) fun v => ih2 v (hp.2 v)
  | tryCatch p h ih1 ih2 => exact Ref.tryCatch (ih1 hp.1) fun v => ih2 v (hp.2 v)
  | getattr v name =>
    cases v with
    | form id => exact absurd rfl (hp id)
    | _ => unfold Pilo.evalProg Lex.evalProg; refs
  | withVars v p ih =>
    unfold Pilo.evalProg Lex.evalProg
    exact Ref.vars (ih hp) rfl (fun _ => rfl) (by intro id h; cases h)
  | withKey k p ih => exact Ref.key (ih hp)
  | withData k p ih => exact Ref.source (ih hp)
  | withReset p ih => exact Ref.reset (ih hp)
  | withErrors raising p ih =>
    unfold Pilo.evalProg Lex.evalProg
    intro env τ s hag
    obtain ⟨r, s', τ', hm, ht, ha', hfr⟩ := errs_vars (I := I) (raising := raising) (ih hp) hag
    cases r with
    | error x =>
      dsimp only at ht
      refine ⟨?_, ?_, ?_⟩
      · rw [T.bind_error ht, hm]
      · rw [T.bind_error ht, hm]; exact ha'
      · rw [hm]; exact hfr
    | ok a =>
      dsimp only at ht
      refine ⟨?_, ?_, ?_⟩
      · rw [T.bind_ok ht, hm]; rfl
      · rw [T.bind_ok ht, hm]; exact ha'
      · rw [hm]; exact hfr
  | mapForm form src tags reset u raising =>
    unfold Pilo.evalProg Lex.evalProg
    refine Ref.bind (ha _) fun id => ?_
    exact RefE.items (RefE.formMap hC hr id (.data src) tags reset (u := .str u) .str raising)
      fun es => Ref.pure _
  | mapField cls i v =>
    unfold Pilo.evalProg Lex.evalProg
    cases hi : (C cls).fields[i]? with
    | none => exact Ref.raise _
    | some f => exact hr f v (hC cls f (List.mem_of_getElem? hi))
  | ret v => exact Ref.pure _
  | raise e => exact Ref.raise _
  | ctxForm => exact Ref.bind Ref.ctxForm fun _ => Ref.pure _
  | setItem form k v =>
    exact Ref.bind (ha form) fun id => Ref.bind (Ref.formSet id k v) fun _ => Ref.pure _
  | delItem form k =>
    exact Ref.bind (ha form) fun id => Ref.bind (Ref.formItems id) fun items =>
      Ref.ite (fun _ => Ref.bind (Ref.formDel id k) fun _ => Ref.pure _) fun _ => Ref.raise _
  | hasItem form k =>
    exact Ref.bind (ha form) fun id => Ref.bind (Ref.formItems id) fun items =>
      Ref.ite (fun _ => Ref.pure _) fun _ => Ref.raise _
  | invalid msg => exact Ref.bind (Ref.invalid msg) fun _ => Ref.pure _
  | missing => exact Ref.bind Ref.missing fun _ => Ref.pure _
  | pathExists => exact Ref.bind (Ref.readPath _) fun _ => Ref.pure _
  | pathIsNull => exact Ref.bind (Ref.readPath _) fun _ => Ref.pure _
  | pathValue => exact Ref.readPath _
  | pathPrimitive ty => exact Ref.readPath _
  | pathSequence => exact Ref.bind (Ref.readPath _) fun _ => Ref.pure _
  | pathMapping =>
    refine Ref.bind (Ref.readPath _) fun kv => ?_
    cases kv with
    | none => exact Ref.pure _
    | some kv =>
      dsimp only
      cases kv.iterErr with
      | none => exact Ref.pure _
      | some e => exact Ref.raise _
  | newForm cls => exact Ref.bind (Ref.newForm cls) fun _ => Ref.pure _

theorem Ref.callHook (hC : C.All LexNode) (hr : RecRef rec trec) {h : Hook Prog} (hh : h.Lex) :
    Ref (callHook I L C rec h) (Lex.callHook I L C trec h) :=
  Ref.bind (Ref.hookTarget h) fun t => Ref.evalProg hC hr _ (hh t)

theorem Ref.callHook1 (hC : C.All LexNode) (hr : RecRef rec trec) {h : Hook (Val → Prog)} (hh : h.Lex1)
    (v : Val) : Ref (callHook1 I L C rec h v) (Lex.callHook1 I L C trec h v) :=
  Ref.bind (Ref.hookTarget h) fun t => Ref.evalProg hC hr _ (hh t v)

theorem Ref.fieldDefault (hC : C.All LexNode) (hr : RecRef rec trec) {f : Field} (hf : LexNode f) :
    Ref (fieldDefault I L C rec f) (Lex.fieldDefault I L C trec f) := by
  unfold Pilo.fieldDefault Lex.fieldDefault
  refine Ref.bind (Ref.ctxIgnoreDefault _) fun ig => ?_
  refine Ref.ite (fun _ => Ref.missingNotSet) fun _ => ?_
  have hd := hf.default
  cases hdef : f.core.default with
  | unset => exact Ref.missingNotSet
  | hook h => rw [hdef] at hd; exact Ref.callHook hC hr hd
  | callable p => rw [hdef] at hd; exact Ref.evalProg hC hr p hd
  | value v =>
    cases v with
    | const c => cases c <;> first | exact Ref.missingNotSet | exact Ref.pure _
    | func i => exact Ref.ofExcept _
    | _ => exact Ref.pure _

theorem Ref.tupleLoop (hr : RecRef rec trec) (fs : List Field) (hfs : ∀ f ∈ fs, f.All LexNode) :
    ∀ i, Ref (tupleLoop I rec i fs) (Lex.tupleLoop I trec i fs) := by
  induction fs with
  | nil => intro i; exact Ref.pure _
  | cons f fs ih =>
    intro i
    have h1 := hr f .NONE (hfs f (by simp))
    have h2 := ih (fun g hg => hfs g (by simp [hg])) (i + 1)
    unfold Pilo.tupleLoop Lex.tupleLoop
    refs

theorem Ref.tupleParse (hr : RecRef rec trec) (fs : List Field) (hfs : ∀ f ∈ fs, f.All LexNode) :
    Ref (tupleParse I rec fs) (Lex.tupleParse I trec fs) := by
  have h1 := Ref.tupleLoop (I := I) hr fs hfs 0
  unfold Pilo.tupleParse Lex.tupleParse
  refs

theorem Ref.listLoop (hr : RecRef rec trec) {f : Field} (hf : f.All LexNode) (n : Nat) :
    ∀ i, Ref (listLoop I rec f i n) (Lex.listLoop I trec f i n) := by
  induction n with
  | zero => intro i; exact Ref.pure _
  | succ n ih =>
    intro i
    have h1 := hr f .NONE hf
    have h2 := ih (i + 1)
    unfold Pilo.listLoop Lex.listLoop
    refs

theorem Ref.listParse (hr : RecRef rec trec) {f : Field} (hf : f.All LexNode) (allow : Bool) :
    Ref (listParse I rec f allow) (Lex.listParse I trec f allow) := by
  have h1 := fun n => Ref.listLoop (I := I) hr hf n 0
  have h2 := hr f .NONE hf
  unfold Pilo.listParse Lex.listParse
  refs [h1, Ref.seqTry]

theorem Ref.keepKey (hC : C.All LexNode) (hr : RecRef rec trec) {kfl : Option (Hook (Val → Prog))}
    (hk : ∀ h, kfl = some h → h.Lex1) (k : Val) :
    Ref (keepKey I L C rec kfl k) (Lex.keepKey I L C trec kfl k) := by
  unfold Pilo.keepKey Lex.keepKey
  cases kfl with
  | none => exact Ref.pure _
  | some h => exact Ref.bind (Ref.callHook1 hC hr (hk h rfl) k) fun v => Ref.pure _

theorem Ref.dictLoop (hC : C.All LexNode) (hr : RecRef rec trec) {kf vf : Field}
    (hkf : kf.All LexNode) (hvf : vf.All LexNode) {kfl : Option (Hook (Val → Prog))}
    (hk : ∀ h, kfl = some h → h.Lex1) (ks : List Val) :
    ∀ acc, Ref (dictLoop I L C rec kf vf kfl ks acc) (Lex.dictLoop I L C trec kf vf kfl ks acc) := by
  induction ks with
  | nil => intro acc; exact Ref.pure _
  | cons k ks ih =>
    intro acc
    have h1 := Ref.keepKey (I := I) (L := L) hC hr hk k
    have h2 := hr vf .NONE hvf
    have h3 := hr kf k hkf
    unfold Pilo.dictLoop Lex.dictLoop
    refs [ih]

theorem Ref.dictParse (hC : C.All LexNode) (hr : RecRef rec trec) {f kf vf : Field} (hf : LexNode f)
    (hkf : kf.All LexNode) (hvf : vf.All LexNode) {kfl : Option (Hook (Val → Prog))}
    (hk : ∀ h, kfl = some h → h.Lex1) :
    Ref (dictParse I L C rec f kf vf kfl) (Lex.dictParse I L C trec f kf vf kfl) := by
  have h1 := Ref.fieldDefault (I := I) (L := L) hC hr hf
  have h2 := fun kv => Ref.iterKeys (P := P) kv
  have h3 := fun ks => Ref.dictLoop (I := I) (L := L) hC hr hkf hvf hk ks []
  unfold Pilo.dictParse Lex.dictParse
  refs [h2, h3]

theorem Ref.subParse (hC : C.All LexNode) (hr : RecRef rec trec) (cls : Nat) (reset : Bool)
    {u : Unmapped} (hu : u.All LexNode) :
    Ref (subParse I C rec cls reset u) (Lex.subParse I C trec cls reset u) := by
  unfold Pilo.subParse Lex.subParse
  refine Ref.bind (Ref.newForm cls) fun id => ?_
  exact RefE.items (RefE.formMap hC hr id .none [] reset hu false) fun es => Ref.pure _

theorem Ref.probe (hC : C.All LexNode) (hr : RecRef rec trec) {tf : Field} (hf : tf.All LexNode)
    (pc : Nat) (src : SrcArg P) : Ref (probe I C rec tf pc src) (Lex.probe I C trec tf pc src) := by
  unfold Pilo.probe Lex.probe
  intro env τ s ha
  refine (Ref.newForm pc env τ s ha).bind ?_
  intro id s1 τ1 hs1 _ ha1 hfr1
  have hids : s1.forms = s.forms ++ [{ cls := pc, items := [] }] ∧ id = s.forms.length := by
    unfold Pilo.newForm at hs1
    simp only [Prod.mk.injEq, Except.ok.injEq] at hs1
    exact ⟨by rw [← hs1.2], hs1.1.symm⟩
  refine (RefE.formMap hC hr id src [] false (u := .str .ignore) .str false env τ1 s1 ha1).items
    (f := fun _ es => match es with
      | [] => Pilo.fieldGet I rec tf id
      | err :: _ => M.raise (.fieldError err)) ?_
  intro e es s2 τ2 _ _ ha2 hfr2
  cases es with
  | cons err _ => exact Ref.raise _ env τ2 s2 ha2
  | nil =>
    refine RefAt.fieldGet hr hf id ha2 ?_ ?_
    · refine Nat.lt_of_lt_of_le ?_ hfr2.forms
      rw [hids.1, hids.2]; simp
    · intro fr hm hp
      rw [hfr2.stack, hfr1.stack] at hm
      have := ha.ids fr hm id hp
      rw [hids.2] at this
      exact Nat.lt_irrefl _ this

theorem Ref.polyType (hC : C.All LexNode) (hr : RecRef rec trec) {tf : Field} (hf : tf.All LexNode)
    (pc : Nat) (types : List (Val × Nat)) :
    Ref (polyType I L C rec tf pc types) (Lex.polyType I L C trec tf pc types) := by
  unfold Pilo.polyType Lex.polyType
  refine Ref.bind (Ref.tryCatch ?_ ?_) ?_
  · exact Ref.bind Ref.probeSrc fun src => Ref.bind (Ref.probe hC hr hf pc src) fun _ => Ref.pure _
  · refs
  · intro r
    cases r with
    | none => exact Ref.pure _
    | some v =>
      have key : Ref (if !v.hashable then M.raise (.typeError "unhashable type")
          else match types.find? (fun p => v.pyEq p.1) with
            | some p => M.pure (some (some p.2))
            | none => do
              Pilo.invalid I ("invalid identity " ++ L.fmt v)
              M.pure (some none) : M P _)
          (if !v.hashable then T.raise (.typeError "unhashable type")
          else match types.find? (fun p => v.pyEq p.1) with
            | some p => T.pure (some (some p.2))
            | none => do
              Lex.invalid I ("invalid identity " ++ L.fmt v)
              T.pure (some none)) := by
        refine Ref.ite (fun _ => Ref.raise _) fun _ => ?_
        cases types.find? (fun p => v.pyEq p.1) with
        | some p => exact Ref.pure _
        | none => exact Ref.bind (Ref.invalid _) fun _ => Ref.pure _
      cases v with
      | none => exact Ref.pure _
      | _ => exact key

theorem Ref.polyParse (hC : C.All LexNode) (hr : RecRef rec trec) {tf : Field} (hf : tf.All LexNode)
    (pc : Nat) (types : List (Val × Nat)) (reset : Bool) {u : Unmapped} (hu : u.All LexNode) :
    Ref (polyParse I L C rec tf pc types reset u) (Lex.polyParse I L C trec tf pc types reset u) := by
  unfold Pilo.polyParse Lex.polyParse
  refine Ref.bind (Ref.polyType hC hr hf pc types) fun r => ?_
  rcases r with _ | _ | cls
  · exact Ref.pure _
  · exact Ref.pure _
  · exact Ref.subParse hC hr cls reset hu

theorem groupMatch_mem {fs : List (GSrc × Field)} {k : Val} {f : Field} {cap : Val}
    (h : groupMatch fs k = .ok (some (f, cap))) : ∃ g, (g, f) ∈ fs := by
  induction fs with
  | nil => cases h
  | cons x fs ih =>
    rcases x with ⟨g, f'⟩
    have step : (∃ g, (g, f) ∈ fs) → ∃ g', (g', f) ∈ (g, f') :: fs :=
      fun ⟨g', h'⟩ => ⟨g', List.mem_cons_of_mem _ h'⟩
    cases g with
    | str s =>
      unfold groupMatch at h
      split at h
      · cases h; exact ⟨_, List.mem_cons_self ..⟩
      · exact step (ih h)
    | re m =>
      unfold groupMatch at h
      split at h
      · split at h
        · cases h; exact ⟨_, List.mem_cons_self ..⟩
        · exact step (ih h)
      · cases h

theorem Ref.groupLoop (hr : RecRef rec trec) {fs : List (GSrc × Field)}
    (hfs : ∀ x ∈ fs, x.2.All LexNode) (ks : List Val) :
    ∀ m acc, Ref (groupLoop I rec fs ks m acc) (Lex.groupLoop I trec fs ks m acc) := by
  induction ks with
  | nil => intro m acc; exact Ref.pure _
  | cons k ks ih =>
    intro m acc
    unfold Pilo.groupLoop Lex.groupLoop
    intro env τ s ha
    refine (Ref.ofExcept _ env τ s ha).bind ?_
    intro r s' τ' hs' hτ' ha' _
    have hg : groupMatch fs k = .ok r := by
      unfold M.ofExcept at hs'
      simp only [Prod.mk.injEq] at hs'
      exact hs'.1
    refine (?_ : Ref _ _) env τ' s' ha'
    rcases r with _ | ⟨f, cap⟩
    · exact ih _ _
    · obtain ⟨g, hmem⟩ := groupMatch_mem hg
      refine Ref.bind (Ref.key (hr f .NONE (hfs _ hmem))) fun v => ?_
      exact Ref.ite (fun _ => ih _ _) fun _ => ih _ _

theorem Ref.groupParse (hC : C.All LexNode) (hr : RecRef rec trec) {f : Field} (hf : LexNode f)
    {fs : List (GSrc × Field)} (hfs : ∀ x ∈ fs, x.2.All LexNode) :
    Ref (groupParse I L C rec f fs) (Lex.groupParse I L C trec f fs) := by
  have h1 := Ref.fieldDefault (I := I) (L := L) hC hr hf
  have h2 := fun kv => Ref.iterKeys (P := P) kv
  have h3 := fun ks => Ref.groupLoop (I := I) hr hfs ks false []
  unfold Pilo.groupParse Lex.groupParse
  refs [h2, h3]

theorem Ref.kindParse (hC : C.All LexNode) (hr : RecRef rec trec) {f : Field} (hf : f.All LexNode) :
    Ref (kindParse I L C rec f) (Lex.kindParse I L C trec f) := by
  have hn := hf.node
  have hk := hf.kind
  unfold Pilo.kindParse Lex.kindParse
  cases hkind : f.kind with
  | decimal c => exact Ref.decimalParse
  | date c => exact Ref.dateParse c
  | time c => exact Ref.timeParse c
  | datetime c => exact Ref.datetimeParse c
  | tuple fs => rw [hkind] at hk; cases hk with | tuple h => exact Ref.tupleParse hr fs h
  | list g lo hi a => rw [hkind] at hk; cases hk with | list h => exact Ref.listParse hr h a
  | dict kf vf kfl r m =>
    rw [hkind] at hk
    cases hk with
    | dict hk hv =>
      exact Ref.dictParse hC hr hn hk hv fun h e => hn.keyFilter kf vf h r m (by rw [hkind, e])
  | code => exact Ref.codeParse
  | uuid => exact Ref.uuidParse
  | subform cls reset u => rw [hkind] at hk; cases hk with | subform h => exact Ref.subParse hC hr cls reset h
  | poly tf pc ts reset u =>
    rw [hkind] at hk; cases hk with | poly ht h => exact Ref.polyParse hC hr ht pc ts reset h
  | group fs => rw [hkind] at hk; cases hk with | group h => exact Ref.groupParse hC hr hn h
  | _ => exact Ref.onPath _

theorem Ref.fieldParse (hC : C.All LexNode) (hr : RecRef rec trec) {f : Field} (hf : f.All LexNode) :
    Ref (fieldParse I L C rec f) (Lex.fieldParse I L C trec f) := by
  unfold Pilo.fieldParse Lex.fieldParse
  cases h : f.core.parse with
  | some k => exact Ref.callHook hC hr (hf.node.parse k h)
  | none => exact Ref.kindParse hC hr hf

theorem Ref.fieldCompute (hC : C.All LexNode) (hr : RecRef rec trec) {f : Field} (hf : f.All LexNode) :
    Ref (fieldCompute I L C rec f) (Lex.fieldCompute I L C trec f) := by
  have h1 := Ref.fieldParse (I := I) (L := L) hC hr hf
  unfold Pilo.fieldCompute Lex.fieldCompute
  refs

theorem Ref.mungeStep (hC : C.All LexNode) (hr : RecRef rec trec) {f : Field} (hf : LexNode f) (v : Val) :
    Ref (mungeStep I L C rec f v) (Lex.mungeStep I L C trec f v) := by
  unfold Pilo.mungeStep Lex.mungeStep
  refine Ref.bind (Ref.ofExcept _) fun v => Ref.ite (fun _ => Ref.pure _) fun _ => ?_
  cases h : f.core.munge with
  | none => exact Ref.pure _
  | some k => exact Ref.callHook1 hC hr (hf.munge k h) v

theorem Ref.filterStep (hC : C.All LexNode) (hr : RecRef rec trec) {f : Field} (hf : LexNode f) (v : Val) :
    Ref (filterStep I L C rec f v) (Lex.filterStep I L C trec f v) := by
  unfold Pilo.filterStep Lex.filterStep
  refine Ref.ite (fun _ => ?_) fun _ => Ref.pure _
  cases h : f.core.filter with
  | none => exact Ref.pure _
  | some k => exact Ref.bind (Ref.callHook1 hC hr (hf.filter k h) v) fun _ => Ref.pure _

theorem Ref.validateStep (hC : C.All LexNode) (hr : RecRef rec trec) {f : Field} (hf : LexNode f) (v : Val) :
    Ref (validateStep I L C rec f v) (Lex.validateStep I L C trec f v) := by
  unfold Pilo.validateStep Lex.validateStep
  refine Ref.bind (Ref.kindValidate f v) fun ok => ?_
  refine Ref.ite (fun _ => ?_) fun _ => Ref.pure _
  cases h : f.core.validate with
  | none => exact Ref.pure _
  | some k => exact Ref.bind (Ref.callHook1 hC hr (hf.validate k h) v) fun _ => Ref.pure _

theorem Ref.fieldCheck (hC : C.All LexNode) (hr : RecRef rec trec) {f : Field} (hf : LexNode f) (v : Val) :
    Ref (fieldCheck I L C rec f v) (Lex.fieldCheck I L C trec f v) := by
  have h1 := Ref.fieldDefault (I := I) (L := L) hC hr hf
  have h2 := fun v => Ref.mungeStep (I := I) (L := L) hC hr hf v
  have h3 := fun v => Ref.filterStep (I := I) (L := L) hC hr hf v
  have h4 := fun v => Ref.validateStep (I := I) (L := L) hC hr hf v
  unfold Pilo.fieldCheck Lex.fieldCheck
  refs [h2, h3, h4]

theorem Ref.computeStep (hC : C.All LexNode) (hr : RecRef rec trec) {f : Field} (hf : f.All LexNode) :
    Ref (computeStep I L C rec f) (Lex.computeStep I L C trec f) := by
  unfold Pilo.computeStep Lex.computeStep
  cases h : f.core.compute with
  | none => exact Ref.fieldCompute hC hr hf
  | some k => exact Ref.callHook hC hr (hf.node.compute k h)

theorem Ref.fieldStart (hC : C.All LexNode) (hr : RecRef rec trec) {f : Field} (hf : f.All LexNode) :
    Ref (fieldStart I L C rec f) (Lex.fieldStart I L C trec f) := by
  unfold Pilo.fieldStart Lex.fieldStart
  refine Ref.bind (Ref.computeStep hC hr hf) fun v => ?_
  refine Ref.ite (fun _ => ?_) fun _ => Ref.ite (fun _ => Ref.pure _) fun _ => Ref.fieldCheck hC hr hf.node v
  have hd := hf.node.default
  have h1 := Ref.fieldDefault (I := I) (L := L) hC hr hf.node
  cases hdef : f.core.default with
  | hook h => rw [hdef] at hd; exact Ref.callHook hC hr hd
  | _ => exact h1

theorem Ref.withResolve (hC : C.All LexNode) (hr : RecRef rec trec) {f : Field} (hf : LexNode f)
    {body : M P α} {tbody : T P α} (hb : Ref body tbody) :
    Ref (withResolve I L C rec f body) (Lex.withResolve I L C trec f tbody) := by
  unfold Pilo.withResolve Lex.withResolve
  cases h : f.core.resolve with
  | some k =>
    cases k with
    | key k =>
      exact Ref.bind (Ref.callHook hC hr (hf.resolve _ h)) fun v =>
        Ref.ite (fun _ => hb) fun _ => Ref.key hb
    | data k =>
      exact Ref.bind (Ref.callHook hC hr (hf.resolve _ h)) fun v =>
        Ref.ite (fun _ => hb) fun _ => Ref.source hb
  | none =>
    cases f.kind <;> first
      | exact hb
      | exact Ref.ite (fun _ => hb) fun _ => Ref.key hb

theorem Ref.setParent (v : Val) : Ref (setParent v : M P Unit) (Lex.setParent v) := by
  unfold Pilo.setParent Lex.setParent
  refine Ref.bind Ref.ctxParent? fun par => ?_
  cases v with
  | form id =>
    exact Ref.forms (a := ()) (g := fun fs => fs.modify id fun o => { o with parent := some par })
      (by intro fs; simp)
  | func _ => exact Ref.pure _
  | obj _ => exact Ref.pure _
  | _ => exact Ref.raise _

theorem Ref.mapFieldF (hC : C.All LexNode) (hr : RecRef rec trec) :
    RecRef (mapFieldF I L C rec) (Lex.mapFieldF I L C trec) := by
  intro f v hf
  have h1 := Ref.withResolve (I := I) (L := L) hC hr hf.node (Ref.fieldStart (I := I) (L := L) hC hr hf)
  have h2 := fun v => Ref.fieldCheck (I := I) (L := L) hC hr hf.node v
  have h4 : Ref (fieldMapInner I L C rec f v) (Lex.fieldMapInner I L C trec f v) := by
    unfold Pilo.fieldMapInner Lex.fieldMapInner
    exact Ref.ite (fun _ => h1) fun _ => h2 v
  unfold Pilo.mapFieldF Lex.mapFieldF
  refine Ref.bind (Ref.vars h4 rfl (fun _ => rfl) (by intro id h; cases h)) fun w => ?_
  dsimp only
  refine Ref.ite (fun _ => ?_) fun _ => Ref.pure _
  exact Ref.bind (Ref.setParent w) fun _ => Ref.pure _

/-- Mapping any lexical field with any recursion budget refines the lexical semantics. -/
theorem Ref.mapField (hC : C.All LexNode) (n : Nat) :
    RecRef (mapField I L C n) (Lex.mapField I L C n) := by
  induction n with
  | zero => intro f v _; exact Ref.raise _
  | succ n ih => exact Ref.mapFieldF hC ih

end Pilo
