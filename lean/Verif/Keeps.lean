import Verif.Ext

/-!
# Every operation of the evaluator preserves the context

One lemma per definition of `Verif.Core` and `Verif.Eval`; the recursion is closed by induction on
the recursion budget.
-/

namespace Pilo
variable {P : Type} {I : PathOps P} {W : LawfulPath I} {L : Lib} {C : Classes}

/-! ## Updates of the heap -/

theorem Keeps.modify {f : St P → St P} (h : ∀ s, Inv W s → Ext W s (f s)) : Keeps W (M.modify f) :=
  ⟨fun s hs => h s hs⟩

theorem Keeps.newErrs (b : Bool) : Keeps W (newErrs b : M P Nat) := by
  refine ⟨fun s hs => ?_⟩
  have h := Ext.refl hs.wf
  refine ⟨rfl, h.paths, h.wf, ?_, h.forms⟩
  intro e b' hb
  refine ⟨b', ?_, rfl, List.prefix_refl _⟩
  show (s.errs ++ [_])[e]? = some b'
  rw [List.getElem?_append_left (List.getElem?_eq_some_iff.1 hb).1]; exact hb

theorem Keeps.errItems (r : Nat) : Keeps W (errItems r : M P _) := ⟨fun _ hs => Ext.refl hs.wf⟩

theorem Keeps.errExtend (r : Nat) (es : List Err) : Keeps W (errExtend r es : M P Unit) := by
  refine Keeps.modify fun s hs => ?_
  have h := Ext.refl hs.wf
  refine ⟨rfl, h.paths, h.wf, ?_, h.forms⟩
  intro e b hb
  show ∃ b', (s.errs.modify r _)[e]? = some b' ∧ _
  rw [List.getElem?_modify, hb]
  by_cases hr : r = e
  · simp [hr]
  · simp [hr]

theorem Keeps.newForm (c : Nat) : Keeps W (newForm c : M P Nat) := by
  refine ⟨fun s hs => ?_⟩
  have h := Ext.refl hs.wf
  refine ⟨rfl, h.paths, h.wf, h.errs, ?_⟩
  intro e b' hb
  refine ⟨b', ?_, rfl⟩
  show (s.forms ++ [_])[e]? = some b'
  rw [List.getElem?_append_left (List.getElem?_eq_some_iff.1 hb).1]; exact hb

theorem Ext.forms_modify {s : St P} (hs : Inv W s) (i : Nat) (g : FormObj → FormObj)
    (hg : ∀ o, (g o).cls = o.cls) : Ext W s { s with forms := s.forms.modify i g } := by
  have h := Ext.refl hs.wf
  refine ⟨rfl, h.paths, h.wf, h.errs, ?_⟩
  intro e b hb
  show ∃ b', (s.forms.modify i _)[e]? = some b' ∧ _
  rw [List.getElem?_modify, hb]
  by_cases hr : i = e
  · simp [hr, hg]
  · simp [hr]

theorem Keeps.formModify (i : Nat) (g : List (Val × Val) → List (Val × Val)) :
    Keeps W (formModify i g : M P Unit) :=
  Keeps.modify fun _ hs => Ext.forms_modify hs i _ fun _ => rfl

theorem Keeps.formSet (i : Nat) (k v : Val) : Keeps W (formSet i k v : M P Unit) :=
  Keeps.formModify ..

theorem Keeps.formDel (i : Nat) (k : Val) : Keeps W (formDel i k : M P Unit) :=
  Keeps.formModify ..

theorem Keeps.formItems (i : Nat) : Keeps W (formItems i : M P _) := ⟨fun _ hs => Ext.refl hs.wf⟩

theorem Keeps.formCls (i : Nat) : Keeps W (formCls i : M P _) := by
  refine ⟨fun s hs => ?_⟩
  unfold Pilo.formCls
  split <;> exact Ext.refl hs.wf

theorem Keeps.pathText : Keeps W (pathText I) := by
  refine ⟨fun s hs => ?_⟩
  unfold Pilo.pathText
  repeat' split
  all_goals exact Ext.refl hs.wf

/-! ## Path reads -/

theorem Keeps.exists_ : Keeps W (readPath I.exists_) := Keeps.onPath fun _ h => W.exists_keys h
theorem Keeps.isNull : Keeps W (readPath I.isNull) := Keeps.onPath fun _ h => W.isNull_keys h
theorem Keeps.value : Keeps W (readPath I.value) := Keeps.onPath fun _ h => W.value_keys h
theorem Keeps.mapping : Keeps W (readPath I.mapping) := Keeps.onPath fun _ h => W.mapping_keys h
theorem Keeps.sequence : Keeps W (readPath I.sequence) := Keeps.onPath fun _ h => W.sequence_keys h
theorem Keeps.primitive (ty : PTy) : Keeps W (readPath (I.primitive ty)) :=
  Keeps.onPath fun _ h => W.primitive_keys h
theorem Keeps.pathHasSrc : Keeps W (pathHasSrc I) := Keeps.onPathPure fun p => .ok (I.hasSrc p)

/-- One step of a preservation proof. -/
macro "keeps_step" : tactic => `(tactic| with_reducible first
  | assumption
  | exact Keeps.pure _ | exact Keeps.pure' _ | exact Keeps.raise _ | exact Keeps.ofExcept _
  | exact Keeps.get | exact Keeps.ctxGet _ _ | exact Keeps.ctxGet? _
  | exact Keeps.newErrs _ | exact Keeps.errItems _ | exact Keeps.errExtend _ _
  | exact Keeps.newForm _ | exact Keeps.formModify _ _ | exact Keeps.formSet _ _ _
  | exact Keeps.formDel _ _ | exact Keeps.formItems _ | exact Keeps.formCls _
  | exact Keeps.pathText | exact Keeps.exists_ | exact Keeps.isNull | exact Keeps.value
  | exact Keeps.mapping | exact Keeps.sequence | exact Keeps.primitive _ | exact Keeps.pathHasSrc
  | refine Keeps.withPush (PushOK.vars _) ?_
  | refine Keeps.withPush (PushOK.key _ _) ?_
  | refine Keeps.withPush PushOK.reset ?_
  | refine Keeps.withPush (PushOK.source (by intro p hp; cases hp; exact W.native_wf)) ?_
  | refine Keeps.tryCatch ?_ ?_
  | refine Keeps.bind ?_ ?_
  | refine Keeps.bind' ?_ ?_
  | intro _
  | split
  | dsimp only)

/-- Run `keeps_step` to the end. -/
macro "keeps" : tactic => `(tactic| repeat' keeps_step)

/-- The same with facts about called functions. -/
macro "keeps" "[" ts:term,* "]" : tactic => do
  let ts := ts.getElems
  `(tactic| repeat' first $[| with_reducible apply $ts]* | keeps_step)

theorem Keeps.errCall (r : Nat) (e : Err) : Keeps W (errCall r e : M P Unit) := by
  unfold Pilo.errCall; keeps

theorem Keeps.report (k : ErrKind) : Keeps W (report I k) := by
  unfold Pilo.report
  keeps
  exact Keeps.errCall ..

theorem Keeps.invalid (m : String) : Keeps W (invalid I m) := Keeps.report _
theorem Keeps.missing : Keeps W (missing I) := Keeps.report _

macro_rules | `(tactic| keeps_step) => `(tactic| exact Keeps.invalid _)
macro_rules | `(tactic| keeps_step) => `(tactic| exact Keeps.missing)

/-! ## The evaluator -/

variable (W)

/-- Recursive calls preserve the context. -/
def RecKeeps (rec : Rec P) : Prop := ∀ f v, Keeps W (rec f v)

/-- A source argument is usable: its path is well formed. -/
def SrcOK : SrcArg P → Prop
  | .source (.ok p) => W.WF p
  | _ => True

variable {W} {rec : Rec P}

theorem Keeps.formReset (id : Nat) (tags : List String) (fs : List Field) :
    Keeps W (formReset id tags fs : M P Unit) := by
  induction fs with
  | nil => exact Keeps.pure _
  | cons f fs ih => unfold Pilo.formReset; keeps

theorem Keeps.applyUnmapped (hr : RecKeeps W rec) (id : Nat) (u : Unmapped) :
    Keeps W (applyUnmapped rec id u) := by
  have go : ∀ kf vf, Keeps W (do
      match ← rec (unmappedField id kf vf) .NONE with
      | .none => M.pure ()
      | .dict kvs => Pilo.formModify id (dictUpdate · kvs)
      | _ => M.raise (.typeError "'_Constant' object is not iterable") : M P Unit) := by
    intro kf vf
    refine Keeps.bind (hr _ _) ?_
    keeps
  unfold Pilo.applyUnmapped
  dsimp only
  split <;> first | exact Keeps.pure _ | exact Keeps.raise _ | exact go _ _

theorem Keeps.mapFields (hr : RecKeeps W rec) (id : Nat) (tags : List String) (fs : List Field) :
    Keeps W (mapFields rec id tags fs) := by
  induction fs with
  | nil => exact Keeps.pure _
  | cons f fs ih =>
    unfold Pilo.mapFields Pilo.mapOne
    have hthis0 := hr f .NONE
    keeps [hthis0]

theorem Keeps.formMapBody (hr : RecKeeps W rec) (id : Nat) (tags : List String) (u : Unmapped) :
    Keeps W (formMapBody I C rec id tags u) := by
  unfold Pilo.formMapBody
  have hthis0 := Keeps.applyUnmapped hr id u
  have hthis1 := fun fs => Keeps.mapFields hr id tags fs
  keeps [hthis0, hthis1]

theorem Keeps.nestedMap (hr : RecKeeps W rec) (id : Nat) (tags : List String) (u : Unmapped)
    (raising : Bool) : Keeps W (nestedMap I C rec id tags u raising) := by
  unfold Pilo.nestedMap
  have hthis0 := Keeps.formMapBody (C := C) hr id tags u
  keeps [hthis0]

theorem rootSource_ok {id : Nat} {src : SrcArg P} (h : SrcOK W src) :
    KeepsR W (rootSource I C id src) fun mk => ∀ p, mk = .ok p → W.WF p := by
  unfold rootSource
  split
  · intro s hs
    refine ⟨Ext.refl hs.wf, ?_⟩
    intro a ha p hp
    cases ha; cases hp
    exact W.native_wf
  · rename_i mk
    intro s hs
    refine ⟨Ext.refl hs.wf, ?_⟩
    intro a ha p hp
    cases ha; subst hp
    exact h
  · intro s hs
    refine ⟨Ext.refl hs.wf, ?_⟩
    intro a ha p hp
    cases ha; cases hp
    exact W.native_wf
  · refine KeepsR.bind (Keeps.formCls id).toR ?_
    intro a _ s hs
    refine ⟨Ext.refl hs.wf, ?_⟩
    intro a ha p hp
    cases ha; cases hp
    exact W.native_wf
  · refine KeepsR.bind (Keeps.formCls id).toR ?_
    intro a _ s hs
    refine ⟨Ext.refl hs.wf, ?_⟩
    intro a ha p hp
    cases ha; cases hp
    exact W.native_wf
  · intro s hs
    exact ⟨Ext.refl hs.wf, fun a ha => by cases ha⟩

theorem Keeps.rootMap (hr : RecKeeps W rec) (id : Nat) {src : SrcArg P} (hsrc : SrcOK W src)
    (tags : List String) (u : Unmapped) (raising : Bool) :
    Keeps W (rootMap I C rec id src tags u raising) := by
  unfold Pilo.rootMap
  refine Keeps.bindR (rootSource_ok hsrc) ?_
  intro mk hmk
  have hthis0 := Keeps.formMapBody (C := C) hr id tags u
  refine Keeps.bind (Keeps.newErrs _) fun e => Keeps.bind ?_ fun _ => Keeps.pure _
  exact Keeps.withPush (PushOK.source hmk) hthis0

theorem Keeps.formMap (hr : RecKeeps W rec) (id : Nat) {src : SrcArg P} (hsrc : SrcOK W src)
    (tags : List String) (reset : Bool) (u : Unmapped) (raising : Bool) :
    Keeps W (formMap I C rec id src tags reset u raising) := by
  unfold Pilo.formMap
  refine Keeps.bind (Keeps.ctxGet? _) fun ct => ?_
  refine Keeps.bind ?_ fun _ => ?_
  · unfold formResetIf
    have h4 := fun tags fs => Keeps.formReset (W := W) id tags fs
    keeps [h4]
  refine Keeps.bind (Keeps.ctxGet _ _) fun cs => ?_
  refine Keeps.bind ?_ fun e => ?_
  · unfold formMapAt
    split
    · split
      · exact Keeps.nestedMap hr id _ u raising
      · exact Keeps.rootMap hr id (src := .none) trivial _ u raising
    · exact Keeps.rootMap hr id hsrc _ u raising
  · unfold formFinish
    keeps

theorem Keeps.getFinish (f : Field) (id : Nat) (v : Val) : Keeps W (getFinish f id v : M P Val) := by
  unfold Pilo.getFinish; keeps

theorem Keeps.fieldGet (hr : RecKeeps W rec) (f : Field) (id : Nat) :
    Keeps W (fieldGet I rec f id) := by
  have h1 := hr f .NONE
  have h2 := fun v => Keeps.getFinish (W := W) f id v
  have h3 : Keeps W (do
      let e ← Pilo.newErrs true
      let v ← Pilo.withPush I (pushSource (.ok (I.native (.dict []) none))
        { form := some id, parent := some (.form id), errors := some e }) (rec f .NONE)
      Pilo.getFinish f id v : M P Val) := by keeps [h1, h2]
  have h4 : Keeps W (do
      let v ← rec f .NONE
      Pilo.getFinish f id v : M P Val) := by keeps [h1, h2]
  have h5 : ∀ ex : Exc, Keeps W (match ex with
      | .rewindDidNotStop => do
        let v ← Pilo.withPush I (pushSource (.ok (I.native (.dict []) none))
          { form := some id, parent := some (.form id) }) (rec f .NONE)
        Pilo.getFinish f id v
      | ex => M.raise ex : M P Val) := by intro ex; keeps [h1, h2]
  refine ⟨fun s hs => ?_⟩
  unfold Pilo.fieldGet
  rw [M.bind_ok (m := Pilo.formItems id) rfl]
  cases dictGet? (s.forms[id]?.elim [] FormObj.items) f.key with
  | some v => exact Ext.refl hs.wf
  | none =>
    simp only
    rw [M.bind_ok (m := Pilo.ctxGet? Frame.form) rfl]
    cases lookup Frame.form s.stack with
    | none => exact h3.run s hs
    | some g =>
      simp only
      rw [M.bind_ok (m := Pilo.ctxGet? Frame.parent) rfl]
      by_cases hpar : lookup Frame.parent s.stack = some (.form id)
      · rw [if_pos hpar]; exact h4.run s hs
      · rw [if_neg hpar]
        have hrw : Ext W s (withRewind I (isFormFrame id) (rec f .NONE) s).2 := by
          refine Ext.withRewind hs ?_ h1
          intro fr rest hst
          unfold isFormFrame
          rw [beq_eq_false_iff_ne]
          intro hp
          apply hpar
          rw [hst]
          simp [lookup, hp]
        unfold M.tryCatch
        cases hm : withRewind I (isFormFrame id) (rec f .NONE) s with
        | mk r s1 =>
          rw [hm] at hrw
          cases r with
          | ok a => exact hrw
          | error e => exact hrw.trans ((h5 e).run s1 (hrw.inv hs))

theorem Keeps.formGetattr (hr : RecKeeps W rec) (id : Nat) (name : String) :
    Keeps W (formGetattr I C rec id name) := by
  have hthis0 := fun f => Keeps.fieldGet hr f id
  unfold Pilo.formGetattr
  keeps [hthis0]

theorem Keeps.asForm (v : Val) : Keeps W (asForm v : M P Nat) := by
  unfold Pilo.asForm
  split <;> keeps

theorem Keeps.evalProg (hr : RecKeeps W rec) (p : Prog) : Keeps W (evalProg I L C rec p) := by
  have ha := fun v => Keeps.asForm (W := W) v
  have hg := fun id name => Keeps.formGetattr (C := C) hr id name
  have hm := fun id v tags reset u raising =>
    Keeps.formMap (C := C) hr id (src := .data v) trivial tags reset u raising
  have hf := fun f v => hr f v
  induction p with
  | bind p k ih1 ih2 => exact Keeps.bind' ih1 ih2
  | tryCatch p h ih1 ih2 => exact Keeps.tryCatch ih1 ih2
  | getattr v name =>
    cases v <;> unfold Pilo.evalProg <;> keeps [ha, hg, hm, hf]
  | _ => unfold Pilo.evalProg; keeps [ha, hg, hm, hf]

theorem Keeps.hookTarget {α : Type} (h : Hook α) : Keeps W (hookTarget h : M P Val) := by
  unfold Pilo.hookTarget; keeps

theorem Keeps.callHook (hr : RecKeeps W rec) (h : Hook Prog) : Keeps W (callHook I L C rec h) :=
  Keeps.bind (Keeps.hookTarget h) fun _ => Keeps.evalProg hr _

theorem Keeps.callHook1 (hr : RecKeeps W rec) (h : Hook (Val → Prog)) (v : Val) :
    Keeps W (callHook1 I L C rec h v) :=
  Keeps.bind (Keeps.hookTarget h) fun _ => Keeps.evalProg hr _

theorem Keeps.missingNotSet : Keeps W (missingNotSet I) := by
  unfold Pilo.missingNotSet; keeps

theorem Keeps.fieldDefault (hr : RecKeeps W rec) (f : Field) :
    Keeps W (fieldDefault I L C rec f) := by
  unfold Pilo.fieldDefault
  refine Keeps.bind (Keeps.ctxGet _ _) fun ig => ?_
  split
  · exact Keeps.missingNotSet
  · split
    · exact Keeps.missingNotSet
    · exact Keeps.callHook hr _
    · exact Keeps.evalProg hr _
    · exact Keeps.missingNotSet
    · exact Keeps.ofExcept _
    · exact Keeps.pure _

theorem Keeps.rejectWith (m : String) : Keeps W (rejectWith I m) := by
  unfold Pilo.rejectWith; keeps

macro_rules | `(tactic| keeps_step) => `(tactic| exact Keeps.rejectWith _)

theorem Keeps.baseValidate (f : Field) (v : Val) : Keeps W (baseValidate I f v) := by
  unfold Pilo.baseValidate; keeps

theorem Keeps.stringValidate (f : Field) (c : StrCfg) (v : Val) :
    Keeps W (stringValidate I L f c v) := by
  unfold Pilo.stringValidate; keeps

theorem Keeps.rangeValidate (lo hi : Option Val) (a b : Val → Val → String) (v : Val) :
    Keeps W (rangeValidate I L lo hi a b v) := by
  unfold Pilo.rangeValidate; keeps

theorem Keeps.listValidate (lo hi : Option Nat) (v : Val) : Keeps W (listValidate I lo hi v) := by
  unfold Pilo.listValidate; keeps

theorem Keeps.dictValidate (req : Required) (mx : Option Nat) (v : Val) :
    Keeps W (dictValidate I L req mx v) := by
  unfold Pilo.dictValidate; keeps

theorem Keeps.kindValidate (f : Field) (v : Val) : Keeps W (kindValidate I L f v) := by
  unfold Pilo.kindValidate
  refine Keeps.bind (Keeps.baseValidate f v) fun ok => ?_
  split
  · exact Keeps.pure _
  · split
    · exact Keeps.pure _
    · split
      · exact Keeps.stringValidate ..
      · exact Keeps.rangeValidate ..
      · exact Keeps.rangeValidate ..
      · exact Keeps.rangeValidate ..
      · exact Keeps.rangeValidate ..
      · exact Keeps.rangeValidate ..
      · exact Keeps.rangeValidate ..
      · exact Keeps.listValidate ..
      · exact Keeps.dictValidate ..
      · exact Keeps.pure _

theorem Keeps.failWith (m : String) : Keeps W (failWith I m) := by
  unfold Pilo.failWith; keeps

macro_rules | `(tactic| keeps_step) => `(tactic| exact Keeps.failWith _)

theorem Keeps.decimalParse : Keeps W (decimalParse I L) := by
  unfold Pilo.decimalParse; keeps

theorem Keeps.dateParse (c : DateCfg) : Keeps W (dateParse I L c) := by
  unfold Pilo.dateParse; keeps

theorem Keeps.timeParse (c : DateCfg) : Keeps W (timeParse I L c) := by
  unfold Pilo.timeParse; keeps

theorem Keeps.datetimeParse (c : DateCfg) : Keeps W (datetimeParse I L c) := by
  unfold Pilo.datetimeParse; keeps

theorem Keeps.tupleLoop (hr : RecKeeps W rec) (fs : List Field) : ∀ i, Keeps W (tupleLoop I rec i fs) := by
  induction fs with
  | nil => intro i; exact Keeps.pure _
  | cons f fs ih =>
    intro i
    have hthis0 := hr f .NONE
    unfold Pilo.tupleLoop
    keeps [hthis0, ih]

theorem Keeps.tupleParse (hr : RecKeeps W rec) (fs : List Field) : Keeps W (tupleParse I rec fs) := by
  have hthis0 := Keeps.tupleLoop hr fs 0
  unfold Pilo.tupleParse
  keeps [hthis0]

theorem Keeps.listLoop (hr : RecKeeps W rec) (f : Field) (n : Nat) :
    ∀ i, Keeps W (listLoop I rec f i n) := by
  induction n with
  | zero => intro i; exact Keeps.pure _
  | succ n ih =>
    intro i
    have hthis0 := hr f .NONE
    unfold Pilo.listLoop
    keeps [hthis0, ih]

theorem Keeps.seqTry : Keeps W (seqTry I) := by
  unfold Pilo.seqTry; keeps

theorem Keeps.listParse (hr : RecKeeps W rec) (f : Field) (allow : Bool) :
    Keeps W (listParse I rec f allow) := by
  have h1 := fun n => Keeps.listLoop hr f n 0
  have h2 := hr f .NONE
  have h3 := Keeps.seqTry (W := W)
  unfold Pilo.listParse
  keeps [h1, h2, h3]

theorem Keeps.keepKey (hr : RecKeeps W rec) (kfl : Option (Hook (Val → Prog))) (k : Val) :
    Keeps W (keepKey I L C rec kfl k) := by
  have hthis0 := fun h => Keeps.callHook1 (L := L) (C := C) hr h k
  unfold Pilo.keepKey
  keeps [hthis0]

theorem Keeps.dictLoop (hr : RecKeeps W rec) (kf vf : Field) (kfl : Option (Hook (Val → Prog)))
    (ks : List Val) : ∀ acc, Keeps W (dictLoop I L C rec kf vf kfl ks acc) := by
  induction ks with
  | nil => intro acc; exact Keeps.pure _
  | cons k ks ih =>
    intro acc
    have h1 := Keeps.keepKey (L := L) (C := C) hr kfl k
    have h2 := hr vf .NONE
    have h3 := hr kf k
    unfold Pilo.dictLoop
    keeps [h1, h2, h3, ih]

theorem Keeps.iterKeys (kv : KeysView) : Keeps W (iterKeys kv : M P _) := by
  unfold Pilo.iterKeys; keeps

theorem Keeps.dictParse (hr : RecKeeps W rec) (f kf vf : Field) (kfl : Option (Hook (Val → Prog))) :
    Keeps W (dictParse I L C rec f kf vf kfl) := by
  have h1 := Keeps.fieldDefault (L := L) (C := C) hr f
  have h2 := fun kv => Keeps.iterKeys (W := W) kv
  have h3 := fun ks => Keeps.dictLoop (L := L) (C := C) hr kf vf kfl ks []
  unfold Pilo.dictParse
  keeps [h1, h2, h3]

theorem Keeps.codeParse : Keeps W (codeParse I L) := by
  unfold Pilo.codeParse; keeps

theorem Keeps.uuidParse : Keeps W (uuidParse I L) := by
  unfold Pilo.uuidParse; keeps

theorem Keeps.subParse (hr : RecKeeps W rec) (cls : Nat) (reset : Bool) (u : Unmapped) :
    Keeps W (subParse I C rec cls reset u) := by
  have hthis0 := fun id => Keeps.formMap (C := C) hr id (src := .none) trivial [] reset u false
  unfold Pilo.subParse
  keeps [hthis0]

theorem probeSrc_ok : KeepsR W (probeSrc I) (SrcOK W) := by
  unfold probeSrc
  refine KeepsR.bind Keeps.value.toR fun v _ => ?_
  refine Keeps.onPathR fun p hp => ⟨⟨rfl, hp, rfl⟩, ?_⟩
  intro a ha
  simp only [Except.ok.injEq] at ha
  subst ha
  cases hj : I.joinPath p with
  | none => exact trivial
  | some mk =>
    cases mk with
    | error e => exact trivial
    | ok q => exact W.joinPath_wf hp hj

theorem Keeps.probe (hr : RecKeeps W rec) (tf : Field) (pc : Nat) {src : SrcArg P} (hsrc : SrcOK W src) :
    Keeps W (probe I C rec tf pc src) := by
  have h1 := fun id => Keeps.formMap (C := C) hr id hsrc [] false (.str .ignore) false
  have h2 := fun id => Keeps.fieldGet hr tf id
  unfold Pilo.probe
  keeps [h1, h2]

theorem Keeps.polyType (hr : RecKeeps W rec) (tf : Field) (pc : Nat) (types : List (Val × Nat)) :
    Keeps W (polyType I L C rec tf pc types) := by
  unfold Pilo.polyType
  refine Keeps.bind (Keeps.tryCatch ?_ ?_) ?_
  · refine Keeps.bindR probeSrc_ok fun src hsrc => ?_
    have hthis0 := Keeps.probe (C := C) hr tf pc hsrc
    keeps [hthis0]
  · keeps
  · keeps

theorem Keeps.polyParse (hr : RecKeeps W rec) (tf : Field) (pc : Nat) (types : List (Val × Nat))
    (reset : Bool) (u : Unmapped) : Keeps W (polyParse I L C rec tf pc types reset u) := by
  have h1 := Keeps.polyType (L := L) (C := C) hr tf pc types
  have h2 := fun cls => Keeps.subParse (C := C) hr cls reset u
  unfold Pilo.polyParse
  keeps [h1, h2]

theorem Keeps.groupLoop (hr : RecKeeps W rec) (fs : List (GSrc × Field)) (ks : List Val) :
    ∀ m acc, Keeps W (groupLoop I rec fs ks m acc) := by
  induction ks with
  | nil => intro m acc; exact Keeps.pure _
  | cons k ks ih =>
    intro m acc
    have hthis0 := fun f => hr f .NONE
    unfold Pilo.groupLoop
    keeps [hthis0, ih]

theorem Keeps.groupParse (hr : RecKeeps W rec) (f : Field) (fs : List (GSrc × Field)) :
    Keeps W (groupParse I L C rec f fs) := by
  have h1 := Keeps.fieldDefault (L := L) (C := C) hr f
  have h2 := fun kv => Keeps.iterKeys (W := W) kv
  have h3 := fun ks => Keeps.groupLoop hr fs ks false []
  unfold Pilo.groupParse
  keeps [h1, h2, h3]

theorem Keeps.kindParse (hr : RecKeeps W rec) (f : Field) : Keeps W (kindParse I L C rec f) := by
  unfold Pilo.kindParse
  split
  · exact Keeps.primitive _
  · exact Keeps.primitive _
  · exact Keeps.primitive _
  · exact Keeps.primitive _
  · exact Keeps.decimalParse
  · exact Keeps.primitive _
  · exact Keeps.dateParse _
  · exact Keeps.timeParse _
  · exact Keeps.datetimeParse _
  · exact Keeps.tupleParse hr _
  · exact Keeps.listParse hr _ _
  · exact Keeps.dictParse hr _ _ _ _
  · exact Keeps.codeParse
  · exact Keeps.uuidParse
  · exact Keeps.subParse hr _ _ _
  · exact Keeps.polyParse hr _ _ _ _ _
  · exact Keeps.groupParse hr _ _

theorem Keeps.fieldCompute (hr : RecKeeps W rec) (f : Field) : Keeps W (fieldCompute I L C rec f) := by
  have h1 : Keeps W (fieldParse I L C rec f) := by
    unfold fieldParse
    split
    · exact Keeps.callHook hr _
    · exact Keeps.kindParse hr f
  unfold Pilo.fieldCompute
  keeps [h1]

theorem Keeps.fieldCheck (hr : RecKeeps W rec) (f : Field) (v : Val) :
    Keeps W (fieldCheck I L C rec f v) := by
  have h1 := fun h v => Keeps.callHook1 (L := L) (C := C) hr h v
  have h2 := Keeps.fieldDefault (L := L) (C := C) hr f
  have h3 := fun v => Keeps.kindValidate (W := W) (L := L) f v
  unfold Pilo.fieldCheck
  refine Keeps.bind ?_ fun v => ?_
  · unfold mungeStep; keeps [h1]
  split
  · exact h2
  split
  · exact Keeps.pure _
  refine Keeps.bind ?_ fun v => ?_
  · unfold filterStep; keeps [h1]
  split
  · exact h2
  refine Keeps.bind ?_ fun v => Keeps.pure _
  unfold validateStep; keeps [h1, h3]

theorem Keeps.fieldStart (hr : RecKeeps W rec) (f : Field) : Keeps W (fieldStart I L C rec f) := by
  have h1 := fun h => Keeps.callHook (L := L) (C := C) hr h
  have h2 := Keeps.fieldDefault (L := L) (C := C) hr f
  have h3 := fun v => Keeps.fieldCheck (L := L) (C := C) hr f v
  have h4 := Keeps.fieldCompute (L := L) (C := C) hr f
  unfold Pilo.fieldStart
  refine Keeps.bind ?_ fun v => ?_
  · unfold computeStep; keeps [h1, h4]
  split
  · split
    · exact h1 _
    · exact h2
  split
  · exact Keeps.pure _
  · exact h3 v

theorem Keeps.withResolve {α : Type} (hr : RecKeeps W rec) (f : Field) {body : M P α}
    (hb : Keeps W body) : Keeps W (withResolve I L C rec f body) := by
  have h1 := fun h => Keeps.callHook (L := L) (C := C) hr h
  unfold Pilo.withResolve
  keeps [h1]

theorem Keeps.setParent (v : Val) : Keeps W (setParent v : M P Unit) := by
  unfold Pilo.setParent
  refine Keeps.bind (Keeps.ctxGet? _) fun par => ?_
  split
  · exact Keeps.modify fun s hs => Ext.forms_modify hs _ _ fun _ => rfl
  all_goals keeps

theorem Keeps.mapFieldF (hr : RecKeeps W rec) : RecKeeps W (mapFieldF I L C rec) := by
  intro f v
  have h1 := Keeps.withResolve (L := L) (C := C) hr f (Keeps.fieldStart (L := L) (C := C) hr f)
  have h2 := fun v => Keeps.fieldCheck (L := L) (C := C) hr f v
  have h3 := fun v => Keeps.setParent (W := W) v
  have h4 : Keeps W (fieldMapInner I L C rec f v) := by
    unfold fieldMapInner
    split
    · exact h1
    · exact h2 v
  unfold Pilo.mapFieldF
  keeps [h1, h2, h3, h4]

/-- Mapping any field preserves the context, with any recursion budget. -/
theorem Keeps.mapField (n : Nat) : RecKeeps W (mapField I L C n) := by
  induction n with
  | zero => intro f v; exact Keeps.raise _
  | succ n ih => exact Keeps.mapFieldF ih

end Pilo
