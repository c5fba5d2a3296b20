import Verif.Plain

/-!
# What holds of every mapping of fields whose hooks are functions of the value

A predicate on lexical computations that holds of the primitive ones and is closed under the ways in which
mapping combines them holds of mapping any tree of fields whose hooks are functions of the value.  Used for statements that compare two
runs of the same mapping (`Verif/Props/Modes.lean`, `Verif/Props/Anywhere.lean`).
-/

namespace Pilo

/-- The content of an entry after the change depends only on the content of that entry before. -/
def KeyLocal (g : List (Val × Val) → List (Val × Val)) : Prop :=
  ∀ a b n, dictGet? a (.str n) = dictGet? b (.str n) → dictGet? (g a) (.str n) = dictGet? (g b) (.str n)

/-- `Field._compute` around a parse (`pilo/fields.py:469-486`): only for a path that exists and is not null,
and reporting value and source errors. -/
def Lex.guarded {P : Type} (I : PathOps P) (t : T P Val) : T P Val :=
  T.onPath I.exists_ >>= fun ex => if !ex then T.pure .NONE else T.onPath I.isNull >>= fun nl =>
    if nl then T.pure .none else T.tryCatch t fun e =>
      if e.isSourceError || e.isValueError then Lex.failWith I e.str else T.raise e

/-- A closed predicate `U`, for fields of the kinds in `ok`, where the entries of a form are looked at only for
the forms in `fok`; `frm` says whether there are sub forms among them. -/
structure Closed {P : Type} (I : PathOps P) (L : Lib) (C : Classes) where
  U : ∀ {α : Type}, T P α → Prop
  ok : Kind → Prop
  fok : Nat → Prop
  okString : ok (.string {})
  okBase : ok .base
  okDict : ∀ kf vf id, fok id → ok (.dict kf vf (some (notInForm id)) (.list []) none)
  okFilter : ∀ kf vf id r m, ok (.dict kf vf (some (notInForm id)) r m) → fok id
  frm : Prop := True
  asks : Prop := False
  okSub : ∀ cls reset u, ok (.subform cls reset u) → frm := by intros; trivial
  okPoly : ∀ tf pc types reset u, ok (.poly tf pc types reset u) → frm := by intros; trivial
  form : asks → U (T.ctxGet (P := P) Env.form "form") := by intro h; exact h.elim
  pure : ∀ {α : Type} (a : α), U (T.pure a)
  raise : ∀ {α : Type} (e : Exc), U (T.raise e : T P α)
  bind : ∀ {α β : Type} {t : T P α} {f : α → T P β}, U t → (∀ a, U (f a)) → U (t >>= f)
  ctxGet : ∀ {α : Type} (proj : Env → Option α) (n : String),
    (∀ env x, proj { env with form := x } = proj env) → U (T.ctxGet proj n)
  ctxGet? : ∀ {α : Type} (proj : Env → Option α),
    (∀ env x, proj { env with form := x } = proj env) → U (T.ctxGet? proj)
  value : U (T.onPath I.value)
  exists_ : U (T.onPath I.exists_)
  isNull : U (T.onPath I.isNull)
  mapping : U (T.onPath I.mapping)
  sequence : U (T.onPath I.sequence)
  primitive : ∀ ty, U (T.onPath (I.primitive ty))
  hasSrc : U (T.onPath fun p => (.ok (I.hasSrc p), p))
  report : ∀ k, U (T.report I k)
  seqTry : U (Lex.seqTry I)
  compute : ∀ {t : T P Val}, U t → U (T.tryCatch t fun e =>
    if e.isSourceError || e.isValueError then Lex.failWith I e.str else T.raise e)
  withEnv : ∀ {α : Type} (g : Env → Env) {t : T P α},
    (∀ env, env.field.isSome → (g env).field.isSome) →
    (∀ env x, ∃ y, g { env with form := x } = { g env with form := y }) → U t → U (T.withEnv g t)
  withKey : ∀ {α : Type} {k : Val} {t : T P α}, (k.isIntLike || k.isStr) = true → U t → U (T.withKey I k t)
  rawKey : ∀ {k : Val} {n : Nat} {f : Field}, (k.isIntLike || k.isStr) = false → ValueHooks asks f →
    U (Lex.mapField I L C n f .NONE) → U (T.withKey I k (Lex.mapField I L C n f .NONE))
  rawStart : ∀ {k : Val} {n : Nat} {f : Field}, (k.isIntLike || k.isStr) = false → ValueHooks asks f →
    U (Lex.fieldStart I L C (Lex.mapField I L C n) f) → U (T.withKey I k (Lex.fieldStart I L C (Lex.mapField I L C n) f))
  nested : ∀ {β : Type} {t : T P Unit} {k : Bool → T P β}, frm → U t → (∀ b, U (k b)) →
    U (T.withErrs false t >>= fun x => T.extend x.2 >>= fun _ => k x.2.isEmpty)
  root : ∀ {β : Type} {t : T P Unit} {k : Bool → T P β}, frm → U t → (∀ b, U (k b)) →
    U (T.withErrs false (T.withSource (.ok (I.native (.dict []) none)) t) >>= fun x => k x.2.isEmpty)
  formItems : ∀ id, fok id → U (T.formItems id)
  formCls : ∀ id, frm → U (T.formCls id)
  formModify : ∀ id g, KeyLocal g → U (T.formModify id g)
  formParent : ∀ id par, U (T.formParent id par)
  newForm : ∀ {β : Type} (cls : Nat) {f : Nat → T P β}, frm → (∀ id, fok id → U (f id)) → U (T.newForm cls >>= f)
  poly : ∀ {tf : Field} {pc : Nat} {types : List (Val × Nat)} {reset : Bool} {u : Unmapped} {n : Nat},
    ok (.poly tf pc types reset u) →
    (∀ f v, f.All (fun g => ValueHooks asks g ∧ ok g.kind) → U (Lex.mapField I L C n f v)) →
    (∀ id tags (u : Unmapped), fok id → u.All (fun g => ValueHooks asks g ∧ ok g.kind) →
      U (Lex.formMapBody I C (Lex.mapField I L C n) id tags u)) →
    C.All (fun g => ValueHooks asks g ∧ ok g.kind) → tf.All (fun g => ValueHooks asks g ∧ ok g.kind) →
    ∀ {k : Option (Option Nat) → T P Val}, (∀ r, U (k r)) →
    U (Lex.guarded I (Lex.polyType I L C (Lex.mapField I L C n) tf pc types >>= k))

/-- What is closed is closed under guarding. -/
theorem guarded_of {P : Type} {I : PathOps P} {U : ∀ {α : Type}, T P α → Prop}
    (pure : ∀ {α : Type} (a : α), U (T.pure a))
    (bind : ∀ {α β : Type} {t : T P α} {f : α → T P β}, U t → (∀ a, U (f a)) → U (t >>= f))
    (exists_ : U (T.onPath I.exists_)) (isNull : U (T.onPath I.isNull))
    (compute : ∀ {t : T P Val}, U t → U (T.tryCatch t fun e =>
      if e.isSourceError || e.isValueError then Lex.failWith I e.str else T.raise e))
    {t : T P Val} (ht : U t) : U (Lex.guarded I t) := by
  unfold Lex.guarded
  refine bind exists_ fun ex => ?_
  split
  · exact pure _
  · refine bind isNull fun nl => ?_
    split
    · exact pure _
    · exact compute ht

theorem pyEq_str_left {k : Val} {n : String} : k.pyEq (.str n) = true ↔ k = .str n := by
  cases k <;> unfold Val.pyEq <;> simp [Val.num?]

theorem pyEq_str_right {k : Val} {n : String} : Val.pyEq (.str n) k = true ↔ k = .str n := by
  cases k with
  | str m =>
    unfold Val.pyEq
    constructor
    · intro h; rw [beq_iff_eq.1 h]
    · intro h; cases h; exact beq_self_eq_true _
  | _ => unfold Val.pyEq; exact ⟨fun h => (by cases h), fun h => (by cases h)⟩

theorem dictGet?_set (d : List (Val × Val)) (k v : Val) (n : String) :
    dictGet? (dictSet d k v) (.str n) = if k.pyEq (.str n) then some v else dictGet? d (.str n) := by
  induction d with
  | nil =>
    unfold dictSet dictGet?
    simp only [List.find?_cons, List.find?_nil]
    by_cases h : k.pyEq (.str n) = true
    · cases pyEq_str_left.1 h; rw [if_pos h, h]
    · rw [if_neg h, Bool.eq_false_iff.2 (fun h' => h (pyEq_str_left.2 (pyEq_str_right.1 h')))]
  | cons x d ih =>
    unfold dictSet
    split
    · rename_i hx
      unfold dictGet?
      simp only [List.find?_cons]
      by_cases h : k.pyEq (.str n) = true
      · cases pyEq_str_left.1 h
        rw [hx, if_pos h]
      · have hne : Val.pyEq (.str n) x.1 = false := by
          rw [Bool.eq_false_iff]
          intro h'
          rw [pyEq_str_right.1 h'] at hx
          exact h hx
        rw [if_neg h, hne]
    · rename_i hx
      unfold dictGet? at ih ⊢
      simp only [List.find?_cons]
      by_cases h : k.pyEq (.str n) = true
      · cases pyEq_str_left.1 h
        rw [Bool.eq_false_iff.2 hx]
        exact ih
      · rw [if_neg h] at ih ⊢
        cases Val.pyEq (.str n) x.1 with
        | true => rfl
        | false => exact ih

theorem dictGet?_del (d : List (Val × Val)) (k : Val) (n : String) :
    dictGet? (dictDel d k) (.str n) = if k.pyEq (.str n) then none else dictGet? d (.str n) := by
  induction d with
  | nil => unfold dictDel dictGet?; simp
  | cons x d ih =>
    unfold dictDel at ih ⊢
    by_cases hx : k.pyEq x.1 = true
    · rw [List.filter_cons_of_neg (by simp [hx]), ih]
      by_cases h : k.pyEq (.str n) = true
      · rw [if_pos h, if_pos h]
      · rw [if_neg h, if_neg h]
        have hne : Val.pyEq (.str n) x.1 = false := by
          rw [Bool.eq_false_iff]
          intro h'
          rw [pyEq_str_right.1 h'] at hx
          exact h hx
        unfold dictGet?
        rw [List.find?_cons, hne]
    · rw [List.filter_cons_of_pos (by simp [hx])]
      unfold dictGet? at ih ⊢
      rw [List.find?_cons, List.find?_cons]
      by_cases h : k.pyEq (.str n) = true
      · cases pyEq_str_left.1 h
        rw [Bool.eq_false_iff.2 hx]
        exact ih
      · rw [if_neg h] at ih ⊢
        cases Val.pyEq (.str n) x.1 with
        | true => rfl
        | false => exact ih

theorem KeyLocal.set (k v : Val) : KeyLocal (dictSet · k v) := fun a b n h => by
  rw [dictGet?_set, dictGet?_set, h]

theorem KeyLocal.del (k : Val) : KeyLocal (dictDel · k) := fun a b n h => by
  rw [dictGet?_del, dictGet?_del, h]

theorem KeyLocal.update (kvs : List (Val × Val)) : KeyLocal (dictUpdate · kvs) := by
  unfold dictUpdate
  induction kvs with
  | nil => exact fun _ _ _ h => h
  | cons x kvs ih => exact fun a b n h => ih _ _ n (KeyLocal.set x.1 x.2 a b n h)

theorem T.bind_assoc {P α β γ : Type} (t : T P α) (f : α → T P β) (g : β → T P γ) :
    (t >>= f) >>= g = t >>= fun a => f a >>= g := by
  funext env τ
  rcases h : t env τ with ⟨r, τ'⟩
  cases r with
  | error e => rw [T.bind_error h, T.bind_error (T.bind_error h)]
  | ok a =>
    rw [T.bind_ok h]
    rcases h2 : f a env τ' with ⟨r2, τ2⟩
    cases r2 with
    | error e => rw [T.bind_error h2, T.bind_error (by rw [T.bind_ok h]; exact h2)]
    | ok b => rw [T.bind_ok h2, T.bind_ok (by rw [T.bind_ok h]; exact h2)]

theorem T.ite_bind {P α β : Type} {c : Prop} [Decidable c] (t u : T P α) (f : α → T P β) :
    (if c then t else u) >>= f = if c then t >>= f else u >>= f := by split <;> rfl

namespace Closed
variable {P : Type} {I : PathOps P} {L : Lib} {C : Classes} (K : Closed I L C)

/-- The fields a closed predicate is about. -/
def Fit (f : Field) : Prop := ValueHooks K.asks f ∧ K.ok f.kind

/-- The predicate holds of the recursive call. -/
def RecU (rec : TRec P) : Prop :=
  (∃ n, rec = Lex.mapField I L C n) ∧ ∀ f v, f.All K.Fit → K.U (rec f v)

variable {K} {α β : Type} {rec : TRec P}

theorem ofExcept (r : Except Exc α) : K.U (T.ofExcept r) := by
  cases r with
  | ok a => exact K.pure a
  | error e => exact K.raise e

theorem ofExcept_bind {r : Except Exc α} {f : α → T P β} (h : ∀ a, r = .ok a → K.U (f a)) :
    K.U (T.ofExcept r >>= f) := by
  cases r with
  | ok a => exact h a rfl
  | error e => exact K.raise e

theorem bind' {t : T P α} {f : α → T P β} (h : K.U t) (hf : ∀ a, K.U (f a)) : K.U (T.bind t f) := K.bind h hf

theorem ite {c : Prop} [Decidable c] {t u : T P α} (ht : c → K.U t) (hu : ¬c → K.U u) :
    K.U (if c then t else u) := by
  split
  · exact ht ‹_›
  · exact hu ‹_›

theorem invalid (m : String) : K.U (Lex.invalid I m) := K.report _
theorem missing : K.U (Lex.missing I) := K.report _

end Closed

macro "cl_step" : tactic => `(tactic| with_reducible first
  | assumption
  | exact Closed.pure _ _ | exact Closed.raise _ _ | exact Closed.ofExcept _
  | exact Closed.ctxGet _ _ _ fun _ _ => rfl | exact Closed.ctxGet? _ _ fun _ _ => rfl
  | exact Closed.formItems _ _ ‹_› | exact Closed.formCls _ _ ‹_› | exact Closed.formParent _ _ _
  | exact Closed.formModify _ _ _ (KeyLocal.set _ _) | exact Closed.formModify _ _ _ (KeyLocal.del _)
  | exact Closed.formModify _ _ _ (KeyLocal.update _)
  | exact Closed.value _ | exact Closed.exists_ _ | exact Closed.isNull _ | exact Closed.mapping _
  | exact Closed.sequence _ | exact Closed.primitive _ _ | exact Closed.hasSrc _ | exact Closed.seqTry _
  | exact Closed.invalid _ | exact Closed.missing
  | refine Closed.compute _ ?_
  | refine Closed.bind _ ?_ ?_
  | refine Closed.bind' ?_ ?_
  | refine Closed.ite ?_ ?_
  | intro _
  | split
  | dsimp only)

macro "cls" : tactic => `(tactic| repeat' cl_step)
macro "cls" "[" ts:term,* "]" : tactic => do
  let ts := ts.getElems
  `(tactic| repeat' first $[| with_reducible apply $ts]* | cl_step)

namespace Closed
variable {P : Type} {I : PathOps P} {L : Lib} {C : Classes} {K : Closed I L C} {α β : Type} {rec : TRec P}

/-- Mapping a field below a key. -/
theorem atKey (hr : K.RecU rec) {f : Field} (hf : f.All K.Fit) (k : Val) : K.U (T.withKey I k (rec f .NONE)) := by
  obtain ⟨⟨n, rfl⟩, hr⟩ := hr
  cases hk : (k.isIntLike || k.isStr) with
  | true => exact K.withKey hk (hr f .NONE hf)
  | false => exact K.rawKey hk hf.node.1 (hr f .NONE hf)

theorem missingNotSet : K.U (Lex.missingNotSet I) := by unfold Lex.missingNotSet; cls
theorem rejectWith (m : String) : K.U (Lex.rejectWith I m) := by unfold Lex.rejectWith; cls
theorem failWith (m : String) : K.U (Lex.failWith I m) := by unfold Lex.failWith; cls

macro_rules | `(tactic| cl_step) => `(tactic| exact Closed.rejectWith _)
macro_rules | `(tactic| cl_step) => `(tactic| exact Closed.failWith _)
macro_rules | `(tactic| cl_step) => `(tactic| exact Closed.missingNotSet)

theorem baseValidate (f : Field) (v : Val) : K.U (Lex.baseValidate I f v) := by
  unfold Lex.baseValidate; cls
theorem stringValidate (f : Field) (c : StrCfg) (v : Val) : K.U (Lex.stringValidate I L f c v) := by
  unfold Lex.stringValidate; cls
theorem rangeValidate (lo hi : Option Val) (a b : Val → Val → String) (v : Val) :
    K.U (Lex.rangeValidate I L lo hi a b v) := by unfold Lex.rangeValidate; cls
theorem listValidate (lo hi : Option Nat) (v : Val) : K.U (Lex.listValidate I lo hi v) := by
  unfold Lex.listValidate; cls
theorem dictValidate (req : Required) (mx : Option Nat) (v : Val) :
    K.U (Lex.dictValidate I L req mx v) := by unfold Lex.dictValidate; cls

theorem kindValidate (f : Field) (v : Val) : K.U (Lex.kindValidate I L f v) := by
  unfold Lex.kindValidate Lex.numberValidate Lex.dateValidate
  cls [Closed.baseValidate, Closed.stringValidate, Closed.rangeValidate, Closed.listValidate,
    Closed.dictValidate]

theorem decimalParse : K.U (Lex.decimalParse I L) := by unfold Lex.decimalParse; cls
theorem dateParse (c : DateCfg) : K.U (Lex.dateParse I L c) := by unfold Lex.dateParse; cls
theorem timeParse (c : DateCfg) : K.U (Lex.timeParse I L c) := by unfold Lex.timeParse; cls
theorem datetimeParse (c : DateCfg) : K.U (Lex.datetimeParse I L c) := by unfold Lex.datetimeParse; cls
theorem codeParse : K.U (Lex.codeParse I L) := by unfold Lex.codeParse; cls
theorem uuidParse : K.U (Lex.uuidParse I L) := by unfold Lex.uuidParse; cls
theorem iterKeys (kv : KeysView) : K.U (Lex.iterKeys kv : T P _) := by unfold Lex.iterKeys; cls

/-! ### Forms -/

theorem formReset (id : Nat) (tags : List String) (fs : List Field) :
    K.U (Lex.formReset id tags fs : T P Unit) := by
  induction fs with
  | nil => exact K.pure _
  | cons f fs ih => unfold Lex.formReset; cls

theorem captureKey_fit : captureKeyField.All K.Fit :=
  .mk ⟨(hookFree_plain (fun _ _ _ _ _ h => by cases h)).calm, K.okString⟩ .string

theorem captureValue_fit : captureValueField.All K.Fit :=
  .mk ⟨(hookFree_plain (fun _ _ _ _ _ h => by cases h)).calm, K.okBase⟩ .base

theorem unmappedField_fit {id : Nat} (hid : K.fok id) {kf vf : Field} (hk : kf.All K.Fit) (hv : vf.All K.Fit) :
    (unmappedField id kf vf).All K.Fit := by
  refine .mk ⟨HookFree.calm ⟨.inl rfl, rfl, rfl, rfl, rfl, rfl, rfl, ?_⟩, K.okDict kf vf id hid⟩ (.dict hk hv)
  intro kf vf h r m e
  cases e
  exact ⟨id, rfl⟩

theorem unmappedGo (hr : K.RecU rec) {id : Nat} (hid : K.fok id) {kf vf : Field} (hk : kf.All K.Fit) (hv : vf.All K.Fit) :
    K.U (Lex.unmappedGo rec id kf vf) := by
  have h2 := hr.2 _ .NONE (unmappedField_fit hid hk hv)
  unfold Lex.unmappedGo
  cls

theorem applyUnmapped (hr : K.RecU rec) {id : Nat} (hid : K.fok id) {u : Unmapped} (hu : u.All K.Fit) :
    K.U (Lex.applyUnmapped rec id u) := by
  cases hu with
  | value h => exact unmappedGo hr hid captureKey_fit h
  | pair hk hv => exact unmappedGo hr hid hk hv
  | str =>
    rename_i u
    cases u with
    | capture => exact unmappedGo hr hid captureKey_fit captureValue_fit
    | none => exact K.pure _
    | ignore => exact K.pure _
    | bad => exact K.raise _

theorem mapOne (hr : K.RecU rec) {id : Nat} (tags : List String) {f : Field} (hf : f.All K.Fit) :
    K.U (Lex.mapOne rec id tags f) := by
  have h2 := hr.2 f .NONE hf
  unfold Lex.mapOne
  cls

theorem mapFields (hr : K.RecU rec) {id : Nat} (tags : List String) (fs : List Field)
    (hfs : ∀ f ∈ fs, f.All K.Fit) : K.U (Lex.mapFields rec id tags fs) := by
  induction fs with
  | nil => exact K.pure _
  | cons f fs ih =>
    unfold Lex.mapFields
    exact K.bind (mapOne hr tags (hfs f (by simp))) fun _ => ih fun g hg => hfs g (by simp [hg])

theorem formMapBody (hfr : K.frm) (hC : C.All K.Fit) (hr : K.RecU rec) {id : Nat} (hid : K.fok id) (tags : List String) {u : Unmapped}
    (hu : u.All K.Fit) : K.U (Lex.formMapBody I C rec id tags u) := by
  unfold Lex.formMapBody
  exact K.bind K.mapping fun _ => K.bind (K.formCls id hfr) fun cls =>
    K.bind (K.withEnv (fun env => { env with form := some id, parent := some (.form id) }) (fun _ h => h)
      (fun _ _ => ⟨some id, rfl⟩) (mapFields hr tags _ (hC cls))) fun _ => applyUnmapped hr hid hu

/-- `form.map()`, as far as the rest depends on whether there were errors. -/
theorem formMap (hfr : K.frm) (hC : C.All K.Fit) (hr : K.RecU rec) {id : Nat} (hid : K.fok id) (tags : List String) (reset : Bool)
    {u : Unmapped} (hu : u.All K.Fit) {k : Bool → T P β} (hk : ∀ b, K.U (k b)) :
    K.U (Lex.formMap I C rec id .none tags reset u false >>= fun es => k es.isEmpty) := by
  unfold Lex.formMap
  simp only [T.bind_assoc]
  refine K.bind (K.ctxGet? _ fun _ _ => rfl) fun ct => K.bind ?_ fun _ => K.bind (K.ctxGet _ _ fun _ _ => rfl) fun cs => ?_
  · unfold Lex.formResetIf
    have h := fun tags fs => formReset (K := K) id tags fs
    cls [h]
  · have hfin : ∀ es : List Err, (Lex.formFinish false es : T P _) = T.pure es := fun _ => rfl
    simp only [hfin]
    have hp : ∀ (es : List Err) (f : List Err → T P β), (T.pure es >>= f) = f es := fun _ _ => rfl
    simp only [hp]
    unfold Lex.formMapAt
    show K.U (((if cs then _ else _) : T P (List Err)) >>= fun es => k es.isEmpty)
    rw [T.ite_bind]
    refine ite (fun _ => ?_) fun _ => ?_
    · unfold Lex.nestedMap
      simp only [T.bind_assoc, hp]
      exact K.nested hfr (formMapBody hfr hC hr hid _ hu) hk
    · unfold Lex.rootMap Lex.rootSource
      simp only [T.bind_assoc, hp]
      exact K.root hfr (formMapBody hfr hC hr hid _ hu) hk

/-! ### Field steps -/

theorem fieldDefault {f : Field} (hf : ValueHooks K.asks f) : K.U (Lex.fieldDefault I L C rec f) := by
  unfold Lex.fieldDefault
  rcases hf.default with h | ⟨v, h⟩ <;> rw [h]
  · cls
  · refine K.bind (K.ctxGet _ _ fun _ _ => rfl) fun ig => ite (fun _ => missingNotSet) fun _ => ?_
    cases v with
    | const c => cases c <;> cls
    | _ => cls

theorem keepKey {kfl : Option (Hook (Val → Prog))} (hk : ∀ h, kfl = some h → ∃ id, h = notInForm id ∧ K.fok id)
    (k : Val) : K.U (Lex.keepKey I L C rec kfl k) := by
  cases kfl with
  | none => exact K.pure _
  | some h =>
    obtain ⟨id, rfl, hid⟩ := hk h rfl
    unfold Lex.keepKey
    refine K.bind ?_ fun v => K.pure _
    unfold Lex.callHook1
    show K.U (T.bind (Lex.evalProg I L C rec (.hasItem (.form id) k)) _)
    refine bind' ?_ fun r => K.pure _
    unfold Lex.evalProg
    have hp : ∀ f : Nat → T P Val, (Lex.asForm (.form id) >>= f) = f id := fun _ => rfl
    rw [hp]
    cls

theorem tupleLoop (hr : K.RecU rec) (fs : List Field) (hfs : ∀ f ∈ fs, f.All K.Fit) :
    ∀ i, K.U (Lex.tupleLoop I rec i fs) := by
  induction fs with
  | nil => intro i; exact K.pure _
  | cons f fs ih =>
    intro i
    have h1 := atKey hr (hfs f (by simp)) (.int i)
    have h2 := ih (fun g hg => hfs g (by simp [hg])) (i + 1)
    unfold Lex.tupleLoop
    cls

theorem listLoop (hr : K.RecU rec) {f : Field} (hf : f.All K.Fit) (n : Nat) :
    ∀ i, K.U (Lex.listLoop I rec f i n) := by
  induction n with
  | zero => intro i; exact K.pure _
  | succ n ih =>
    intro i
    have h1 := atKey hr hf (.int i)
    have h2 := ih (i + 1)
    unfold Lex.listLoop
    cls

theorem dictLoop (hr : K.RecU rec) {kf vf : Field} (hkf : kf.All K.Fit) (hvf : vf.All K.Fit)
    {kfl : Option (Hook (Val → Prog))} (hk : ∀ h, kfl = some h → ∃ id, h = notInForm id ∧ K.fok id) (ks : List Val) :
    ∀ acc, K.U (Lex.dictLoop I L C rec kf vf kfl ks acc) := by
  induction ks with
  | nil => intro acc; exact K.pure _
  | cons k ks ih =>
    intro acc
    have h1 := keepKey (K := K) (rec := rec) hk k
    have h2 := atKey hr hvf k
    have h3 := hr.2 kf k hkf
    unfold Lex.dictLoop
    cls [ih]

theorem groupLoop (hr : K.RecU rec) {fs : List (GSrc × Field)} (hfs : ∀ x ∈ fs, x.2.All K.Fit)
    (ks : List Val) : ∀ m acc, K.U (Lex.groupLoop I rec fs ks m acc) := by
  induction ks with
  | nil => intro m acc; exact K.pure _
  | cons k ks ih =>
    intro m acc
    unfold Lex.groupLoop
    refine ofExcept_bind fun r hg => ?_
    rcases r with _ | ⟨f, cap⟩
    · exact ih _ _
    · obtain ⟨g, hmem⟩ := groupMatch_mem hg
      exact K.bind (atKey hr (hfs _ hmem) k) fun v => ite (fun _ => ih _ _) fun _ => ih _ _

theorem subParse (hfr : K.frm) (hC : C.All K.Fit) (hr : K.RecU rec) (cls : Nat) (reset : Bool) {u : Unmapped}
    (hu : u.All K.Fit) : K.U (Lex.subParse I C rec cls reset u) := by
  unfold Lex.subParse
  exact K.newForm _ hfr fun id hid => formMap hfr hC hr hid _ _ hu (k := fun b => T.pure (if b then Val.form id else Val.ERROR))
    fun _ => K.pure _

theorem kindParse (hC : C.All K.Fit) (hr : K.RecU rec) {f : Field} (hf : f.All K.Fit)
    (hne : ∀ tf pc ts reset u, f.kind ≠ .poly tf pc ts reset u) : K.U (Lex.kindParse I L C rec f) := by
  have hn := hf.node
  have hk := hf.kind
  have hd := fieldDefault (K := K) (rec := rec) hn.1
  unfold Lex.kindParse
  cases hkind : f.kind with
  | decimal c => exact decimalParse
  | date c => exact dateParse c
  | time c => exact timeParse c
  | datetime c => exact datetimeParse c
  | tuple fs =>
    rw [hkind] at hk
    cases hk with
    | tuple h =>
      have h1 := tupleLoop hr fs h 0
      unfold Lex.tupleParse
      cls
  | list g lo hi a =>
    rw [hkind] at hk
    cases hk with
    | list h =>
      have h1 := fun n => listLoop hr h n 0
      have h2 := hr.2 g .NONE h
      unfold Lex.listParse
      cls [h1]
  | dict kf vf kfl r m =>
    rw [hkind] at hk
    cases hk with
    | dict hk hv =>
      have h1 := fun ks => dictLoop (kfl := kfl) hr hk hv
        (fun h e => by
          obtain ⟨id, rfl⟩ := hn.1.keyFilter kf vf h r m (by rw [hkind, e])
          exact ⟨id, rfl, K.okFilter kf vf id r m (by rw [← e, ← hkind]; exact hn.2)⟩) ks []
      have h2 := fun kv => iterKeys (K := K) kv
      unfold Lex.dictParse
      cls [h1, h2]
  | code => exact codeParse
  | uuid => exact uuidParse
  | subform cls reset u =>
    have hfr : K.frm := K.okSub cls reset u (by rw [← hkind]; exact hn.2)
    rw [hkind] at hk; cases hk with | subform h => exact subParse hfr hC hr cls reset h
  | poly tf pc ts reset u => exact absurd hkind (hne tf pc ts reset u)
  | group fs =>
    rw [hkind] at hk
    cases hk with
    | group h =>
      have h1 := fun ks => groupLoop hr h ks false []
      have h2 := fun kv => iterKeys (K := K) kv
      unfold Lex.groupParse
      cls [h1, h2]
  | _ => exact K.primitive _

/-- A hook that is a function of values does nothing else. -/
theorem callHook1 {h : Hook (Val → Prog)} (hp : h.Pure K.asks) (v : Val) : K.U (Lex.callHook1 I L C rec h v) := by
  obtain ⟨ht, g, hg⟩ := hp
  unfold Lex.callHook1 Lex.hookTarget
  refine bind' ?_ fun t => ?_
  · cases hh : h.target with
    | none => exact bind' (K.form (ht.resolve_right fun h => h hh)) fun _ => K.pure _
    | some t => exact K.pure _
  · rw [hg]
    induction (g v).1 with
    | nil => cases (g v).2 with
      | ok w => exact K.pure _
      | error e => exact K.raise _
    | cons m ms ih => exact bind' (bind' (invalid m) fun _ => K.pure _) fun _ => ih

theorem mungeStep {f : Field} (hf : ValueHooks K.asks f) (v : Val) : K.U (Lex.mungeStep I L C rec f v) := by
  unfold Lex.mungeStep
  refine bind' (ofExcept _) fun v => ite (fun _ => K.pure _) fun _ => ?_
  cases hm : f.core.munge with
  | none => exact K.pure _
  | some h => exact callHook1 (hf.munge h hm) v

theorem filterStep {f : Field} (hf : ValueHooks K.asks f) (v : Val) : K.U (Lex.filterStep I L C rec f v) := by
  unfold Lex.filterStep
  refine ite (fun _ => ?_) fun _ => K.pure _
  cases hm : f.core.filter with
  | none => exact K.pure _
  | some h => exact bind' (callHook1 (hf.filter h hm) v) fun _ => K.pure _

theorem validateStep {f : Field} (hf : ValueHooks K.asks f) (v : Val) : K.U (Lex.validateStep I L C rec f v) := by
  unfold Lex.validateStep
  refine bind' (kindValidate f v) fun b => ite (fun _ => ?_) fun _ => K.pure _
  cases hm : f.core.validate with
  | none => exact K.pure _
  | some h => exact bind' (callHook1 (hf.validate h hm) v) fun _ => K.pure _

theorem fieldCheck {f : Field} (hf : ValueHooks K.asks f) (v : Val) : K.U (Lex.fieldCheck I L C rec f v) := by
  have h1 := fieldDefault (K := K) (rec := rec) hf
  have h2 := fun v => kindValidate (K := K) f v
  have h3 := fun v => mungeStep (K := K) (rec := rec) hf v
  have h4 := fun v => filterStep (K := K) (rec := rec) hf v
  have h5 := fun v => validateStep (K := K) (rec := rec) hf v
  unfold Lex.fieldCheck
  cls [h3, h4, h5]

theorem fieldCompute (hC : C.All K.Fit) (hr : K.RecU rec) {f : Field} (hf : f.All K.Fit) :
    K.U (Lex.fieldCompute I L C rec f) := by
  show K.U (Lex.guarded I (Lex.fieldParse I L C rec f))
  rw [hf.node.1.fieldParse]
  by_cases hp : ∃ tf pc ts reset u, f.kind = .poly tf pc ts reset u
  · obtain ⟨tf, pc, ts, reset, u, hkind⟩ := hp
    have hk := hf.kind
    have hn := hf.node
    have hfr : K.frm := K.okPoly tf pc ts reset u (by rw [← hkind]; exact hn.2)
    unfold Lex.kindParse
    rw [hkind] at hk ⊢
    cases hk with
    | poly ht h =>
      obtain ⟨⟨m, rfl⟩, hr2⟩ := hr
      refine K.poly (by rw [← hkind]; exact hn.2) hr2
        (fun id tags u hid hu => formMapBody hfr hC ⟨⟨m, rfl⟩, hr2⟩ hid tags hu) hC ht
        (k := fun r => match r with
          | none => T.pure .NONE
          | some none => T.pure .ERROR
          | some (some cls) => Lex.subParse I C (Lex.mapField I L C m) cls reset u) fun r => ?_
      rcases r with _ | _ | cls
      · exact K.pure _
      · exact K.pure _
      · exact subParse hfr hC ⟨⟨m, rfl⟩, hr2⟩ cls reset h
  · exact guarded_of K.pure K.bind K.exists_ K.isNull K.compute
      (kindParse hC hr hf fun tf pc ts reset u h => hp ⟨tf, pc, ts, reset, u, h⟩)

theorem fieldStart (hC : C.All K.Fit) (hr : K.RecU rec) {f : Field} (hf : f.All K.Fit) :
    K.U (Lex.fieldStart I L C rec f) := by
  have h1 := fieldCompute hC hr hf
  have h2 := fieldDefault (K := K) (rec := rec) hf.node.1
  have h3 := fun v => fieldCheck (K := K) (rec := rec) hf.node.1 v
  rw [hf.node.1.fieldStart]
  cls [h3]

theorem withResolve (hr : K.RecU rec) {f : Field} (hf : ValueHooks K.asks f) (h : K.U (Lex.fieldStart I L C rec f)) :
    K.U (Lex.withResolve I L C rec f (Lex.fieldStart I L C rec f)) := by
  obtain ⟨⟨n, rfl⟩, hr⟩ := hr
  have hk : K.U (T.withKey I f.core.src (Lex.fieldStart I L C (Lex.mapField I L C n) f)) := by
    cases hk : (f.core.src.isIntLike || f.core.src.isStr) with
    | true => exact K.withKey hk h
    | false => exact K.rawStart hk hf h
  unfold Lex.withResolve
  rw [hf.resolve]
  cases f.kind <;> first
    | exact h
    | exact ite (fun _ => h) fun _ => hk

theorem setParent (v : Val) : K.U (Lex.setParent v : T P Unit) := by
  unfold Lex.setParent
  refine K.bind (K.ctxGet? _ fun _ _ => rfl) fun par => ?_
  cases v <;> cls

theorem mapFieldF (hC : C.All K.Fit) (hr : K.RecU rec) {f : Field} (hf : f.All K.Fit) (v : Val) :
    K.U (Lex.mapFieldF I L C rec f v) := by
  unfold Lex.mapFieldF Lex.fieldMapInner
  refine K.bind (K.withEnv (fun env => { env with field := some f.name, parent := some .field })
    (fun _ _ => rfl) (fun _ x => ⟨x, rfl⟩) (ite (fun _ => withResolve hr hf.node.1 (fieldStart hC hr hf))
    fun _ => fieldCheck hf.node.1 v)) fun w => ?_
  dsimp only
  exact ite (fun _ => K.bind (setParent w) fun _ => K.pure _) fun _ => K.pure _

/-- The predicate holds of mapping any fitting field. -/
theorem mapField (hC : C.All K.Fit) (n : Nat) : K.RecU (Lex.mapField I L C n) := by
  induction n with
  | zero => exact ⟨⟨0, rfl⟩, fun f v _ => K.raise _⟩
  | succ n ih => exact ⟨⟨n + 1, rfl⟩, fun f v hf => mapFieldF hC ih hf v⟩

end Closed
end Pilo
