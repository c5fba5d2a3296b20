import Verif.Closed

/-!
# Mapping does not look into the forms that are already there

Two runs of the same mapping from states that differ only in the contents of the forms that exist beforehand:
they have the same result, report the same errors and build the same new forms.
-/

namespace Pilo
namespace Blind
variable {P : Type} {I : PathOps P} {L : Lib} {C : Classes} {α β : Type}

/-- The entry of a form. -/
def entryOf (fs : List FormObj) (i : Nat) (k : String) : Option Val :=
  (fs[i]?).bind fun o => dictGet? o.items (.str k)

/-- What is known about the forms: the ones in `good` (all from `base` on) are the same, of the others only the
entries in `keys` are. -/
structure Spec where
  base : Nat
  good : Nat → Prop
  keys : Nat → String → Prop
  fresh : ∀ i, base ≤ i → good i

/-- Forms that agree as far as is known. -/
structure Forms (S : Spec) (fs gs : List FormObj) : Prop where
  len : fs.length = gs.length
  base : S.base ≤ fs.length
  cls : ∀ i : Nat, (fs[i]?).map FormObj.cls = (gs[i]?).map FormObj.cls
  good : ∀ i : Nat, S.good i → fs[i]? = gs[i]?
  keys : ∀ i k, S.keys i k → entryOf fs i k = entryOf gs i k

/-- States that agree on everything but the contents of the other forms. -/
structure Rel (S : Spec) (τ σ : TSt P) : Prop where
  path : τ.path = σ.path
  errs : τ.errs = σ.errs
  npaths : τ.npaths = σ.npaths
  forms : Forms S τ.forms σ.forms

/-- The computation does not depend on the contents of the other forms. -/
def Same (S : Spec) (t : T P α) : Prop :=
  ∀ env τ σ, Rel S τ σ → (t env τ).1 = (t env σ).1 ∧ Rel S (t env τ).2 (t env σ).2

variable {S : Spec}

theorem Forms.modify {fs gs : List FormObj} (h : Forms S fs gs) (id : Nat) (g : FormObj → FormObj)
    (hc : ∀ o, (g o).cls = o.cls)
    (hk : ∀ o o' k, dictGet? o.items (.str k) = dictGet? o'.items (.str k) →
      dictGet? (g o).items (.str k) = dictGet? (g o').items (.str k)) :
    Forms S (fs.modify id g) (gs.modify id g) where
  len := by simp [h.len]
  base := by simpa using h.base
  cls i := by
    have h1 := h.cls i
    rw [List.getElem?_modify, List.getElem?_modify]
    rcases hf : fs[i]? with _ | o <;> rcases hg : gs[i]? with _ | o' <;> simp only [hf, hg] at h1
    · rfl
    · cases h1
    · cases h1
    · simp only [Option.map_some, Option.some.injEq] at h1
      show some (if id = i then g o else o).cls = some (if id = i then g o' else o').cls
      split
      · rw [hc, hc, h1]
      · rw [h1]
  good i hi := by rw [List.getElem?_modify, List.getElem?_modify, h.good i hi]
  keys i k hik := by
    have h1 := h.keys i k hik
    have h2 := h.cls i
    unfold entryOf at h1 ⊢
    rw [List.getElem?_modify, List.getElem?_modify]
    rcases hf : fs[i]? with _ | o <;> rcases hg : gs[i]? with _ | o' <;> simp only [hf, hg] at h1 h2
    · rfl
    · cases h2
    · cases h2
    · simp only [Option.bind_some] at h1
      show dictGet? (if id = i then g o else o).items (.str k) = dictGet? (if id = i then g o' else o').items (.str k)
      split
      · exact hk o o' k h1
      · exact h1

theorem Forms.push {fs gs : List FormObj} (h : Forms S fs gs) (o : FormObj) : Forms S (fs ++ [o]) (gs ++ [o]) := by
  have hl : ∀ {i}, ¬ i < fs.length → (fs ++ [o])[i]? = (gs ++ [o])[i]? := by
    intro i hi
    rw [List.getElem?_append_right (by omega), List.getElem?_append_right (by rw [← h.len]; omega), h.len]
  have hr : ∀ {i}, i < fs.length → (fs ++ [o])[i]? = fs[i]? ∧ (gs ++ [o])[i]? = gs[i]? := fun hi =>
    ⟨List.getElem?_append_left hi, List.getElem?_append_left (by rw [← h.len]; exact hi)⟩
  refine ⟨by simp [h.len], by have := h.base; simp; omega, fun i => ?_, fun i hi => ?_, fun i k hik => ?_⟩
  · by_cases hi : i < fs.length
    · rw [(hr hi).1, (hr hi).2]; exact h.cls i
    · rw [hl hi]
  · by_cases hi' : i < fs.length
    · rw [(hr hi').1, (hr hi').2]; exact h.good i hi
    · exact hl hi'
  · have h1 := h.keys i k hik
    unfold entryOf at h1 ⊢
    by_cases hi' : i < fs.length
    · rw [(hr hi').1, (hr hi').2]; exact h1
    · rw [hl hi']

/-! ### The primitive computations -/

theorem Same.pure (a : α) : Same S (T.pure a : T P α) := fun _ _ _ h => ⟨rfl, h⟩
theorem Same.raise (e : Exc) : Same S (T.raise e : T P α) := fun _ _ _ h => ⟨rfl, h⟩

theorem Same.bind {t : T P α} {f : α → T P β} (ht : Same S t) (hf : ∀ a, Same S (f a)) : Same S (t >>= f) := by
  intro env τ σ h
  obtain ⟨h1, h2⟩ := ht env τ σ h
  rcases e1 : t env τ with ⟨r, τ'⟩
  rcases e2 : t env σ with ⟨r', σ'⟩
  rw [e1, e2] at h1 h2
  dsimp only at h1 h2
  subst h1
  cases r with
  | error e => rw [T.bind_error e1, T.bind_error e2]; exact ⟨rfl, h2⟩
  | ok a => rw [T.bind_ok e1, T.bind_ok e2]; exact hf a env τ' σ' h2

theorem Same.ite {c : Prop} [Decidable c] {t u : T P α} (ht : c → Same S t) (hu : ¬c → Same S u) :
    Same S (if c then t else u) := by
  split
  · exact ht ‹_›
  · exact hu ‹_›

theorem Same.tryCatch {t : T P α} {f : Exc → T P α} (ht : Same S t) (hf : ∀ e, Same S (f e)) :
    Same S (T.tryCatch t f) := by
  intro env τ σ h
  obtain ⟨h1, h2⟩ := ht env τ σ h
  unfold T.tryCatch
  rcases e1 : t env τ with ⟨r, τ'⟩
  rcases e2 : t env σ with ⟨r', σ'⟩
  rw [e1, e2] at h1 h2
  dsimp only at h1 h2
  subst h1
  cases r with
  | error e => exact hf e env τ' σ' h2
  | ok a => exact ⟨rfl, h2⟩

theorem Same.ctxGet (proj : Env → Option α) (n : String) : Same S (T.ctxGet proj n : T P α) := by
  intro env τ σ h
  unfold T.ctxGet
  cases proj env <;> exact ⟨rfl, h⟩

theorem Same.ctxGet? (proj : Env → Option α) : Same S (T.ctxGet? proj : T P _) := fun _ _ _ h => ⟨rfl, h⟩

theorem Same.onPath (f : P → Except Exc α × P) : Same S (T.onPath f) := by
  intro env τ σ h
  unfold T.onPath
  rw [← h.path]
  split
  · exact ⟨rfl, h⟩
  · exact ⟨rfl, h⟩
  · exact ⟨rfl, ⟨rfl, h.errs, h.npaths, h.forms⟩⟩

theorem Same.report (k : ErrKind) : Same S (T.report I k) := by
  unfold T.report
  refine .bind ?_ fun _ => .bind (.ctxGet _ _) fun _ => .bind ?_ fun _ => ?_
  · intro env τ σ h
    unfold T.errsBound
    rw [← h.errs]
    split <;> exact ⟨rfl, h⟩
  · intro env τ σ h
    unfold T.pathText
    rw [← h.path]
    split
    · exact ⟨rfl, h⟩
    · exact ⟨rfl, h⟩
    · split <;> exact ⟨rfl, h⟩
  · rename_i x
    obtain ⟨text, pr⟩ := x
    intro env τ σ h
    dsimp only
    unfold T.record
    rw [← h.errs]
    split
    · exact ⟨rfl, h⟩
    · exact ⟨rfl, ⟨h.path, rfl, h.npaths, h.forms⟩⟩

theorem Same.extend (es : List Err) : Same S (T.extend es : T P Unit) := by
  intro env τ σ h
  unfold T.extend
  rw [← h.errs]
  split
  · exact ⟨rfl, h⟩
  · exact ⟨rfl, ⟨h.path, rfl, h.npaths, h.forms⟩⟩

theorem Same.withEnv (g : Env → Env) {t : T P α} (ht : Same S t) : Same S (T.withEnv g t) :=
  fun env τ σ h => ht (g env) τ σ h

theorem Same.withKey (k : Val) {t : T P α} (ht : Same S t) : Same S (T.withKey I k t) := by
  intro env τ σ h
  unfold T.withKey
  obtain ⟨h1, h2⟩ := Same.onPath (pathAppend I k) env τ σ h
  rcases e1 : T.onPath (pathAppend I k) env τ with ⟨r, τ'⟩
  rcases e2 : T.onPath (pathAppend I k) env σ with ⟨r', σ'⟩
  rw [e1, e2] at h1 h2
  dsimp only at h1 h2
  subst h1
  cases r with
  | error e => exact ⟨rfl, h2⟩
  | ok _ =>
    dsimp only
    obtain ⟨h3, h4⟩ := ht { env with src := some (!k.isNull) } τ' σ' h2
    rcases e3 : t { env with src := some (!k.isNull) } τ' with ⟨r3, τ3⟩
    rcases e4 : t { env with src := some (!k.isNull) } σ' with ⟨r4, σ4⟩
    rw [e3, e4] at h3 h4
    dsimp only at h3 h4
    subst h3
    dsimp only
    obtain ⟨h5, h6⟩ := Same.onPath (pathPop I) env τ3 σ4 h4
    rcases e5 : T.onPath (pathPop I) env τ3 with ⟨r5, τ5⟩
    rcases e6 : T.onPath (pathPop I) env σ4 with ⟨r6, σ6⟩
    rw [e5, e6] at h5 h6
    dsimp only at h5 h6
    subst h5
    cases r5 <;> exact ⟨rfl, h6⟩

theorem Same.withSource (mk : Except Exc P) {t : T P α} (ht : Same S t) : Same S (T.withSource mk t) := by
  intro env τ σ h
  unfold T.withSource
  split
  · exact ⟨rfl, h⟩
  · rename_i p
    obtain ⟨h1, h2⟩ := ht { env with src := some true }
      { τ with path := some (some (τ.npaths, p)), npaths := τ.npaths + 1 }
      { σ with path := some (some (σ.npaths, p)), npaths := σ.npaths + 1 }
      ⟨by rw [h.npaths], h.errs, by rw [h.npaths], h.forms⟩
    exact ⟨h1, ⟨h.path, h2.errs, h2.npaths, h2.forms⟩⟩

theorem Same.withErrs (b : Bool) {t : T P α} (ht : Same S t) : Same S (T.withErrs b t) := by
  intro env τ σ h
  unfold T.withErrs
  obtain ⟨h1, h2⟩ := ht env { τ with errs := some { raising := b, items := [] } }
    { σ with errs := some { raising := b, items := [] } } ⟨h.path, rfl, h.npaths, h.forms⟩
  rcases e1 : t env { τ with errs := some { raising := b, items := [] } } with ⟨r, τ'⟩
  rcases e2 : t env { σ with errs := some { raising := b, items := [] } } with ⟨r', σ'⟩
  rw [e1, e2] at h1 h2
  dsimp only at h1 h2
  subst h1
  cases r with
  | error e => exact ⟨rfl, ⟨h2.path, h.errs, h2.npaths, h2.forms⟩⟩
  | ok a => exact ⟨by dsimp only; rw [h2.errs], ⟨h2.path, h.errs, h2.npaths, h2.forms⟩⟩

theorem Same.formItems {id : Nat} (hid : S.good id) : Same S (T.formItems id : T P _) := by
  intro env τ σ h
  unfold T.formItems
  rw [h.forms.good id hid]
  exact ⟨rfl, h⟩

theorem Same.formCls (id : Nat) : Same S (T.formCls id : T P _) := by
  intro env τ σ h
  have h1 := h.forms.cls id
  unfold T.formCls
  rcases hf : τ.forms[id]? with _ | o <;> rcases hg : σ.forms[id]? with _ | o' <;> rw [hf, hg] at h1
  · exact ⟨rfl, h⟩
  · cases h1
  · cases h1
  · simp only [Option.map_some, Option.some.injEq] at h1
    exact ⟨by dsimp only; rw [h1], h⟩

theorem Same.formModify (id : Nat) {g : List (Val × Val) → List (Val × Val)} (hg : KeyLocal g) :
    Same S (T.formModify id g : T P _) := fun _ _ _ h =>
  ⟨rfl, ⟨h.path, h.errs, h.npaths, h.forms.modify id _ (fun _ => rfl) fun _ _ k hk => hg _ _ k hk⟩⟩

theorem Same.formParent (id : Nat) (par : Option Parent) : Same S (T.formParent id par : T P _) := fun _ _ _ h =>
  ⟨rfl, ⟨h.path, h.errs, h.npaths, h.forms.modify id _ (fun _ => rfl) fun _ _ _ hk => hk⟩⟩

theorem Same.newForm (cls : Nat) {f : Nat → T P β} (hf : ∀ id, S.good id → Same S (f id)) :
    Same S (T.newForm cls >>= f) := by
  intro env τ σ h
  have e : ∀ τ : TSt P, (T.newForm cls >>= f) env τ =
      f τ.forms.length env { τ with forms := τ.forms ++ [{ cls := cls, items := [] }] } := fun _ => rfl
  rw [e, e, ← h.forms.len]
  exact hf _ (S.fresh _ h.forms.base) env _ _ ⟨h.path, h.errs, h.npaths, h.forms.push _⟩

theorem Same.ofExcept (r : Except Exc α) : Same S (T.ofExcept r : T P α) := fun _ _ _ h => ⟨rfl, h⟩

theorem Same.formReset (id : Nat) (tags : List String) (fs : List Field) :
    Same S (Lex.formReset id tags fs : T P Unit) := by
  induction fs with
  | nil => exact .pure _
  | cons f fs ih =>
    unfold Lex.formReset
    exact .bind (.ite (fun _ => .formModify id (KeyLocal.del _)) fun _ => .pure _) fun _ => ih

theorem Same.formResetIf (id : Nat) (tags : List String) (reset : Bool) :
    Same S (Lex.formResetIf C id tags reset : T P Unit) := by
  unfold Lex.formResetIf
  exact .ite (fun _ => .bind (.formCls _) fun _ => .formReset _ _ _) fun _ => .pure _

theorem Same.rootSource (id : Nat) (src : SrcArg P) : Same S (Lex.rootSource I C id src) := by
  unfold Lex.rootSource
  split
  · exact .pure _
  · exact .pure _
  · exact .pure _
  · exact .bind (.formCls _) fun _ => .pure _
  · exact .bind (.formCls _) fun _ => .pure _
  · exact .raise _

theorem Same.formMapAt {rec : TRec P} {id : Nat} (src : SrcArg P) {tags : List String} {u : Unmapped}
    (h : Same S (Lex.formMapBody I C rec id tags u)) (b cs : Bool) :
    Same S (Lex.formMapAt I C rec id src tags u b cs) := by
  have hroot : ∀ src : SrcArg P, Same S (Lex.rootMap I C rec id src tags u b) := fun src =>
    .bind (.rootSource id src) fun mk => .bind (.withErrs b (.withSource mk h)) fun _ => .pure _
  unfold Lex.formMapAt
  exact .ite (fun _ => .ite (fun _ => .bind (.withErrs b h) fun _ => .bind (.extend _) fun _ => .pure _)
    fun _ => hroot _) fun _ => hroot _

theorem Same.formFinish (b : Bool) (es : List Err) : Same S (Lex.formFinish b es : T P _) := by
  unfold Lex.formFinish
  exact .ite (fun _ => .ite (fun _ => .pure _) fun _ => .raise _) fun _ => .pure _

theorem Same.formMap {rec : TRec P} {id : Nat} (src : SrcArg P) (tags : List String) (reset : Bool) {u : Unmapped}
    (h : ∀ tags, Same S (Lex.formMapBody I C rec id tags u)) (b : Bool) :
    Same S (Lex.formMap I C rec id src tags reset u b) := by
  unfold Lex.formMap
  exact .bind (.ctxGet? _) fun _ => .bind (.formResetIf _ _ _) fun _ => .bind (.ctxGet _ _) fun _ =>
    .bind (.formMapAt _ (h _) _ _) fun _ => .formFinish _ _

theorem Same.polyType {n : Nat} {tf : Field} (hr : ∀ v, Same S (Lex.mapField I L C n tf v))
    (hb : ∀ id, S.good id → ∀ tags, Same S (Lex.formMapBody I C (Lex.mapField I L C n) id tags (.str .ignore)))
    (pc : Nat) (types : List (Val × Nat)) :
    Same S (Lex.polyType I L C (Lex.mapField I L C n) tf pc types) := by
  have hfin : ∀ id v, Same S (Lex.getFinish tf id v : T P Val) := by
    intro id v
    unfold Lex.getFinish
    exact .ite (fun _ => .raise _) fun _ => .bind (.formModify _ (KeyLocal.set _ _)) fun _ => .pure _
  have hempty : ∀ id, Same S (Lex.getEmpty I (Lex.mapField I L C n) tf id) := fun id =>
    .withSource _ (.withEnv _ (hr _))
  have hget : ∀ id, S.good id → Same S (Lex.fieldGet I (Lex.mapField I L C n) tf id) := by
    intro id hid
    unfold Lex.fieldGet
    refine .bind (.formItems hid) fun items => ?_
    split
    · exact .pure _
    · refine .bind (.ctxGet? _) fun fm => ?_
      split
      · exact .bind (.withErrs _ (hempty id)) fun _ => hfin _ _
      · exact .bind (.ctxGet? _) fun par => .ite (fun _ => .bind (hr _) fun _ => hfin _ _)
          fun _ => .bind (hempty id) fun _ => hfin _ _
  unfold Lex.polyType
  refine .bind (.tryCatch ?_ fun e => ?_) fun r => ?_
  · refine .bind ?_ fun src => .bind ?_ fun _ => .pure _
    · unfold Lex.probeSrc
      exact .bind (.onPath _) fun _ => .onPath _
    · unfold Lex.probe
      refine .newForm pc fun id hid => .bind (.formMap _ _ _ (hb id hid) _) fun es => ?_
      split
      · exact hget id hid
      · exact .raise _
  · exact .ite (fun _ => .bind (.report _) fun _ => .pure _) fun _ => .raise _
  · split
    · exact .pure _
    · exact .pure _
    · refine .ite (fun _ => .raise _) fun _ => ?_
      split
      · exact .pure _
      · exact .bind (.report _) fun _ => .pure _

/-- Key filters look only into known forms. -/
def looksAt (S : Spec) : Kind → Prop
  | .dict _ _ kfl _ _ => ∀ id, kfl = some (notInForm id) → S.good id
  | _ => True

theorem notInForm_inj {i j : Nat} (h : notInForm i = notInForm j) : i = j := by
  have := congrArg Hook.target h
  simpa [notInForm] using this

/-- Mapping fields whose hooks are functions of the value does not look into the other forms. -/
def closed (S : Spec) (I : PathOps P) (L : Lib) (C : Classes) : Closed I L C where
  U t := Same S t
  ok := looksAt S
  fok := S.good
  okString := trivial
  okBase := trivial
  okDict _ _ _ h i e := by
    simp only [Option.some.injEq] at e
    exact notInForm_inj e ▸ h
  okFilter _ _ id _ _ h := h id rfl
  asks := True
  form _ := .ctxGet _ _
  pure := .pure
  raise := .raise
  bind := .bind
  ctxGet _ _ _ := .ctxGet _ _
  ctxGet? _ _ := .ctxGet? _
  value := .onPath _
  exists_ := .onPath _
  isNull := .onPath _
  mapping := .onPath _
  sequence := .onPath _
  primitive _ := .onPath _
  hasSrc := .onPath _
  report := .report
  seqTry := by
    unfold Lex.seqTry
    refine .tryCatch (.bind (.onPath _) fun _ => .pure _) fun e => ?_
    refine .bind (.onPath _) fun _ => .ite (fun _ => .raise _) fun _ => .ite (fun _ => .pure _) fun _ => .raise _
  compute h := .tryCatch h fun e => .ite (fun _ => .bind (.report _) fun _ => .pure _) fun _ => .raise _
  withEnv g _ _ _ h := .withEnv g h
  withKey _ h := .withKey _ h
  rawKey _ _ h := .withKey _ h
  rawStart _ _ h := .withKey _ h
  nested _ h hk := .bind (.withErrs _ h) fun _ => .bind (.extend _) fun _ => hk _
  root _ h hk := .bind (.withErrs _ (.withSource _ h)) fun _ => hk _
  formItems _ h := .formItems h
  formCls _ _ := .formCls _
  formModify id _ h := .formModify id h
  formParent := .formParent
  newForm cls _ _ h := .newForm cls h
  poly := by
    intro tf pc types reset u n _ hr hb _ htf k hk
    exact guarded_of (U := Same S) .pure .bind (.onPath _) (.onPath _)
      (fun h => .tryCatch h fun e => .ite (fun _ => .bind (.report _) fun _ => .pure _) fun _ => .raise _)
      (.bind (.polyType (fun v => hr tf v htf) (fun id hid tags => hb id tags _ hid .str) pc types) hk)

end Blind
end Pilo
