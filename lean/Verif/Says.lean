import Verif.View

/-!
# Failures are reported

`Says S t c`: in a mapping that collects errors, whenever `t` returns normally with a result `a` for which
`c a` holds, at least one error was added.  `c` picks out the failures.
-/

namespace Pilo

/-- `ERROR` or `NOT_SET`: the results that say a field failed. -/
def Val.isMark : Val → Bool
  | .const .ERROR | .const .NOT_SET => true
  | _ => false

/-- Keys a form can be asked for; keys of dictionaries are hashable. -/
def Keyable (al : List (Val × Val)) : Prop := ∀ kv ∈ al, kv.1.isNull = false ∧ kv.1.isMark = false ∧ kv.1.hashable = true

/-- What is assumed of the data: no sentinel of `pilo` comes out of it.  `Q` is an invariant of paths whose
source holds neither `ERROR` nor `NOT_SET` and whose mappings have neither sentinels nor `None` as keys. -/
structure Sane {P : Type} (I : PathOps P) where
  Q : P → Prop
  append : ∀ {p k q}, Q p → I.append p k = .ok q → Q q
  pop : ∀ {p q}, Q p → I.pop p = .ok q → Q q
  value : ∀ {p}, Q p → Q (I.value p).2
  exists_ : ∀ {p}, Q p → Q (I.exists_ p).2
  isNull : ∀ {p}, Q p → Q (I.isNull p).2
  mapping : ∀ {p}, Q p → Q (I.mapping p).2
  sequence : ∀ {p}, Q p → Q (I.sequence p).2
  primitive : ∀ {p ty}, Q p → Q (I.primitive ty p).2
  read : ∀ {p ty v}, Q p → (I.primitive ty p).1 = .ok v → v.isMark = false
  keys : ∀ {p kv}, Q p → (I.mapping p).1 = .ok (some kv) →
    ∀ k ∈ kv.ks, k.isNull = false ∧ k.isMark = false ∧ k.hashable = true
  join : ∀ {p q}, Q p → I.joinPath p = some (.ok q) → Q q
  empty : Q (I.native (.dict []) none)
  again : ∀ {p v}, Q p → (I.value p).1 = .ok v → Q (I.native v none)
  positional : ∀ {p v al}, Q p → (I.value p).1 = .ok v →
    Keyable al → Q (I.native v (some al))

/-- The configuration holds no sentinels either: a default is `NOT_SET` (none given) or a usable value, and
a value is not translated to `ERROR` or `NOT_SET`. -/
structure Sober (f : Field) : Prop where
  default : ∀ v, f.core.default = .value v → v = .NOT_SET ∨ v.isIgnore = false
  translations : ∀ kv ∈ f.core.translations, kv.2.isMark = false

/-- Library code called by `pilo` returns no sentinels. -/
structure SoberLib (L : Lib) : Prop where
  call : ∀ id v, L.call id = .ok v → v.isIgnore = false
  compile : ∀ s v, Code.compile L s = .ok v → v.isMark = false
  load : ∀ n a v, Code.load L n a = .ok v → v.isMark = false

/-- A field of `C06`: no hooks, no sentinels in its configuration. -/
def Tame (f : Field) : Prop := HookFree f ∧ Sober f

theorem sober_plain {c : FieldCore} {k : Kind} (hd : c.default = .unset := by rfl)
    (ht : c.translations = [] := by rfl) : Sober (.mk c k) where
  default := by intro v h; simp only [Field.core, hd] at h; cases h
  translations := by intro kv h; simp only [Field.core, ht] at h; cases h

theorem Field.All.both {p q : Field → Prop} {f : Field} (h : f.All fun g => p g ∧ q g) :
    f.All p ∧ f.All q := ⟨h.imp fun _ h => h.1, h.imp fun _ h => h.2⟩

section
variable {P : Type} {I : PathOps P} (S : Sane I)

def QT (τ : TSt P) : Prop := ∀ r p, τ.path = some (some (r, p)) → S.Q p

/-- A mapping with errors collected in `b`, somewhere inside a source, without `ignore_missing`. -/
structure In (env : Env) (τ : TSt P) (b : ErrBuf) : Prop where
  src : env.src = some true
  ignoreMissing : env.ignoreMissing = some false
  errs : τ.errs = some b
  q : QT S τ

def Says {α : Type} (t : T P α) (c : α → Bool) : Prop :=
  ∀ env τ b, In S env τ b → ∃ es, (t env τ).2.errs = some { b with items := b.items ++ es } ∧
    QT S (t env τ).2 ∧
    (b.raising = false → ∀ a, (t env τ).1 = .ok a → c a = true → es ≠ [])

variable {S} {α β : Type}

/-- Nothing is claimed about the result. -/
abbrev Quiet {α : Type} (S : Sane I) (t : T P α) : Prop := Says S t fun _ => false

theorem Says.weaken {t : T P α} {c c' : α → Bool} (h : Says S t c) (hc : ∀ a, c' a = true → c a = true) :
    Says S t c' := by
  intro env τ b hi
  obtain ⟨es, h1, h2, h3⟩ := h env τ b hi
  exact ⟨es, h1, h2, fun hb a ha hca => h3 hb a ha (hc a hca)⟩

theorem Says.quiet {t : T P α} {c : α → Bool} (h : Says S t c) : Quiet S t :=
  h.weaken fun _ h => by cases h

theorem Says.state {t : T P α} {c : α → Bool} (h : ∀ env τ, (t env τ).2 = τ)
    (hc : ∀ env τ b, In S env τ b → ∀ a, (t env τ).1 = .ok a → c a = false) : Says S t c := by
  intro env τ b hi
  refine ⟨[], by rw [h, hi.errs]; simp, by rw [h]; exact hi.q, ?_⟩
  intro _ a ha hca
  rw [hc env τ b hi a ha] at hca
  cases hca

theorem Says.pure {a : α} {c : α → Bool} (h : c a = false) : Says S (T.pure a : T P α) c :=
  .state (fun _ _ => rfl) fun _ _ _ _ b hb => by cases hb; exact h

theorem Says.raise {e : Exc} {c : α → Bool} : Says S (T.raise e : T P α) c :=
  .state (fun _ _ => rfl) fun _ _ _ _ b hb => by cases hb

theorem Says.ofExcept {r : Except Exc α} {c : α → Bool} (h : ∀ a, r = .ok a → c a = false) :
    Says S (T.ofExcept r : T P α) c :=
  .state (fun _ _ => rfl) fun _ _ _ _ b hb => h b hb

theorem Says.ctxGet? (proj : Env → Option α) : Quiet S (T.ctxGet? proj : T P _) :=
  .state (fun _ _ => rfl) fun _ _ _ _ _ _ => rfl

theorem Says.ctxGet (proj : Env → Option α) (n : String) : Quiet S (T.ctxGet proj n : T P _) :=
  .state (fun env τ => by unfold T.ctxGet; cases proj env <;> rfl) fun _ _ _ _ _ _ => rfl

/-- What the environment of a mapping guarantees. -/
theorem Says.ctxGetIs {proj : Env → Option α} {n : String} {c : α → Bool}
    (h : ∀ env : Env, env.src = some true → env.ignoreMissing = some false →
      ∀ a, proj env = some a → c a = false) :
    Says S (T.ctxGet proj n : T P _) c :=
  .state (fun env τ => by unfold T.ctxGet; cases proj env <;> rfl) fun env τ b hi a ha => by
    unfold T.ctxGet at ha
    cases hp : proj env with
    | none => rw [hp] at ha; cases ha
    | some x => rw [hp] at ha; cases ha; exact h env hi.src hi.ignoreMissing _ hp

theorem Says.bind {t : T P α} {f : α → T P β} {c : α → Bool} {d : β → Bool} (h : Says S t c)
    (hf : ∀ a, Says S (f a) fun x => d x && !c a) : Says S (t >>= f) d := by
  intro env τ b hi
  obtain ⟨es, h1, h2, h3⟩ := h env τ b hi
  rcases ht : t env τ with ⟨r, τ'⟩
  rw [ht] at h1 h2 h3
  cases r with
  | error e => rw [T.bind_error ht]; exact ⟨es, h1, h2, by intro _ a ha; cases ha⟩
  | ok a =>
    rw [T.bind_ok ht]
    obtain ⟨es', g1, g2, g3⟩ := hf a env τ' _ ⟨hi.src, hi.ignoreMissing, h1, h2⟩
    refine ⟨es ++ es', by rw [g1]; simp, g2, ?_⟩
    intro hb x hx hd
    cases hca : c a with
    | true =>
      intro hnil
      exact h3 hb a rfl hca (List.append_eq_nil_iff.1 hnil).1
    | false =>
      intro hnil
      exact g3 hb x hx (by simp [hd, hca]) (List.append_eq_nil_iff.1 hnil).2

/-- The usual case: nothing is known of the intermediate result. -/
theorem Says.seq {t : T P α} {f : α → T P β} {d : β → Bool} (h : Quiet S t)
    (hf : ∀ a, Says S (f a) d) : Says S (t >>= f) d :=
  .bind h fun a => (hf a).weaken fun x hx => by simpa using hx

/-- The result is not used after a failure. -/
theorem Says.bindIf {t : T P α} {f : α → T P β} {c : α → Bool} {d : β → Bool} (h : Says S t c)
    (hq : ∀ a, c a = true → Quiet S (f a)) (hf : ∀ a, c a = false → Says S (f a) d) :
    Says S (t >>= f) d :=
  .bind h fun a => by
    cases hca : c a with
    | true => exact (hq a hca).weaken fun x hx => by simp at hx
    | false => exact (hf a hca).weaken fun x hx => by simpa using hx

theorem Says.tryCatch {t : T P α} {h : Exc → T P α} {c : α → Bool} (ht : Says S t c)
    (hh : ∀ e, Says S (h e) c) : Says S (T.tryCatch t h) c := by
  intro env τ b hi
  obtain ⟨es, h1, h2, h3⟩ := ht env τ b hi
  unfold T.tryCatch
  rcases hr : t env τ with ⟨r, τ'⟩
  rw [hr] at h1 h2 h3
  cases r with
  | ok a => exact ⟨es, h1, h2, h3⟩
  | error e =>
    obtain ⟨es', g1, g2, g3⟩ := hh e env τ' _ ⟨hi.src, hi.ignoreMissing, h1, h2⟩
    refine ⟨es ++ es', by simp only; rw [g1]; simp, g2, ?_⟩
    intro hb x hx hc hnil
    exact g3 hb x hx hc (List.append_eq_nil_iff.1 hnil).2

theorem Says.ite {c : Prop} [Decidable c] {t u : T P α} {d : α → Bool} (ht : c → Says S t d)
    (hu : ¬c → Says S u d) : Says S (if c then t else u) d := by
  split
  · exact ht ‹_›
  · exact hu ‹_›

theorem Says.onPath {f : P → Except Exc α × P} {c : α → Bool}
    (h : ∀ p, S.Q p → S.Q (f p).2 ∧ ∀ a, (f p).1 = .ok a → c a = false) : Says S (T.onPath f) c := by
  intro env τ b hi
  unfold T.onPath
  rcases hp : τ.path with _ | _ | ⟨r, p⟩
  · exact ⟨[], by simp [hi.errs], hi.q, by intro _ a ha; cases ha⟩
  · exact ⟨[], by simp [hi.errs], hi.q, by intro _ a ha; cases ha⟩
  · obtain ⟨h1, h2⟩ := h p (hi.q r p hp)
    refine ⟨[], by simp [hi.errs], ?_, ?_⟩
    · intro r' q' hq; cases hq; exact h1
    · intro _ a ha hc
      rw [h2 a ha] at hc
      cases hc

theorem Says.value : Quiet S (T.onPath I.value) := .onPath fun _ h => ⟨S.value h, fun _ _ => rfl⟩
theorem Says.exists_ : Quiet S (T.onPath I.exists_) := .onPath fun _ h => ⟨S.exists_ h, fun _ _ => rfl⟩
theorem Says.isNull : Quiet S (T.onPath I.isNull) := .onPath fun _ h => ⟨S.isNull h, fun _ _ => rfl⟩
theorem Says.mapping : Quiet S (T.onPath I.mapping) := .onPath fun _ h => ⟨S.mapping h, fun _ _ => rfl⟩
theorem Says.sequence : Quiet S (T.onPath I.sequence) := .onPath fun _ h => ⟨S.sequence h, fun _ _ => rfl⟩
theorem Says.primitive (ty : PTy) : Says S (T.onPath (I.primitive ty)) Val.isMark :=
  .onPath fun _ h => ⟨S.primitive h, fun _ ha => S.read h ha⟩

/-- The mapping has a key that is no key. -/
def badKeys : Option KeysView → Bool
  | none => false
  | some kv => kv.ks.any fun k => k.isNull || k.isMark

theorem Says.withEnv {g : Env → Env} {t : T P α} {c : α → Bool} (h : Says S t c)
    (hs : ∀ env : Env, (g env).src = env.src := by intro _; rfl)
    (hm : ∀ env : Env, (g env).ignoreMissing = env.ignoreMissing := by intro _; rfl) :
    Says S (T.withEnv g t) c := by
  intro env τ b hi
  exact h (g env) τ b ⟨by rw [hs, hi.src], by rw [hm, hi.ignoreMissing], hi.errs, hi.q⟩

theorem Says.withSource {mk : Except Exc P} {t : T P α} {c : α → Bool} (hmk : ∀ p, mk = .ok p → S.Q p)
    (h : Says S t c) : Says S (T.withSource mk t) c := by
  intro env τ b hi
  unfold T.withSource
  cases mk with
  | error e => exact ⟨[], by simp [hi.errs], hi.q, by intro _ a ha; cases ha⟩
  | ok p =>
    obtain ⟨es, h1, h2, h3⟩ := h { env with src := some true }
      { τ with path := some (some (τ.npaths, p)), npaths := τ.npaths + 1 } b
      ⟨rfl, hi.ignoreMissing, hi.errs, by intro r q hq; cases hq; exact hmk _ rfl⟩
    exact ⟨es, h1, hi.q, h3⟩

/-- A list of errors of its own. -/
theorem Says.withErrs {raising : Bool} {t : T P α} {c : α → Bool} (h : Says S t c) :
    Quiet S (T.withErrs raising t) := by
  intro env τ b hi
  obtain ⟨es, h1, h2, h3⟩ := h env { τ with errs := some { raising := raising, items := [] } } _
    ⟨hi.src, hi.ignoreMissing, rfl, hi.q⟩
  unfold T.withErrs
  rcases hr : t env { τ with errs := some { raising := raising, items := [] } } with ⟨r, τ'⟩
  rw [hr] at h1 h2
  cases r <;> exact ⟨[], by simp [hi.errs], h2, by intro _ a _ ha; cases ha⟩

theorem Says.withKey {k : Val} {t : T P α} {c : α → Bool} (hk : k.isNull = false) (h : Says S t c) :
    Says S (T.withKey I k t) c := by
  intro env τ b hi
  have h0 : Quiet S (T.onPath (pathAppend I k)) := .onPath fun p hp => by
    unfold pathAppend
    cases ha : I.append p k with
    | error e => exact ⟨hp, fun _ _ => rfl⟩
    | ok q => exact ⟨S.append hp ha, fun _ _ => rfl⟩
  have h9 : Quiet S (T.onPath (pathPop I)) := .onPath fun p hp => by
    unfold pathPop
    cases ha : I.pop p with
    | error e => exact ⟨hp, fun _ _ => rfl⟩
    | ok q => exact ⟨S.pop hp ha, fun _ _ => rfl⟩
  obtain ⟨es0, a1, a2, -⟩ := h0 env τ b hi
  unfold T.withKey
  rcases h0r : T.onPath (pathAppend I k) env τ with ⟨r0, τ0⟩
  rw [h0r] at a1 a2
  cases r0 with
  | error e => exact ⟨es0, a1, a2, by intro _ a ha; cases ha⟩
  | ok _ =>
    obtain ⟨es, b1, b2, b3⟩ := h { env with src := some (!k.isNull) } τ0 _
      ⟨by simp [hk], hi.ignoreMissing, a1, a2⟩
    dsimp only
    rcases hr : t { env with src := some (!k.isNull) } τ0 with ⟨r, τ1⟩
    rw [hr] at b1 b2 b3
    obtain ⟨es9, c1, c2, -⟩ := h9 env τ1 _ ⟨hi.src, hi.ignoreMissing, b1, b2⟩
    dsimp only
    rcases h9r : T.onPath (pathPop I) env τ1 with ⟨r9, τ9⟩
    rw [h9r] at c1 c2
    cases r9 with
    | error e => exact ⟨es0 ++ es ++ es9, by rw [c1]; simp, c2, by intro _ a ha; cases ha⟩
    | ok _ =>
      refine ⟨es0 ++ es ++ es9, by rw [c1]; simp, c2, ?_⟩
      intro hb a ha hc hnil
      have := List.append_eq_nil_iff.1 (List.append_eq_nil_iff.1 hnil).1
      exact b3 hb a ha hc this.2

theorem Says.pathText : Quiet S (T.pathText I) := .state (fun env τ => by
  unfold T.pathText
  rcases τ.path with _ | _ | ⟨r, p⟩
  · rfl
  · rfl
  · cases h : I.render p <;> simp only [h]) fun _ _ _ _ _ _ => rfl

theorem Says.errsBound : Quiet S (T.errsBound : T P Unit) :=
  .state (fun env τ => by unfold T.errsBound; cases τ.errs <;> rfl) fun _ _ _ _ _ _ => rfl

theorem Says.extend (es : List Err) : Says S (T.extend es : T P Unit) fun _ => !es.isEmpty := by
  intro env τ b hi
  unfold T.extend
  rw [hi.errs]
  refine ⟨es, rfl, hi.q, ?_⟩
  rintro _ _ _ h rfl
  cases h

theorem Says.record (e : Err) : Says S (T.record e : T P Unit) fun _ => true := by
  intro env τ b hi
  unfold T.record
  rw [hi.errs]
  exact ⟨[e], rfl, hi.q, fun _ _ _ _ h => by cases h⟩

/-- Whatever is recorded counts for every claim. -/
theorem Says.report (k : ErrKind) : Says S (T.report I k) fun _ => true := by
  unfold T.report
  exact .seq .errsBound fun _ => .seq (.ctxGet _ _) fun _ => .seq .pathText fun _ => .record _

theorem Says.afterReport {k : ErrKind} {f : Unit → T P α} {c : α → Bool} (h : Quiet S (f ())) :
    Says S (T.report I k >>= f) c :=
  .bindIf (.report k) (fun _ _ => h) fun _ h => by cases h

theorem Says.formItems (id : Nat) : Quiet S (T.formItems id : T P _) :=
  .state (fun _ _ => rfl) fun _ _ _ _ _ _ => rfl
theorem Says.formCls (id : Nat) : Quiet S (T.formCls id : T P _) :=
  .state (fun env τ => by unfold T.formCls; cases τ.forms[id]? <;> rfl) fun _ _ _ _ _ _ => rfl

theorem Says.onForms {t : T P α} (h : ∀ env τ, ∃ fs, (t env τ).2 = { τ with forms := fs }) :
    Quiet S t := by
  intro env τ b hi
  obtain ⟨fs, h⟩ := h env τ
  rw [h]
  exact ⟨[], by simp [hi.errs], hi.q, by intro _ _ _ h; cases h⟩

theorem Says.formModify (id : Nat) (g : List (Val × Val) → List (Val × Val)) :
    Quiet S (T.formModify id g : T P Unit) := .onForms fun _ _ => ⟨_, rfl⟩
theorem Says.formParent (id : Nat) (par : Option Parent) :
    Quiet S (T.formParent id par : T P Unit) := .onForms fun _ _ => ⟨_, rfl⟩
theorem Says.newForm (cls : Nat) : Quiet S (T.newForm cls : T P Nat) := .onForms fun _ _ => ⟨_, rfl⟩

end

macro "says_step" : tactic => `(tactic| first
  | ((with_reducible refine Says.pure ?_); rfl)
  | ((with_reducible refine Says.ofExcept ?_); exact fun _ _ => rfl)
  | with_reducible first
  | assumption
  | exact Says.raise
  | exact Says.ctxGet _ _ | exact Says.ctxGet? _
  | exact Says.formItems _ | exact Says.formCls _ | exact Says.formParent _ _ | exact Says.formModify _ _
  | exact Says.newForm _
  | exact Says.value | exact Says.exists_ | exact Says.isNull | exact Says.mapping
  | exact Says.sequence
  | refine Says.tryCatch ?_ ?_
  | refine Says.seq ?_ ?_
  | refine Says.ite ?_ ?_
  | intro _
  | split
  | dsimp only)

macro "says" : tactic => `(tactic| repeat' says_step)
macro "says" "[" ts:term,* "]" : tactic => do
  let ts := ts.getElems
  `(tactic| repeat' first $[| with_reducible apply $ts]* | says_step)

section
variable {P : Type} {I : PathOps P} {S : Sane I} {L : Lib} {C : Classes} {α β : Type} {rec : TRec P}

theorem Says.failWith {c : Val → Bool} (m : String) : Says S (Lex.failWith I m) c := by
  unfold Lex.failWith Lex.invalid
  exact .afterReport (.pure rfl)

theorem Says.rejectWith {c : Bool → Bool} (m : String) : Says S (Lex.rejectWith I m) c := by
  unfold Lex.rejectWith Lex.invalid
  exact .afterReport (.pure rfl)

theorem Says.missingNotSet {c : Val → Bool} : Says S (Lex.missingNotSet I) c := by
  unfold Lex.missingNotSet Lex.missing
  refine .bindIf (c := id) (.ctxGetIs ?_) ?_ ?_
  · intro env _ h a ha
    rw [h] at ha; cases ha; rfl
  · rintro a rfl
    exact .pure rfl
  · rintro a rfl
    exact .afterReport (.pure rfl)

/-! ### Validation: a rejected value is reported -/

theorem Says.baseValidate (f : Field) (v : Val) : Says S (Lex.baseValidate I f v) (!·) := by
  unfold Lex.baseValidate
  exact .ite (fun _ => .rejectWith _) fun _ => .pure rfl

theorem Says.stringValidate (f : Field) (cfg : StrCfg) (v : Val) :
    Says S (Lex.stringValidate I L f cfg v) (!·) := by
  unfold Lex.stringValidate
  says [Says.rejectWith]

theorem Says.rangeValidate (lo hi : Option Val) (a b : Val → Val → String) (v : Val) :
    Says S (Lex.rangeValidate I L lo hi a b v) (!·) := by
  unfold Lex.rangeValidate
  says [Says.rejectWith]

theorem Says.listValidate (lo hi : Option Nat) (v : Val) : Says S (Lex.listValidate I lo hi v) (!·) := by
  unfold Lex.listValidate
  says [Says.rejectWith]

theorem Says.dictValidate (req : Required) (mx : Option Nat) (v : Val) :
    Says S (Lex.dictValidate I L req mx v) (!·) := by
  unfold Lex.dictValidate
  says [Says.rejectWith]

theorem Says.kindValidate (f : Field) (v : Val) : Says S (Lex.kindValidate I L f v) (!·) := by
  unfold Lex.kindValidate Lex.numberValidate Lex.dateValidate
  refine .bindIf (.baseValidate f v) ?_ ?_
  · intro a ha
    rw [ha]
    exact .pure rfl
  · intro a ha
    rw [ha]
    simp only [Bool.false_eq_true, if_false]
    says [Says.stringValidate, Says.rangeValidate, Says.listValidate, Says.dictValidate]

/-! ### Parsing -/

theorem Says.primitiveQ (ty : PTy) : Quiet S (T.onPath (I.primitive ty)) := (Says.primitive ty).quiet

theorem Says.decimalParse : Says S (Lex.decimalParse I L) Val.isMark := by
  unfold Lex.decimalParse
  says [Says.primitiveQ]

theorem Says.dateParse (cfg : DateCfg) : Says S (Lex.dateParse I L cfg) Val.isMark := by
  have h : ∀ s fs, (dateLoop L s fs).isMark = false := by
    intro s fs
    induction fs with
    | nil => rfl
    | cons f fs ih =>
      unfold dateLoop
      repeat' split
      all_goals first | rfl | exact ih
  unfold Lex.dateParse
  says [Says.primitiveQ, Says.failWith, Says.pure (h _ _)]

theorem Says.timeParse (cfg : DateCfg) : Says S (Lex.timeParse I L cfg) Val.isMark := by
  unfold Lex.timeParse
  says [Says.primitiveQ, Says.failWith]

theorem Says.datetimeParse (cfg : DateCfg) : Says S (Lex.datetimeParse I L cfg) Val.isMark := by
  unfold Lex.datetimeParse
  says [Says.primitiveQ, Says.failWith]

theorem Says.uuidParse : Says S (Lex.uuidParse I L) Val.isMark := by
  unfold Lex.uuidParse
  says [Says.primitiveQ]

theorem Says.codeParse (hL : SoberLib L) : Says S (Lex.codeParse I L) Val.isMark := by
  unfold Lex.codeParse
  refine .bindIf (.primitive _) ?_ ?_
  · intro a ha
    cases a with
    | const c => exact .pure rfl
    | _ => cases ha
  · intro a ha
    cases a with
    | str s =>
      dsimp only
      refine .ite (fun _ => ?_) fun _ => ?_
      · cases hc : Code.compile L s with
        | ok r => exact .pure (hL.compile s r hc)
        | error e => exact .failWith _
      · cases Code.importMatch L s with
        | none => exact .failWith _
        | some m =>
          obtain ⟨n, a⟩ := m
          cases hc : Code.load L n a with
          | ok r => simp only [hc]; exact .pure (hL.load n a r hc)
          | error e => simp only [hc]; exact .failWith _
    | _ => exact .pure ha


/-! ### Results with a property that does not depend on errors -/

variable (S) in
/-- No claim about errors, but one about every normal result. -/
def Gives (t : T P α) (post : α → Prop) : Prop :=
  ∀ env τ b, In S env τ b → ∃ es, (t env τ).2.errs = some { b with items := b.items ++ es } ∧
    QT S (t env τ).2 ∧ ∀ a, (t env τ).1 = .ok a → post a

theorem Gives.bind {t : T P α} {post : α → Prop} {f : α → T P β} {d : β → Bool} (h : Gives S t post)
    (hf : ∀ a, post a → Says S (f a) d) : Says S (t >>= f) d := by
  intro env τ b hi
  obtain ⟨es, h1, h2, h3⟩ := h env τ b hi
  rcases ht : t env τ with ⟨r, τ'⟩
  rw [ht] at h1 h2 h3
  cases r with
  | error e => rw [T.bind_error ht]; exact ⟨es, h1, h2, by intro _ a ha; cases ha⟩
  | ok a =>
    rw [T.bind_ok ht]
    obtain ⟨es', g1, g2, g3⟩ := hf a (h3 a rfl) env τ' _ ⟨hi.src, hi.ignoreMissing, h1, h2⟩
    refine ⟨es ++ es', by rw [g1]; simp, g2, ?_⟩
    intro hb x hx hd hnil
    exact g3 hb x hx hd (List.append_eq_nil_iff.1 hnil).2

theorem Gives.seq {t : T P α} {post : β → Prop} {f : α → T P β} (h : Quiet S t)
    (hf : ∀ a, Gives S (f a) post) : Gives S (t >>= f) post := by
  intro env τ b hi
  obtain ⟨es, h1, h2, h3⟩ := h env τ b hi
  rcases ht : t env τ with ⟨r, τ'⟩
  rw [ht] at h1 h2 h3
  cases r with
  | error e => rw [T.bind_error ht]; exact ⟨es, h1, h2, by intro a ha; cases ha⟩
  | ok a =>
    rw [T.bind_ok ht]
    obtain ⟨es', g1, g2, g3⟩ := hf a env τ' _ ⟨hi.src, hi.ignoreMissing, h1, h2⟩
    exact ⟨es ++ es', by rw [g1]; simp, g2, g3⟩

theorem Gives.pure {a : α} {post : α → Prop} (h : post a) : Gives S (T.pure a : T P α) post :=
  fun _ _ _ hi => ⟨[], by simp [T.pure, hi.errs], hi.q, by intro b hb; cases hb; exact h⟩

theorem Gives.raise {e : Exc} {post : α → Prop} : Gives S (T.raise e : T P α) post :=
  fun _ _ _ hi => ⟨[], by simp [T.raise, hi.errs], hi.q, by intro b hb; cases hb⟩

theorem Gives.ctxGet {proj : Env → Option α} {n : String} {post : α → Prop}
    (h : ∀ env : Env, env.src = some true → env.ignoreMissing = some false →
      ∀ a, proj env = some a → post a) : Gives S (T.ctxGet proj n : T P _) post := by
  intro env τ b hi
  unfold T.ctxGet
  cases hp : proj env with
  | none => exact ⟨[], by simp [hi.errs], hi.q, by intro a ha; cases ha⟩
  | some x =>
    exact ⟨[], by simp [hi.errs], hi.q, by
      intro a ha; cases ha; exact h env hi.src hi.ignoreMissing _ hp⟩

theorem Gives.mappingKeys : Gives S (T.onPath I.mapping) fun o => badKeys o = false := by
  intro env τ b hi
  unfold T.onPath
  rcases hp : τ.path with _ | _ | ⟨r, p⟩
  · exact ⟨[], by simp [hi.errs], hi.q, by intro a ha; cases ha⟩
  · exact ⟨[], by simp [hi.errs], hi.q, by intro a ha; cases ha⟩
  · have hq := hi.q r p hp
    refine ⟨[], by simp [hi.errs], by intro r' q' h; cases h; exact S.mapping hq, ?_⟩
    intro a ha
    cases a with
    | none => rfl
    | some kv =>
      have := S.keys hq ha
      unfold badKeys
      rw [List.any_eq_false]
      intro k hk
      obtain ⟨h1, h2, -⟩ := this k hk
      simp [h1, h2]

variable (S) in
/-- The source of a form is clean. -/
def SrcQ : SrcArg P → Prop
  | .none => True
  | .data v => S.Q (I.native v none) ∧ ∀ al, Keyable al → S.Q (I.native v (some al))
  | .source mk => ∀ p, mk = .ok p → S.Q p

/-- Every field of every class has a name (`pilo/fields.py:1485-1500` sets it). -/
def Named (C : Classes) : Prop := ∀ cls, ∀ f ∈ (C cls).fields, f.name.isSome

theorem dictSet_key {d : List (Val × Val)} {k v : Val} :
    ∀ {x : Val × Val}, x ∈ dictSet d k v → x.1 = k ∨ ∃ y ∈ d, y.1 = x.1 := by
  induction d with
  | nil => intro x hx; simp only [dictSet, List.mem_singleton] at hx; exact .inl (by rw [hx])
  | cons a d ih =>
    obtain ⟨k', v'⟩ := a
    intro x hx
    unfold dictSet at hx
    split at hx
    · rcases List.mem_cons.1 hx with rfl | h
      · exact .inr ⟨(k', v'), by simp, rfl⟩
      · exact .inr ⟨x, by simp [h], rfl⟩
    · rcases List.mem_cons.1 hx with rfl | h
      · exact .inr ⟨(k', v'), by simp, rfl⟩
      · rcases ih h with h | ⟨y, hy, hk⟩
        · exact .inl h
        · exact .inr ⟨y, by simp [hy], hk⟩

theorem foldl_dictSet_key (l : List (Val × Val)) : ∀ (d : List (Val × Val)) {x : Val × Val},
    x ∈ l.foldl (fun d kv => dictSet d kv.1 kv.2) d → (∃ y ∈ l, y.1 = x.1) ∨ ∃ y ∈ d, y.1 = x.1 := by
  induction l with
  | nil => intro d x hx; exact .inr ⟨x, hx, rfl⟩
  | cons a l ih =>
    intro d x hx
    rcases ih _ hx with ⟨y, hy, hk⟩ | ⟨y, hy, hk⟩
    · exact .inl ⟨y, by simp [hy], hk⟩
    · rcases dictSet_key hy with h | ⟨z, hz, hzk⟩
      · exact .inl ⟨a, by simp, by rw [← hk, h]⟩
      · exact .inr ⟨z, hz, hzk.trans hk⟩

theorem seqAliases_key {fs : List Field} {x : Val × Val} (h : x ∈ seqAliases fs) :
    ∃ f ∈ fs, f.key = x.1 := by
  unfold seqAliases at h
  rcases foldl_dictSet_key _ _ h with ⟨y, hy, hk⟩ | ⟨y, hy, -⟩
  · obtain ⟨⟨f, i⟩, hfi, rfl⟩ := List.mem_map.1 hy
    obtain ⟨-, hlt, hf⟩ := List.mem_zipIdx hfi
    refine ⟨f, ?_, hk⟩
    rw [hf]
    exact List.getElem_mem _
  · cases hy

theorem seqAliases_keyable (hN : Named C) (cls : Nat) : Keyable (seqAliases (C cls).fields) := by
  intro x hx
  obtain ⟨f, hf, hk⟩ := seqAliases_key hx
  have := hN cls f hf
  rw [← hk]
  unfold Field.key
  cases hn : f.name with
  | none => rw [hn] at this; cases this
  | some n => exact ⟨rfl, rfl, rfl⟩

theorem rootSource_sane (hN : Named C) {id : Nat} {src : SrcArg P} (h : SrcQ S src) :
    Gives S (Lex.rootSource I C id src) fun mk => ∀ p, mk = .ok p → S.Q p := by
  unfold Lex.rootSource
  split
  · exact .pure (by intro p hp; cases hp; exact S.empty)
  · exact .pure h
  · exact .pure (by intro p hp; cases hp; exact h.1)
  · exact .seq (.formCls _) fun cls => .pure (by
      intro p hp; cases hp; exact h.2 _ (seqAliases_keyable hN cls))
  · exact .seq (.formCls _) fun cls => .pure (by
      intro p hp; cases hp; exact h.2 _ (seqAliases_keyable hN cls))
  · exact .raise

theorem probeSrc_sane : Gives S (Lex.probeSrc I) (SrcQ S) := by
  intro env τ b hi
  unfold Lex.probeSrc
  rcases hp : τ.path with _ | _ | ⟨r, p⟩
  · have : T.onPath I.value env τ = (.error (noCtxAttr "src_path"), τ) := by
      unfold T.onPath; rw [hp]
    rw [T.bind_error this]
    exact ⟨[], by simp [hi.errs], hi.q, by intro a ha; cases ha⟩
  · have : T.onPath I.value env τ =
        (.error (.attributeError "'NoneType' object has no attribute"), τ) := by
      unfold T.onPath; rw [hp]
    rw [T.bind_error this]
    exact ⟨[], by simp [hi.errs], hi.q, by intro a ha; cases ha⟩
  · have hq := hi.q r p hp
    have hv := T.onPath_run (f := I.value) (env := env) hp
    cases hval : (I.value p).1 with
    | error e =>
      rw [hval] at hv
      rw [T.bind_error hv]
      exact ⟨[], by simp [hi.errs], by intro r' q' h; cases h; exact S.value hq, by intro a ha; cases ha⟩
    | ok v =>
      rw [hval] at hv
      rw [T.bind_ok hv, T.onPath_run (r := r) (p := (I.value p).2) rfl]
      refine ⟨[], by simp [hi.errs], by intro r' q' h; cases h; exact S.value hq, ?_⟩
      intro a ha
      cases ha
      cases hj : I.joinPath (I.value p).2 with
      | none => exact ⟨S.again hq hval, fun al hal => S.positional hq hval hal⟩
      | some mk =>
        intro q hmk
        subst hmk
        exact S.join (S.value hq) hj

/-! ### Forms -/

variable (S) in
/-- `rec` reports every failure. -/
def RecSays (rec : TRec P) : Prop :=
  ∀ f v, f.All Tame → v.isMark = false → Says S (rec f v) Val.isIgnore

theorem captureKey_tame : captureKeyField.All Tame :=
  .mk ⟨captureKey_free.node, sober_plain⟩ .string
theorem captureValue_tame : captureValueField.All Tame :=
  .mk ⟨captureValue_free.node, sober_plain⟩ .base

theorem unmappedField_tame {id : Nat} {kf vf : Field} (hk : kf.All Tame) (hv : vf.All Tame) :
    (unmappedField id kf vf).All Tame :=
  .mk ⟨(unmappedField_free (hk.imp fun _ h => h.1) (hv.imp fun _ h => h.1)).node, sober_plain⟩
    (.dict hk hv)

theorem RecSays.quiet (hr : RecSays S rec) {f : Field} (hf : f.All Tame) : Quiet S (rec f .NONE) :=
  (hr f .NONE hf rfl).quiet

theorem Says.formReset (id : Nat) (tags : List String) (fs : List Field) :
    Quiet S (Lex.formReset id tags fs : T P Unit) := by
  induction fs with
  | nil => exact .pure rfl
  | cons f fs ih =>
    unfold Lex.formReset
    says

theorem Says.unmappedGo (hr : RecSays S rec) (id : Nat) {kf vf : Field} (hk : kf.All Tame)
    (hv : vf.All Tame) : Quiet S (Lex.unmappedGo rec id kf vf) := by
  have h := hr.quiet (unmappedField_tame (id := id) hk hv)
  unfold Lex.unmappedGo
  says

theorem Says.applyUnmapped (hr : RecSays S rec) (id : Nat) {u : Unmapped} (hu : u.All Tame) :
    Quiet S (Lex.applyUnmapped rec id u) := by
  cases hu with
  | value h => exact .unmappedGo hr id captureKey_tame h
  | pair hk hv => exact .unmappedGo hr id hk hv
  | str =>
    rename_i u
    cases u with
    | capture => exact .unmappedGo hr id captureKey_tame captureValue_tame
    | none => exact .pure rfl
    | ignore => exact .pure rfl
    | bad => exact .raise

theorem Says.mapFields (hr : RecSays S rec) (id : Nat) (tags : List String) (fs : List Field)
    (hfs : ∀ f ∈ fs, f.All Tame) : Quiet S (Lex.mapFields rec id tags fs) := by
  induction fs with
  | nil => exact .pure rfl
  | cons f fs ih =>
    have h1 := hr.quiet (hfs f (by simp))
    have h2 := ih fun g hg => hfs g (by simp [hg])
    unfold Lex.mapFields Lex.mapOne
    says

theorem Says.formMapBody (hC : C.All Tame) (hr : RecSays S rec) (id : Nat) (tags : List String)
    {u : Unmapped} (hu : u.All Tame) : Quiet S (Lex.formMapBody I C rec id tags u) := by
  unfold Lex.formMapBody
  exact .seq .mapping fun _ => .seq (.formCls id) fun cls =>
    .seq (.withEnv (.mapFields hr id tags _ (hC cls))) fun _ => .applyUnmapped hr id hu

/-- The errors of a nested form reach the enclosing list. -/
theorem Says.nestedMap (hC : C.All Tame) (hr : RecSays S rec) (id : Nat) (tags : List String)
    {u : Unmapped} (hu : u.All Tame) (raising : Bool) :
    Says S (Lex.nestedMap I C rec id tags u raising) fun es => !es.isEmpty := by
  unfold Lex.nestedMap
  refine .seq (.withErrs (.formMapBody hC hr id tags hu)) fun p => ?_
  refine .bindIf (.extend _) (fun _ _ => .pure rfl) fun _ h => .pure h

theorem Says.rootMap (hN : Named C) (hC : C.All Tame) (hr : RecSays S rec) (id : Nat) {src : SrcArg P}
    (hsrc : SrcQ S src) (tags : List String) {u : Unmapped} (hu : u.All Tame) (raising : Bool) :
    Quiet S (Lex.rootMap I C rec id src tags u raising) := by
  unfold Lex.rootMap
  exact Gives.bind (rootSource_sane hN hsrc) fun mk hmk =>
    .seq (.withErrs (.withSource hmk (.formMapBody hC hr id tags hu))) fun _ => .pure rfl

theorem Says.formResetIf (id : Nat) (tags : List String) (reset : Bool) :
    Quiet S (Lex.formResetIf C id tags reset : T P Unit) := by
  unfold Lex.formResetIf
  says [Says.formReset]

theorem Says.formMap (hN : Named C) (hC : C.All Tame) (hr : RecSays S rec) (id : Nat) {src : SrcArg P}
    (hsrc : SrcQ S src) (tags : List String) (reset : Bool) {u : Unmapped} (hu : u.All Tame)
    (raising : Bool) : Quiet S (Lex.formMap I C rec id src tags reset u raising) := by
  unfold Lex.formMap
  refine .seq (.ctxGet? _) fun ct => .seq (.formResetIf _ _ _) fun _ => .seq (.ctxGet _ _) fun cs =>
    .seq ?_ fun es => ?_
  · unfold Lex.formMapAt
    split
    · split
      · exact (Says.nestedMap hC hr id _ hu raising).quiet
      · exact .rootMap hN hC hr id (by trivial) _ hu raising
    · exact .rootMap hN hC hr id hsrc _ hu raising
  · unfold Lex.formFinish
    says

/-- A sub form that fails has reported something. -/
theorem Says.subMap (hC : C.All Tame) (hr : RecSays S rec) (id : Nat)
    (tags : List String) (reset : Bool) {u : Unmapped} (hu : u.All Tame) :
    Says S (Lex.formMap I C rec id .none tags reset u false) fun es => !es.isEmpty := by
  unfold Lex.formMap
  refine .seq (.ctxGet? _) fun ct => .seq (.formResetIf _ _ _) fun _ =>
    Gives.bind (post := fun b => b = true) (.ctxGet ?_) fun cs hcs => ?_
  · intro env h _ a ha
    rw [h] at ha; cases ha; rfl
  · subst hcs
    refine .bindIf (.nestedMap hC hr id _ hu false) ?_ ?_
    · intro a _
      exact .pure rfl
    · intro a h
      exact .pure h

theorem Says.subParse (hC : C.All Tame) (hr : RecSays S rec) (cls : Nat) (reset : Bool) {u : Unmapped}
    (hu : u.All Tame) : Says S (Lex.subParse I C rec cls reset u) Val.isMark := by
  unfold Lex.subParse
  refine .seq (.newForm _) fun id => .bindIf (.subMap hC hr id _ _ hu) (fun _ _ => .pure rfl) fun es h => ?_
  refine .pure ?_
  simp only [Bool.not_eq_false'] at h
  rw [h]
  rfl

theorem Says.fieldGet (hr : RecSays S rec) {f : Field} (hf : f.All Tame) (id : Nat) :
    Quiet S (Lex.fieldGet I rec f id) := by
  have h1 := hr.quiet hf
  have h2 : ∀ v, Quiet S (Lex.getFinish f id v : T P Val) := by
    intro v
    unfold Lex.getFinish
    says
  have h3 : Quiet S (Lex.getEmpty I rec f id) := by
    unfold Lex.getEmpty
    exact .withSource (by intro p hp; cases hp; exact S.empty) (.withEnv h1)
  unfold Lex.fieldGet
  refine .seq (.formItems _) fun items => ?_
  split
  · exact .pure rfl
  · refine .seq (.ctxGet? _) fun o => ?_
    split
    · exact .seq (.withErrs h3) fun _ => h2 _
    · exact .seq (.ctxGet? _) fun par => .ite (fun _ => .seq h1 h2) fun _ => .seq h3 h2

theorem Says.probe (hN : Named C) (hC : C.All Tame) (hr : RecSays S rec) {tf : Field} (hf : tf.All Tame)
    (pc : Nat) {src : SrcArg P} (hsrc : SrcQ S src) : Quiet S (Lex.probe I C rec tf pc src) := by
  unfold Lex.probe
  refine .seq (.newForm _) fun id => .seq (.formMap hN hC hr id hsrc _ _ .str _) fun es => ?_
  cases es with
  | nil => exact .fieldGet hr hf id
  | cons e es => exact .raise

theorem Says.polyType (hN : Named C) (hC : C.All Tame) (hr : RecSays S rec) {tf : Field}
    (hf : tf.All Tame) (pc : Nat) (types : List (Val × Nat)) :
    Says S (Lex.polyType I L C rec tf pc types) fun r => r == some none := by
  unfold Lex.polyType
  refine .bindIf (c := Option.isNone) (.tryCatch (Gives.bind probeSrc_sane fun src hsrc =>
    .seq (.probe hN hC hr hf pc hsrc) fun v => .pure rfl) fun e => ?_) ?_ ?_
  · refine .ite (fun _ => ?_) fun _ => .raise
    exact .afterReport (.pure rfl)
  · intro a ha
    cases a with
    | none => exact .pure rfl
    | some v => cases ha
  · intro a ha
    cases a with
    | none => cases ha
    | some v =>
      have h : Says S (if (!v.hashable) = true then T.raise (.typeError "unhashable type")
          else match types.find? (fun p => v.pyEq p.1) with
            | some p => T.pure (some (some p.2))
            | none => do
              Lex.invalid I ("invalid identity " ++ L.fmt v)
              T.pure (some none)) fun r => r == some none := by
        refine .ite (fun _ => .raise) fun _ => ?_
        split
        · exact .pure rfl
        · exact .afterReport (.pure rfl)
      cases v with
      | none => exact .pure rfl
      | _ => exact h

theorem Says.polyParse (hN : Named C) (hC : C.All Tame) (hr : RecSays S rec) {tf : Field}
    (hf : tf.All Tame) (pc : Nat) (types : List (Val × Nat)) (reset : Bool) {u : Unmapped}
    (hu : u.All Tame) : Says S (Lex.polyParse I L C rec tf pc types reset u) Val.isMark := by
  unfold Lex.polyParse
  refine .bindIf (.polyType hN hC hr hf pc types) ?_ ?_
  · intro a ha
    rcases a with _ | _ | cls
    · cases ha
    · exact .pure rfl
    · simp at ha
  · intro a ha
    rcases a with _ | _ | cls
    · exact .pure rfl
    · simp at ha
    · exact .subParse hC hr cls reset hu

/-! ### Containers -/

theorem Says.fieldDefault (hL : SoberLib L) {f : Field} (hf : Tame f) :
    Says S (Lex.fieldDefault I L C rec f) Val.isIgnore := by
  unfold Lex.fieldDefault
  refine .seq (.ctxGet _ _) fun ig => .ite (fun _ => .missingNotSet) fun _ => ?_
  rcases hf.1.default with h | ⟨v, h⟩ <;> rw [h]
  · exact .missingNotSet
  · rcases hf.2.default v h with rfl | hv
    · exact .missingNotSet
    · cases v with
      | const c => cases hv
      | func id => exact .ofExcept fun a ha => hL.call id a ha
      | _ => exact .pure rfl

theorem mark_ignore {v : Val} (h : v.isMark = true) : v.isIgnore = true := by
  cases v with
  | const c => rfl
  | _ => cases h

theorem Says.tupleLoop (hr : RecSays S rec) (fs : List Field) (hfs : ∀ f ∈ fs, f.All Tame) :
    ∀ i, Quiet S (Lex.tupleLoop I rec i fs) := by
  induction fs with
  | nil => intro i; exact .pure rfl
  | cons f fs ih =>
    intro i
    have h1 := Says.withKey (k := .int i) rfl (hr.quiet (hfs f (by simp)))
    have h2 := ih (fun g hg => hfs g (by simp [hg])) (i + 1)
    unfold Lex.tupleLoop
    says

theorem Says.listLoop (hr : RecSays S rec) {f : Field} (hf : f.All Tame) (n : Nat) :
    ∀ i, Quiet S (Lex.listLoop I rec f i n) := by
  induction n with
  | zero => intro i; exact .pure rfl
  | succ n ih =>
    intro i
    have h1 := Says.withKey (k := .int i) rfl (hr.quiet hf)
    have h2 := ih (i + 1)
    unfold Lex.listLoop
    says

theorem Says.keepKey {kfl : Option (Hook (Val → Prog))} (hk : ∀ h, kfl = some h → ∃ id, h = notInForm id)
    (k : Val) : Quiet S (Lex.keepKey I L C rec kfl k) := by
  cases kfl with
  | none => exact .pure rfl
  | some h =>
    obtain ⟨id, rfl⟩ := hk h rfl
    unfold Lex.keepKey
    refine .seq ?_ fun v => .pure rfl
    unfold Lex.callHook1
    refine .seq (.pure rfl) fun t => ?_
    show Quiet S (T.bind (Lex.evalProg I L C rec (.hasItem t k)) _)
    refine Says.seq ?_ fun r => .pure rfl
    unfold Lex.evalProg Lex.asForm
    says

theorem Says.dictLoop (hr : RecSays S rec) {kf vf : Field} (hkf : kf.All Tame) (hvf : vf.All Tame)
    {kfl : Option (Hook (Val → Prog))} (hk : ∀ h, kfl = some h → ∃ id, h = notInForm id) (ks : List Val)
    (hks : ∀ k ∈ ks, k.isNull = false ∧ k.isMark = false) :
    ∀ acc, Quiet S (Lex.dictLoop I L C rec kf vf kfl ks acc) := by
  induction ks with
  | nil => intro acc; exact .pure rfl
  | cons k ks ih =>
    intro acc
    have h0 := hks k (by simp)
    have h1 := Says.keepKey (S := S) (L := L) (C := C) (rec := rec) hk k
    have h2 := Says.withKey h0.1 (hr.quiet hvf)
    have h3 := (hr kf k hkf h0.2).quiet
    have h4 := ih fun k' hk' => hks k' (by simp [hk'])
    unfold Lex.dictLoop
    says [h4]

theorem Says.groupLoop (hr : RecSays S rec) {fs : List (GSrc × Field)} (hfs : ∀ x ∈ fs, x.2.All Tame)
    (ks : List Val) (hks : ∀ k ∈ ks, k.isNull = false ∧ k.isMark = false) :
    ∀ m acc, Quiet S (Lex.groupLoop I rec fs ks m acc) := by
  induction ks with
  | nil => intro m acc; exact .pure rfl
  | cons k ks ih =>
    intro m acc
    have h4 := ih fun k' hk' => hks k' (by simp [hk'])
    unfold Lex.groupLoop
    refine Gives.bind (post := fun r => groupMatch fs k = .ok r)
      (fun env τ b hi => ⟨[], by simp [T.ofExcept, hi.errs], hi.q, fun a ha => ha⟩) fun r hg => ?_
    rcases r with _ | ⟨f, cap⟩
    · exact h4 _ _
    · obtain ⟨g, hmem⟩ := groupMatch_mem hg
      exact .seq (.withKey (hks k (by simp)).1 (hr.quiet (hfs _ hmem))) fun v =>
        .ite (fun _ => h4 _ _) fun _ => h4 _ _

theorem Says.iterKeys (kv : KeysView) : Quiet S (Lex.iterKeys kv : T P _) := by
  unfold Lex.iterKeys; says

theorem Says.pathHasSrc : Quiet S (Lex.pathHasSrc I) := .onPath fun _ h => ⟨h, fun _ _ => rfl⟩

theorem Says.seqTry : Quiet S (Lex.seqTry I) := by
  unfold Lex.seqTry; says [Says.pathHasSrc]

theorem goodKeys {kv : KeysView} (h : badKeys (some kv) = false) :
    ∀ k ∈ kv.ks, k.isNull = false ∧ k.isMark = false := by
  intro k hk
  have := List.any_eq_false.1 h k hk
  simpa using this

theorem Says.withKeys {kv : KeysView} {f : List Val → T P β} {d : β → Bool}
    (h : Says S (f kv.ks) d) : Says S (Lex.iterKeys kv >>= f) d := by
  unfold Lex.iterKeys
  cases kv.iterErr with
  | none => exact h
  | some e => exact Says.raise

/-- Parsing reports every failure. -/
theorem Says.kindParse (hN : Named C) (hL : SoberLib L) (hC : C.All Tame) (hr : RecSays S rec) {f : Field}
    (hf : f.All Tame) : Says S (Lex.kindParse I L C rec f) Val.isMark := by
  have hn := hf.node
  have hk := hf.kind
  have hd : Says S (Lex.fieldDefault I L C rec f) Val.isMark :=
    (Says.fieldDefault hL hn).weaken fun _ h => mark_ignore h
  have hdq := hd.quiet
  unfold Lex.kindParse
  cases hkind : f.kind with
  | decimal c => exact .decimalParse
  | date c => exact .dateParse c
  | time c => exact .timeParse c
  | datetime c => exact .datetimeParse c
  | tuple fs =>
    rw [hkind] at hk
    cases hk with
    | tuple h =>
      have h1 := Says.tupleLoop hr fs h 0
      unfold Lex.tupleParse
      says [Says.failWith]
  | list g lo hi a =>
    rw [hkind] at hk
    cases hk with
    | list h =>
      have h1 := fun n => Says.listLoop hr h n 0
      unfold Lex.listParse
      refine .seq .seqTry fun r => ?_
      cases r with
      | ok n => exact .seq (h1 n) fun _ => .pure rfl
      | error e =>
        refine .ite (fun _ => .raise) fun _ => ?_
        refine .bindIf (hr g .NONE h rfl) (fun _ _ => .pure rfl) fun v hv => ?_
        refine .pure ?_
        rw [hv]
        rfl
  | dict kf vf kfl r m =>
    rw [hkind] at hk
    cases hk with
    | dict hk hv =>
      have h1 := fun ks hks => Says.dictLoop (L := L) (C := C) (kfl := kfl) hr hk hv
        (fun h e => hn.1.keyFilter kf vf h r m (by rw [hkind, e])) ks hks []
      unfold Lex.dictParse
      refine Gives.bind .mappingKeys fun a ha => ?_
      cases a with
      | none => exact hd
      | some kv => exact .withKeys (.seq (h1 _ (goodKeys ha)) fun _ => .pure rfl)
  | code => exact .codeParse hL
  | uuid => exact .uuidParse
  | subform cls reset u =>
    rw [hkind] at hk; cases hk with | subform h => exact .subParse hC hr cls reset h
  | poly tf pc ts reset u =>
    rw [hkind] at hk; cases hk with | poly ht h => exact .polyParse hN hC hr ht pc ts reset h
  | group fs =>
    rw [hkind] at hk
    cases hk with
    | group h =>
      have h1 := fun ks hks => Says.groupLoop hr h ks hks false []
      unfold Lex.groupParse
      refine Gives.bind .mappingKeys fun a ha => ?_
      cases a with
      | none => exact hd
      | some kv =>
        refine .withKeys (.seq (h1 _ (goodKeys ha)) fun r => ?_)
        cases r <;> exact .pure rfl
  | _ => exact .primitive _

/-! ### `Field.map` -/

theorem Says.fieldCompute (hN : Named C) (hL : SoberLib L) (hC : C.All Tame) (hr : RecSays S rec)
    {f : Field} (hf : f.All Tame) : Says S (Lex.fieldCompute I L C rec f) Val.isMark := by
  have h1 := Says.kindParse hN hL hC hr hf
  unfold Lex.fieldCompute
  rw [hf.node.1.fieldParse]
  says [Says.failWith]

theorem munge_sober {f : Field} (hf : Sober f) {v w : Val} (hv : v.isMark = false)
    (h : fieldMunge f v = .ok w) : w.isMark = false := by
  unfold fieldMunge at h
  split at h
  · cases h; exact hv
  · split at h
    · cases h
    · cases h
      unfold dictGet?
      split
      · rename_i p hp
        exact hf.translations p (List.mem_of_find?_eq_some hp)
      · exact hv

theorem ignore_cases {v : Val} (h1 : v.isNONE = false) (h2 : v.isMark = false) : v.isIgnore = false := by
  cases v with
  | const c => cases c <;> first | (cases h1; done) | (cases h2; done)
  | _ => rfl

theorem Says.fieldCheck (hL : SoberLib L) {f : Field} (hf : Tame f) {v : Val} (hv : v.isMark = false) :
    Says S (Lex.fieldCheck I L C rec f v) Val.isIgnore := by
  have hd := Says.fieldDefault (S := S) (C := C) (rec := rec) hL hf
  unfold Lex.fieldCheck
  rw [hf.1.mungeStep]
  refine .bindIf (c := Val.isMark) (.ofExcept fun a ha => munge_sober hf.2 hv ha) ?_ ?_
  · intro w _
    rw [hf.1.filterStep, hf.1.validateStep]
    have hd' := hd.quiet
    have hk := (Says.kindValidate (S := S) (L := L) f w).quiet
    says
  · intro w hw
    rw [hf.1.filterStep, hf.1.validateStep]
    refine .ite (fun _ => hd) fun hN => ?_
    have hig := ignore_cases (by simpa using hN) hw
    rw [hig]
    simp only [Bool.false_eq_true, if_false]
    refine .seq (.pure rfl) fun keep => .ite (fun _ => hd) fun _ => ?_
    refine .bindIf (.kindValidate f w) (fun _ _ => .pure rfl) fun ok hok => ?_
    refine .pure ?_
    simp only [Bool.not_eq_false'] at hok
    rw [hok]
    exact hig

theorem Says.fieldStart (hN : Named C) (hL : SoberLib L) (hC : C.All Tame) (hr : RecSays S rec)
    {f : Field} (hf : f.All Tame) : Says S (Lex.fieldStart I L C rec f) Val.isIgnore := by
  have hd := Says.fieldDefault (S := S) (C := C) (rec := rec) hL hf.node
  rw [hf.node.1.fieldStart]
  refine .bindIf (.fieldCompute hN hL hC hr hf) ?_ ?_
  · intro v hv
    have h1 : v.isNONE = false := by
      cases v with
      | const c => cases c <;> first | rfl | (cases hv; done)
      | _ => rfl
    rw [h1, mark_ignore hv]
    exact .pure rfl
  · intro v hv
    refine .ite (fun _ => hd) fun hN => ?_
    rw [ignore_cases (by simpa using hN) hv]
    exact .fieldCheck hL hf.node hv

theorem Says.withResolve {f : Field} (hf : HookFree f) {t : T P α} {c : α → Bool} (h : Says S t c) :
    Says S (Lex.withResolve I L C rec f t) c := by
  have hk : Says S (if noSrc f.core.src = true then t else T.withKey I f.core.src t) c := by
    refine .ite (fun _ => h) fun hs => .withKey ?_ h
    simp [noSrc] at hs
    exact hs.1
  unfold Lex.withResolve
  rw [hf.resolve]
  cases f.kind <;> first
    | exact h
    | exact hk

theorem Says.setParent (v : Val) : Quiet S (Lex.setParent v : T P Unit) := by
  unfold Lex.setParent
  refine .seq (.ctxGet? _) fun par => ?_
  cases v <;> says

theorem Says.mapFieldF (hN : Named C) (hL : SoberLib L) (hC : C.All Tame) (hr : RecSays S rec) :
    RecSays S (Lex.mapFieldF I L C rec) := by
  intro f v hf hv
  unfold Lex.mapFieldF Lex.fieldMapInner
  have hfin : ∀ w : Val, Quiet S (do
      if (f.core.attachParent && !w.isIgnore) = true then Lex.setParent w
      T.pure w : T P Val) := by
    intro w
    refine .ite (fun _ => .seq (.setParent w) fun _ => .pure rfl) fun _ => .pure rfl
  refine .bindIf (c := Val.isIgnore) (.withEnv (.ite
    (fun _ => .withResolve hf.node.1 (.fieldStart hN hL hC hr hf))
    fun _ => .fieldCheck hL hf.node hv)) (fun w _ => hfin w) fun w hw => ?_
  dsimp only
  exact .ite (fun _ => .seq (.setParent w) fun _ => .pure hw) fun _ => .pure hw

/-- Mapping any hook-free field with any recursion budget reports every failure. -/
theorem Says.mapField (hN : Named C) (hL : SoberLib L) (hC : C.All Tame) (n : Nat) :
    RecSays S (Lex.mapField I L C n) := by
  induction n with
  | zero => intro f v _ _; exact .raise
  | succ n ih => exact Says.mapFieldF hN hL hC ih

end
end Pilo
