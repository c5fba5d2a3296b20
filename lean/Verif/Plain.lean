import Verif.LexEval

/-!
# Hook-free fields: what a lexical run leaves alone

`TKeep W ok τ τ'`: between the states before and after, the current path is the same object with the same
keys, error lists are only extended, classes of forms are fixed and the entries of the forms outside `ok` are
untouched.
-/

namespace Pilo

/-- The key filter `_unmapped` installs (`pilo/fields.py:1627-1628`): `key not in form`. -/
def notInForm (id : Nat) : Hook (Val → Prog) where
  target := some (.form id)
  body := fun self key => .bind (.hasItem self key) fun r => .ret (.bool (!r.truthy))

/-- The field has no hooks of its own and no callable default; the only key filter allowed is the one
`_unmapped` installs. -/
structure HookFree (f : Field) : Prop where
  default : f.core.default = .unset ∨ ∃ v, f.core.default = .value v
  resolve : f.core.resolve = none
  compute : f.core.compute = none
  parse : f.core.parse = none
  munge : f.core.munge = none
  filter : f.core.filter = none
  validate : f.core.validate = none
  keyFilter : ∀ kf vf h r m, f.kind = .dict kf vf (some h) r m → ∃ id, h = notInForm id

theorem HookFree.lexNode {f : Field} (h : HookFree f) : LexNode f where
  default := by
    rcases h.default with h | ⟨v, h⟩ <;> rw [h] <;> trivial
  resolve := by intro k hk; rw [h.resolve] at hk; cases hk
  compute := by intro k hk; rw [h.compute] at hk; cases hk
  parse := by intro k hk; rw [h.parse] at hk; cases hk
  munge := by intro k hk; rw [h.munge] at hk; cases hk
  filter := by intro k hk; rw [h.filter] at hk; cases hk
  validate := by intro k hk; rw [h.validate] at hk; cases hk
  keyFilter := by
    intro kf vf k r m hk
    obtain ⟨id, rfl⟩ := h.keyFilter kf vf k r m hk
    intro self v
    exact ⟨trivial, fun _ => trivial⟩

/-- What a function of values alone does: it returns or it raises. -/
def Prog.ofExcept : Except Exc Val → Prog
  | .ok v => .ret v
  | .error e => .raise e

/-- `ctx.errors.invalid(m)` for each of the texts, and then this. -/
def Prog.saying : List String → Except Exc Val → Prog
  | [], r => Prog.ofExcept r
  | m :: ms, r => .bind (.invalid m) fun _ => Prog.saying ms r

/-- What the hook does is a function of the value alone: it reports errors, and returns or raises.  Unless `asks`, it was
attached to a target, so that the form being mapped is not even asked for. -/
def Hook.Pure (asks : Prop) (h : Hook (Val → Prog)) : Prop :=
  (asks ∨ h.target ≠ none) ∧ ∃ g : Val → List String × Except Exc Val, ∀ t v, h.body t v = Prog.saying (g v).1 (g v).2

/-- The hook is a function of the value alone, and reports nothing. -/
def Hook.Wordless (h : Hook (Val → Prog)) : Prop := ∃ g : Val → Except Exc Val, ∀ t v, h.body t v = Prog.ofExcept (g v)

/-- The hooks of the field report nothing. -/
structure Field.Wordless (f : Field) : Prop where
  munge : ∀ h, f.core.munge = some h → h.Wordless
  filter : ∀ h, f.core.filter = some h → h.Wordless
  validate : ∀ h, f.core.validate = some h → h.Wordless

theorem HookFree.wordless {f : Field} (h : HookFree f) : f.Wordless where
  munge := by intro k hk; rw [h.munge] at hk; cases hk
  filter := by intro k hk; rw [h.filter] at hk; cases hk
  validate := by intro k hk; rw [h.validate] at hk; cases hk

theorem Prog.saying_lex (ms : List String) (r : Except Exc Val) : (Prog.saying ms r).Lex := by
  induction ms with
  | nil => cases r <;> trivial
  | cons m ms ih => exact ⟨trivial, fun _ => ih⟩

/-- The hooks of the field are functions of the value alone that munge, filter or validate it. -/
structure ValueHooks (asks : Prop) (f : Field) : Prop where
  default : f.core.default = .unset ∨ ∃ v, f.core.default = .value v
  resolve : f.core.resolve = none
  compute : f.core.compute = none
  parse : f.core.parse = none
  munge : ∀ h, f.core.munge = some h → h.Pure asks
  filter : ∀ h, f.core.filter = some h → h.Pure asks
  validate : ∀ h, f.core.validate = some h → h.Pure asks
  keyFilter : ∀ kf vf h r m, f.kind = .dict kf vf (some h) r m → ∃ id, h = notInForm id

theorem HookFree.calm {f : Field} {asks : Prop} (h : HookFree f) : ValueHooks asks f where
  default := h.default
  resolve := h.resolve
  compute := h.compute
  parse := h.parse
  munge := by intro k hk; rw [h.munge] at hk; cases hk
  filter := by intro k hk; rw [h.filter] at hk; cases hk
  validate := by intro k hk; rw [h.validate] at hk; cases hk
  keyFilter := h.keyFilter

theorem Hook.Pure.lex {h : Hook (Val → Prog)} {a : Prop} (hp : h.Pure a) : h.Lex1 := by
  obtain ⟨-, g, hg⟩ := hp
  intro t v
  rw [hg]
  exact Prog.saying_lex _ _

theorem Hook.Pure.mono {h : Hook (Val → Prog)} {a b : Prop} (hab : a → b) (hp : h.Pure a) : h.Pure b :=
  ⟨hp.1.imp hab id, hp.2⟩

theorem ValueHooks.mono {f : Field} {a b : Prop} (hab : a → b) (h : ValueHooks a f) : ValueHooks b f where
  default := h.default
  resolve := h.resolve
  compute := h.compute
  parse := h.parse
  munge := fun k hk => (h.munge k hk).mono hab
  filter := fun k hk => (h.filter k hk).mono hab
  validate := fun k hk => (h.validate k hk).mono hab
  keyFilter := h.keyFilter

theorem ValueHooks.lexNode {f : Field} {a : Prop} (h : ValueHooks a f) : LexNode f where
  default := by
    rcases h.default with h | ⟨v, h⟩ <;> rw [h] <;> trivial
  resolve := by intro k hk; rw [h.resolve] at hk; cases hk
  compute := by intro k hk; rw [h.compute] at hk; cases hk
  parse := by intro k hk; rw [h.parse] at hk; cases hk
  munge := fun k hk => (h.munge k hk).lex
  filter := fun k hk => (h.filter k hk).lex
  validate := fun k hk => (h.validate k hk).lex
  keyFilter := by
    intro kf vf k r m hk
    obtain ⟨id, rfl⟩ := h.keyFilter kf vf k r m hk
    intro self v
    exact ⟨trivial, fun _ => trivial⟩

mutual
theorem Field.All.imp {p q : Field → Prop} (hpq : ∀ f, p f → q f) :
    ∀ {f : Field}, f.All p → f.All q
  | _, .mk h hk => .mk (hpq _ h) (Kind.All.imp hpq hk)
theorem Kind.All.imp {p q : Field → Prop} (hpq : ∀ f, p f → q f) :
    ∀ {k : Kind}, k.All p → k.All q
  | _, .base => .base
  | _, .string => .string
  | _, .integer => .integer
  | _, .float => .float
  | _, .decimal => .decimal
  | _, .boolean => .boolean
  | _, .date => .date
  | _, .time => .time
  | _, .datetime => .datetime
  | _, .tuple h => .tuple fun f hf => Field.All.imp hpq (h f hf)
  | _, .list h => .list (Field.All.imp hpq h)
  | _, .dict hk hv => .dict (Field.All.imp hpq hk) (Field.All.imp hpq hv)
  | _, .code => .code
  | _, .uuid => .uuid
  | _, .subform h => .subform (Unmapped.All.imp hpq h)
  | _, .poly ht h => .poly (Field.All.imp hpq ht) (Unmapped.All.imp hpq h)
  | _, .group h => .group fun x hx => Field.All.imp hpq (h x hx)
theorem Unmapped.All.imp {p q : Field → Prop} (hpq : ∀ f, p f → q f) :
    ∀ {u : Unmapped}, u.All p → u.All q
  | _, .str => .str
  | _, .value h => .value (Field.All.imp hpq h)
  | _, .pair hk hv => .pair (Field.All.imp hpq hk) (Field.All.imp hpq hv)
end

theorem Classes.All.imp {p q : Field → Prop} (hpq : ∀ f, p f → q f) {C : Classes} (h : C.All p) :
    C.All q := fun cls f hf => Field.All.imp hpq (h cls f hf)

theorem Field.All.calm {f : Field} {a : Prop} (h : f.All HookFree) : f.All (ValueHooks a) := Field.All.imp (fun _ h => h.calm) h
theorem Unmapped.All.calm {u : Unmapped} {a : Prop} (h : u.All HookFree) : u.All (ValueHooks a) := Unmapped.All.imp (fun _ h => h.calm) h
theorem Classes.All.calm {C : Classes} {a : Prop} (h : C.All HookFree) : C.All (ValueHooks a) := Classes.All.imp (fun _ h => h.calm) h

theorem hookFree_plain {c : FieldCore} {k : Kind} (hk : ∀ kf vf h r m, k ≠ .dict kf vf (some h) r m)
    (hd : c.default = .unset := by rfl) (hr : c.resolve = none := by rfl)
    (hc : c.compute = none := by rfl) (hp : c.parse = none := by rfl) (hm : c.munge = none := by rfl)
    (hf : c.filter = none := by rfl) (hv : c.validate = none := by rfl) : HookFree (.mk c k) :=
  ⟨.inl hd, hr, hc, hp, hm, hf, hv, fun _ _ _ _ _ h => absurd h (hk _ _ _ _ _)⟩

theorem captureKey_free : captureKeyField.All HookFree :=
  .mk (hookFree_plain (fun _ _ _ _ _ h => by cases h)) .string

theorem captureValue_free : captureValueField.All HookFree :=
  .mk (hookFree_plain (fun _ _ _ _ _ h => by cases h)) .base

theorem unmappedField_free {id : Nat} {kf vf : Field} (hk : kf.All HookFree) (hv : vf.All HookFree) :
    (unmappedField id kf vf).All HookFree := by
  refine .mk ⟨.inl rfl, rfl, rfl, rfl, rfl, rfl, rfl, ?_⟩ (.dict hk hv)
  intro kf vf h r m e
  cases e
  exact ⟨id, rfl⟩

theorem unmappedField_calm {id : Nat} {a : Prop} {kf vf : Field} (hk : kf.All (ValueHooks a)) (hv : vf.All (ValueHooks a)) :
    (unmappedField id kf vf).All (ValueHooks a) := by
  refine .mk (HookFree.calm ⟨.inl rfl, rfl, rfl, rfl, rfl, rfl, rfl, ?_⟩) (.dict hk hv)
  intro kf vf h r m e
  cases e
  exact ⟨id, rfl⟩

/-! ## The invariant -/

section
variable {P : Type} {I : PathOps P} (W : LawfulPath I)

/-- The current path is the same object with the same keys. -/
def PathKeep (o o' : Option (Option (Nat × P))) : Prop :=
  match o with
  | none => o' = none
  | some none => o' = some none
  | some (some (r, p)) => ∃ q, o' = some (some (r, q)) ∧ Same I W.WF W.shape p q

/-- The current error list is only extended. -/
def ErrKeep (o o' : Option ErrBuf) : Prop :=
  match o with
  | none => o' = none
  | some b => ∃ es, o' = some { b with items := b.items ++ es }

/-- Class and entries of a form. -/
def FormObj.core (o : FormObj) : Nat × List (Val × Val) := (o.cls, o.items)

structure TKeep (ok : Nat → Prop) (τ τ' : TSt P) : Prop where
  path : PathKeep W τ.path τ'.path
  errs : ErrKeep τ.errs τ'.errs
  flen : τ.forms.length ≤ τ'.forms.length
  cls : ∀ (i : Nat) (o : FormObj), τ.forms[i]? = some o → ∃ o', τ'.forms[i]? = some o' ∧ o'.cls = o.cls
  forms : ∀ i, i < τ.forms.length → ¬ ok i →
    (τ'.forms[i]?).map FormObj.core = (τ.forms[i]?).map FormObj.core
  npaths : τ.npaths ≤ τ'.npaths

/-- The current path is well formed. -/
def TWF (τ : TSt P) : Prop := ∀ r p, τ.path = some (some (r, p)) → W.WF p

variable {W}

theorem PathKeep.refl {o : Option (Option (Nat × P))} (h : ∀ r p, o = some (some (r, p)) → W.WF p) :
    PathKeep W o o := by
  rcases o with _ | _ | ⟨r, p⟩
  · rfl
  · rfl
  · exact ⟨p, rfl, rfl, h r p rfl, rfl⟩

theorem PathKeep.trans {a b c : Option (Option (Nat × P))} (h : PathKeep W a b) (h' : PathKeep W b c) :
    PathKeep W a c := by
  rcases a with _ | _ | ⟨r, p⟩
  · cases h; exact h'
  · cases h; exact h'
  · obtain ⟨q, rfl, hs⟩ := h
    obtain ⟨q', rfl, hs'⟩ := h'
    exact ⟨q', rfl, Same.trans W hs hs'⟩

theorem ErrKeep.refl (o : Option ErrBuf) : ErrKeep o o := by
  rcases o with _ | b
  · rfl
  · exact ⟨[], by simp⟩

theorem ErrKeep.trans {a b c : Option ErrBuf} (h : ErrKeep a b) (h' : ErrKeep b c) : ErrKeep a c := by
  rcases a with _ | x
  · cases h; exact h'
  · obtain ⟨es, rfl⟩ := h
    obtain ⟨es', rfl⟩ := h'
    exact ⟨es ++ es', by simp⟩

theorem TKeep.refl {ok : Nat → Prop} {τ : TSt P} (h : TWF W τ) : TKeep W ok τ τ :=
  ⟨.refl h, .refl _, Nat.le_refl _, fun _ o ho => ⟨o, ho, rfl⟩, fun _ _ _ => rfl, Nat.le_refl _⟩

theorem TKeep.wf {ok : Nat → Prop} {τ τ' : TSt P} (h : TKeep W ok τ τ') (_ : TWF W τ) : TWF W τ' := by
  intro r p hp
  have hk := h.path
  rcases ho : τ.path with _ | _ | ⟨r0, p0⟩ <;> simp only [ho, PathKeep] at hk
  · rw [hk] at hp; cases hp
  · rw [hk] at hp; cases hp
  · obtain ⟨q, hq, hs⟩ := hk
    rw [hq] at hp; cases hp
    exact hs.wf

theorem TKeep.trans {ok : Nat → Prop} {a b c : TSt P} (h : TKeep W ok a b) (h' : TKeep W ok b c) :
    TKeep W ok a c where
  path := h.path.trans h'.path
  errs := h.errs.trans h'.errs
  flen := Nat.le_trans h.flen h'.flen
  cls i o ho := by
    obtain ⟨o1, h1, e1⟩ := h.cls i o ho
    obtain ⟨o2, h2, e2⟩ := h'.cls i o1 h1
    exact ⟨o2, h2, e2.trans e1⟩
  forms i hi hn := (h'.forms i (Nat.lt_of_lt_of_le hi h.flen) hn).trans (h.forms i hi hn)
  npaths := Nat.le_trans h.npaths h'.npaths

variable (W)

/-- The computation keeps everything but the forms in `ok`. -/
def TKeeps {α : Type} (ok : Nat → Prop) (t : T P α) : Prop :=
  ∀ env τ, TWF W τ → TKeep W ok τ (t env τ).2

/-- The same, with a property of normal results. -/
def TKeepsR {α : Type} (ok : Nat → Prop) (t : T P α) (post : α → Prop) : Prop :=
  ∀ env τ, TWF W τ → TKeep W ok τ (t env τ).2 ∧ ∀ a, (t env τ).1 = .ok a → post a

variable {W} {α β : Type} {ok : Nat → Prop}

theorem TKeeps.state {t : T P α} (h : ∀ env τ, (t env τ).2 = τ) : TKeeps W ok t := by
  intro env τ hw; rw [h]; exact .refl hw

theorem TKeeps.pure (a : α) : TKeeps W ok (T.pure a : T P α) := .state fun _ _ => rfl
theorem TKeeps.raise (e : Exc) : TKeeps W ok (T.raise e : T P α) := .state fun _ _ => rfl
theorem TKeeps.ofExcept (r : Except Exc α) : TKeeps W ok (T.ofExcept r : T P α) := .state fun _ _ => rfl
theorem TKeeps.ctxGet? (proj : Env → Option α) : TKeeps W ok (T.ctxGet? proj : T P _) :=
  .state fun _ _ => rfl
theorem TKeeps.ctxGet (proj : Env → Option α) (n : String) : TKeeps W ok (T.ctxGet proj n : T P _) :=
  .state fun env τ => by unfold T.ctxGet; cases proj env <;> rfl

theorem TKeeps.bindR {t : T P α} {post : α → Prop} {f : α → T P β} (h : TKeepsR W ok t post)
    (hf : ∀ a, post a → TKeeps W ok (f a)) : TKeeps W ok (t >>= f) := by
  intro env τ hw
  obtain ⟨h1, hp⟩ := h env τ hw
  rcases ht : t env τ with ⟨r, τ'⟩
  rw [ht] at h1 hp
  cases r with
  | error e => rw [T.bind_error ht]; exact h1
  | ok a => rw [T.bind_ok ht]; exact h1.trans (hf a (hp a rfl) env τ' (h1.wf hw))

theorem TKeeps.toR {t : T P α} (h : TKeeps W ok t) : TKeepsR W ok t fun _ => True :=
  fun env τ hw => ⟨h env τ hw, fun _ _ => trivial⟩

theorem TKeeps.bind {t : T P α} {f : α → T P β} (h : TKeeps W ok t) (hf : ∀ a, TKeeps W ok (f a)) :
    TKeeps W ok (t >>= f) := .bindR h.toR fun a _ => hf a

theorem TKeeps.bind' {t : T P α} {f : α → T P β} (h : TKeeps W ok t) (hf : ∀ a, TKeeps W ok (f a)) :
    TKeeps W ok (T.bind t f) := TKeeps.bind h hf

theorem TKeeps.tryCatch {t : T P α} {h : Exc → T P α} (ht : TKeeps W ok t)
    (hh : ∀ e, TKeeps W ok (h e)) : TKeeps W ok (T.tryCatch t h) := by
  intro env τ hw
  have h1 := ht env τ hw
  unfold T.tryCatch
  rcases hr : t env τ with ⟨r, τ'⟩
  rw [hr] at h1
  cases r with
  | ok a => exact h1
  | error e => exact h1.trans (hh e env τ' (h1.wf hw))

theorem TKeeps.ite {c : Prop} [Decidable c] {t u : T P α} (ht : c → TKeeps W ok t)
    (hu : ¬c → TKeeps W ok u) : TKeeps W ok (if c then t else u) := by
  split
  · exact ht ‹_›
  · exact hu ‹_›

theorem TKeep.setPath {τ : TSt P} {r : Nat} {p q : P} (hw : TWF W τ) (hp : τ.path = some (some (r, p)))
    (hs : Same I W.WF W.shape p q) : TKeep W ok τ { τ with path := some (some (r, q)) } :=
  { TKeep.refl hw with path := by rw [hp]; exact ⟨q, rfl, hs⟩ }

theorem TKeeps.onPathR {f : P → Except Exc α × P} {post : α → Prop}
    (h : ∀ p, W.WF p → Same I W.WF W.shape p (f p).2 ∧ ∀ a, (f p).1 = .ok a → post a) :
    TKeepsR W ok (T.onPath f) post := by
  intro env τ hw
  unfold T.onPath
  rcases hp : τ.path with _ | _ | ⟨r, p⟩
  · exact ⟨.refl hw, by intro a ha; cases ha⟩
  · exact ⟨.refl hw, by intro a ha; cases ha⟩
  · have := h p (hw r p hp)
    exact ⟨TKeep.setPath hw hp this.1, this.2⟩

theorem TKeeps.onPath {f : P → Except Exc α × P}
    (h : ∀ p, W.WF p → Same I W.WF W.shape p (f p).2) : TKeeps W ok (T.onPath f) :=
  fun env τ hw => (TKeeps.onPathR (post := fun _ => True)
    (fun p hp => ⟨h p hp, fun _ _ => trivial⟩) env τ hw).1

theorem TKeeps.value : TKeeps W ok (T.onPath I.value) := .onPath fun _ h => W.value_keys h
theorem TKeeps.exists_ : TKeeps W ok (T.onPath I.exists_) := .onPath fun _ h => W.exists_keys h
theorem TKeeps.isNull : TKeeps W ok (T.onPath I.isNull) := .onPath fun _ h => W.isNull_keys h
theorem TKeeps.mapping : TKeeps W ok (T.onPath I.mapping) := .onPath fun _ h => W.mapping_keys h
theorem TKeeps.sequence : TKeeps W ok (T.onPath I.sequence) := .onPath fun _ h => W.sequence_keys h
theorem TKeeps.primitive (ty : PTy) : TKeeps W ok (T.onPath (I.primitive ty)) :=
  .onPath fun _ h => W.primitive_keys h

theorem TKeeps.withEnv {g : Env → Env} {t : T P α} (h : TKeeps W ok t) : TKeeps W ok (T.withEnv g t) :=
  fun env τ hw => h (g env) τ hw

theorem TKeeps.withSource {mk : Except Exc P} {t : T P α} (hmk : ∀ p, mk = .ok p → W.WF p)
    (h : TKeeps W ok t) : TKeeps W ok (T.withSource mk t) := by
  intro env τ hw
  unfold T.withSource
  cases mk with
  | error e => exact .refl hw
  | ok p =>
    have h1 := h { env with src := some true }
      { τ with path := some (some (τ.npaths, p)), npaths := τ.npaths + 1 }
      (by intro r q hq; cases hq; exact hmk _ rfl)
    exact ⟨.refl hw, h1.errs, h1.flen, h1.cls, h1.forms, Nat.le_trans (Nat.le_succ _) h1.npaths⟩

theorem TKeeps.withErrs {raising : Bool} {t : T P α} (h : TKeeps W ok t) :
    TKeeps W ok (T.withErrs raising t) := by
  intro env τ hw
  unfold T.withErrs
  have h1 := h env { τ with errs := some { raising := raising, items := [] } } hw
  rcases hr : t env { τ with errs := some { raising := raising, items := [] } } with ⟨r, τ'⟩
  rw [hr] at h1
  cases r <;> exact ⟨h1.path, .refl _, h1.flen, h1.cls, h1.forms, h1.npaths⟩

theorem T.onPath_run {f : P → Except Exc α × P} {env : Env} {τ : TSt P} {r : Nat} {p : P}
    (hp : τ.path = some (some (r, p))) :
    T.onPath f env τ = ((f p).1, { τ with path := some (some (r, (f p).2)) }) := by
  unfold T.onPath
  rw [hp]

theorem T.withKey_run {k : Val} {t : T P α} {env : Env} {τ τ2 : TSt P} {r r2 : Nat} {p q q2 p3 : P}
    {res : Except Exc α} (hp : τ.path = some (some (r, p))) (hap : I.append p k = .ok q)
    (hrun : t { env with src := some (!k.isNull) } { τ with path := some (some (r, q)) } = (res, τ2))
    (hq : τ2.path = some (some (r2, q2))) (hpop : I.pop q2 = .ok p3) :
    T.withKey I k t env τ = (res, { τ2 with path := some (some (r2, p3)) }) := by
  unfold T.withKey
  rw [T.onPath_run hp]
  simp only [pathAppend, hap, hrun, T.onPath_run hq, pathPop, hpop]

/-- Going one key down and back. -/
theorem TKeeps.withKey (k : Val) {t : T P α} (h : TKeeps W ok t) : TKeeps W ok (T.withKey I k t) := by
  intro env τ hw
  rcases hp : τ.path with _ | _ | ⟨r, p⟩
  · unfold T.withKey T.onPath; simp only [hp]; exact .refl hw
  · unfold T.withKey T.onPath; simp only [hp]; exact .refl hw
  · have hwp := hw r p hp
    cases hap : I.append p k with
    | error e =>
      unfold T.withKey
      rw [T.onPath_run hp]
      simp only [pathAppend, hap]
      exact TKeep.setPath hw hp ⟨rfl, hwp, rfl⟩
    | ok q =>
      obtain ⟨hk, hwq⟩ := W.append_keys hwp hap
      have hsh := W.append_shape hwp hap
      have h1 := h { env with src := some (!k.isNull) } { τ with path := some (some (r, q)) }
        (by intro r' q' hq'; cases hq'; exact hwq)
      rcases hr : t { env with src := some (!k.isNull) } { τ with path := some (some (r, q)) }
        with ⟨res, τ2⟩
      rw [hr] at h1
      obtain ⟨q2, hq2, hs2⟩ := h1.path
      obtain ⟨p3, hpop, hk3, hw3, hsh3⟩ := W.pop_keys (p := q2) (ks := I.keys p) (k := k) hs2.wf
        (by rw [hs2.keys, hk])
      rw [T.withKey_run hp hap hr hq2 hpop]
      exact ⟨by rw [hp]; exact ⟨p3, rfl, hk3, hw3, by rw [hsh3, hs2.shape, hsh]⟩, h1.errs, h1.flen,
        h1.cls, h1.forms, h1.npaths⟩

theorem TKeeps.pathText : TKeeps W ok (T.pathText I) := .state fun env τ => by
  unfold T.pathText
  rcases τ.path with _ | _ | ⟨r, p⟩
  · rfl
  · rfl
  · cases h : I.render p <;> simp only [h]

theorem TKeeps.extend (es : List Err) : TKeeps W ok (T.extend es : T P Unit) := by
  intro env τ hw
  unfold T.extend
  cases hb : τ.errs with
  | none => exact .refl hw
  | some b => exact { TKeep.refl hw with errs := by rw [hb]; exact ⟨es, rfl⟩ }

theorem TKeeps.record (e : Err) : TKeeps W ok (T.record e : T P Unit) := by
  intro env τ hw
  unfold T.record
  cases hb : τ.errs with
  | none => exact .refl hw
  | some b => exact { TKeep.refl hw with errs := by rw [hb]; exact ⟨[e], rfl⟩ }

theorem TKeeps.errsBound : TKeeps W ok (T.errsBound : T P Unit) := .state fun env τ => by
  unfold T.errsBound; cases τ.errs <;> rfl

theorem TKeeps.report (k : ErrKind) : TKeeps W ok (T.report I k) := by
  unfold T.report
  exact .bind .errsBound fun _ => .bind (.ctxGet _ _) fun _ => .bind .pathText fun _ => .record _

theorem TKeeps.invalid (m : String) : TKeeps W ok (Lex.invalid I m) := .report _
theorem TKeeps.missing : TKeeps W ok (Lex.missing I) := .report _

theorem TKeeps.formItems (id : Nat) : TKeeps W ok (T.formItems id : T P _) := .state fun _ _ => rfl
theorem TKeeps.formCls (id : Nat) : TKeeps W ok (T.formCls id : T P _) := .state fun env τ => by
  unfold T.formCls; cases τ.forms[id]? <;> rfl

theorem TKeeps.formModify {id : Nat} (hok : ok id) (g : List (Val × Val) → List (Val × Val)) :
    TKeeps W ok (T.formModify id g : T P Unit) := by
  intro env τ hw
  unfold T.formModify
  refine { TKeep.refl (ok := ok) hw with flen := by simp, cls := ?_, forms := ?_ }
  · intro i o ho
    rw [List.getElem?_modify, ho]
    refine ⟨_, rfl, ?_⟩
    split <;> rfl
  · intro i _ hn
    rw [List.getElem?_modify]
    have : id ≠ i := fun h => hn (h ▸ hok)
    cases τ.forms[i]? <;> simp [this]

theorem TKeeps.formParent (id : Nat) (par : Option Parent) :
    TKeeps W ok (T.formParent id par : T P Unit) := by
  intro env τ hw
  unfold T.formParent
  refine { TKeep.refl (ok := ok) hw with flen := by simp, cls := ?_, forms := ?_ }
  · intro i o ho
    rw [List.getElem?_modify, ho]
    refine ⟨_, rfl, ?_⟩
    split <;> rfl
  · intro i _ hn
    rw [List.getElem?_modify]
    cases τ.forms[i]? with
    | none => rfl
    | some o => by_cases h : id = i <;> simp [h, FormObj.core]

/-- A new form may be changed freely. -/
theorem TKeeps.newForm {cls : Nat} {f : Nat → T P α}
    (h : ∀ id, TKeeps W (fun i => ok i ∨ i = id) (f id)) : TKeeps W ok (T.newForm cls >>= f) := by
  intro env τ hw
  rw [T.bind_ok (show T.newForm cls env τ = (.ok τ.forms.length,
    { τ with forms := τ.forms ++ [{ cls := cls, items := [] }] }) from rfl)]
  have h1 := h τ.forms.length env { τ with forms := τ.forms ++ [{ cls := cls, items := [] }] } hw
  refine ⟨h1.path, h1.errs, ?_, ?_, ?_, h1.npaths⟩
  · exact Nat.le_trans (by simp) h1.flen
  · intro i o ho
    exact h1.cls i o (by rw [List.getElem?_append_left (List.getElem?_eq_some_iff.1 ho).1]; exact ho)
  · intro i hi hn
    rw [h1.forms i (by simp; omega) (by rintro (h | h); exact hn h; omega)]
    rw [List.getElem?_append_left hi]

/-- More forms may be changed. -/
theorem TKeeps.mono {ok' : Nat → Prop} {t : T P α} (h : TKeeps W ok t) (hm : ∀ i, ok i → ok' i) :
    TKeeps W ok' t := by
  intro env τ hw
  have h1 := h env τ hw
  exact { h1 with forms := fun i hi hn => h1.forms i hi fun ho => hn (hm i ho) }

end

macro "tk_step" : tactic => `(tactic| with_reducible first
  | assumption
  | exact TKeeps.pure _ | exact TKeeps.raise _ | exact TKeeps.ofExcept _
  | exact TKeeps.ctxGet _ _ | exact TKeeps.ctxGet? _
  | exact TKeeps.formItems _ | exact TKeeps.formCls _ | exact TKeeps.formParent _ _
  | exact TKeeps.value | exact TKeeps.exists_ | exact TKeeps.isNull | exact TKeeps.mapping
  | exact TKeeps.sequence | exact TKeeps.primitive _
  | exact TKeeps.invalid _ | exact TKeeps.missing
  | refine TKeeps.withKey _ ?_ | refine TKeeps.withEnv ?_
  | refine TKeeps.tryCatch ?_ ?_
  | refine TKeeps.bind ?_ ?_
  | refine TKeeps.bind' ?_ ?_
  | refine TKeeps.ite ?_ ?_
  | intro _
  | split
  | dsimp only)

macro "tks" : tactic => `(tactic| repeat' tk_step)
macro "tks" "[" ts:term,* "]" : tactic => do
  let ts := ts.getElems
  `(tactic| repeat' first $[| with_reducible apply $ts]* | tk_step)

section
variable {P : Type} {I : PathOps P} {W : LawfulPath I} {L : Lib} {C : Classes} {α β : Type}
  {ok : Nat → Prop} {rec : TRec P}

theorem TKeeps.missingNotSet : TKeeps W ok (Lex.missingNotSet I) := by unfold Lex.missingNotSet; tks
theorem TKeeps.rejectWith (m : String) : TKeeps W ok (Lex.rejectWith I m) := by
  unfold Lex.rejectWith; tks
theorem TKeeps.failWith (m : String) : TKeeps W ok (Lex.failWith I m) := by unfold Lex.failWith; tks

macro_rules | `(tactic| tk_step) => `(tactic| exact TKeeps.rejectWith _)
macro_rules | `(tactic| tk_step) => `(tactic| exact TKeeps.failWith _)
macro_rules | `(tactic| tk_step) => `(tactic| exact TKeeps.missingNotSet)

theorem TKeeps.baseValidate (f : Field) (v : Val) : TKeeps W ok (Lex.baseValidate I f v) := by
  unfold Lex.baseValidate; tks
theorem TKeeps.stringValidate (f : Field) (c : StrCfg) (v : Val) :
    TKeeps W ok (Lex.stringValidate I L f c v) := by unfold Lex.stringValidate; tks
theorem TKeeps.rangeValidate (lo hi : Option Val) (a b : Val → Val → String) (v : Val) :
    TKeeps W ok (Lex.rangeValidate I L lo hi a b v) := by unfold Lex.rangeValidate; tks
theorem TKeeps.listValidate (lo hi : Option Nat) (v : Val) :
    TKeeps W ok (Lex.listValidate I lo hi v) := by unfold Lex.listValidate; tks
theorem TKeeps.dictValidate (req : Required) (mx : Option Nat) (v : Val) :
    TKeeps W ok (Lex.dictValidate I L req mx v) := by unfold Lex.dictValidate; tks

theorem TKeeps.kindValidate (f : Field) (v : Val) : TKeeps W ok (Lex.kindValidate I L f v) := by
  unfold Lex.kindValidate Lex.numberValidate Lex.dateValidate
  tks [TKeeps.baseValidate, TKeeps.stringValidate, TKeeps.rangeValidate, TKeeps.listValidate,
    TKeeps.dictValidate]

theorem TKeeps.decimalParse : TKeeps W ok (Lex.decimalParse I L) := by unfold Lex.decimalParse; tks
theorem TKeeps.dateParse (c : DateCfg) : TKeeps W ok (Lex.dateParse I L c) := by
  unfold Lex.dateParse; tks
theorem TKeeps.timeParse (c : DateCfg) : TKeeps W ok (Lex.timeParse I L c) := by
  unfold Lex.timeParse; tks
theorem TKeeps.datetimeParse (c : DateCfg) : TKeeps W ok (Lex.datetimeParse I L c) := by
  unfold Lex.datetimeParse; tks
theorem TKeeps.codeParse : TKeeps W ok (Lex.codeParse I L) := by unfold Lex.codeParse; tks
theorem TKeeps.uuidParse : TKeeps W ok (Lex.uuidParse I L) := by unfold Lex.uuidParse; tks

theorem TKeeps.iterKeys (kv : KeysView) : TKeeps W ok (Lex.iterKeys kv : T P _) := by
  unfold Lex.iterKeys; tks

theorem TKeeps.pathHasSrc : TKeeps W ok (Lex.pathHasSrc I) := .onPath fun _ h => ⟨rfl, h, rfl⟩

theorem TKeeps.seqTry : TKeeps W ok (Lex.seqTry I) := by
  unfold Lex.seqTry; tks [TKeeps.pathHasSrc]

theorem probeSrc_wf : TKeepsR W ok (Lex.probeSrc I) (SrcOK W) := by
  intro env τ hw
  unfold Lex.probeSrc
  have h1 := TKeeps.value (W := W) (ok := ok) env τ hw
  rcases hv : T.onPath I.value env τ with ⟨r, τ1⟩
  rw [hv] at h1
  cases r with
  | error e => rw [T.bind_error hv]; exact ⟨h1, by intro a ha; cases ha⟩
  | ok v =>
    rw [T.bind_ok hv]
    have h2 := TKeeps.onPathR (W := W) (ok := ok) (post := SrcOK W)
      (f := fun p => (.ok (match I.joinPath p with
        | some mk => SrcArg.source mk
        | none => SrcArg.data v), p)) (by
      intro p hp
      refine ⟨⟨rfl, hp, rfl⟩, ?_⟩
      intro a ha
      cases hj : I.joinPath p with
      | none => simp only [hj, Except.ok.injEq] at ha; subst ha; trivial
      | some mk =>
        simp only [hj, Except.ok.injEq] at ha
        subst ha
        cases mk with
        | error e => trivial
        | ok q => exact W.joinPath_wf hp hj) env τ1 (h1.wf hw)
    exact ⟨h1.trans h2.1, h2.2⟩

variable (W) in
/-- `rec` keeps everything. -/
def RecTKeeps (rec : TRec P) : Prop := ∀ f v, f.All (ValueHooks True) → TKeeps W (fun _ => False) (rec f v)

theorem TKeeps.sub (hr : RecTKeeps W rec) {f : Field} (hf : f.All (ValueHooks True)) (v : Val) :
    TKeeps W ok (rec f v) := (hr f v hf).mono fun _ h => h.elim

/-! ### Forms -/

theorem TKeeps.formReset {id : Nat} (hid : ok id) (tags : List String) (fs : List Field) :
    TKeeps W ok (Lex.formReset id tags fs : T P Unit) := by
  induction fs with
  | nil => exact TKeeps.pure _
  | cons f fs ih =>
    have h1 := fun g => TKeeps.formModify (W := W) hid g
    unfold Lex.formReset
    tks [h1]

theorem TKeeps.unmappedGo (hr : RecTKeeps W rec) {id : Nat} (hid : ok id) {kf vf : Field}
    (hk : kf.All (ValueHooks True)) (hv : vf.All (ValueHooks True)) : TKeeps W ok (Lex.unmappedGo rec id kf vf) := by
  have h1 := fun g => TKeeps.formModify (W := W) hid g
  have h2 := TKeeps.sub (ok := ok) hr (unmappedField_calm (id := id) hk hv) .NONE
  unfold Lex.unmappedGo
  tks [h1]

theorem TKeeps.applyUnmapped (hr : RecTKeeps W rec) {id : Nat} (hid : ok id) {u : Unmapped}
    (hu : u.All (ValueHooks True)) : TKeeps W ok (Lex.applyUnmapped rec id u) := by
  cases hu with
  | value h => exact TKeeps.unmappedGo hr hid captureKey_free.calm h
  | pair hk hv => exact TKeeps.unmappedGo hr hid hk hv
  | str =>
    rename_i u
    cases u with
    | capture => exact TKeeps.unmappedGo hr hid captureKey_free.calm captureValue_free.calm
    | none => exact TKeeps.pure _
    | ignore => exact TKeeps.pure _
    | bad => exact TKeeps.raise _

theorem TKeeps.mapOne (hr : RecTKeeps W rec) {id : Nat} (hid : ok id) (tags : List String) {f : Field}
    (hf : f.All (ValueHooks True)) : TKeeps W ok (Lex.mapOne rec id tags f) := by
  have h1 := fun g => TKeeps.formModify (W := W) hid g
  have h2 := TKeeps.sub (ok := ok) hr hf .NONE
  unfold Lex.mapOne
  tks [h1]

theorem TKeeps.mapFields (hr : RecTKeeps W rec) {id : Nat} (hid : ok id) (tags : List String)
    (fs : List Field) (hfs : ∀ f ∈ fs, f.All (ValueHooks True)) : TKeeps W ok (Lex.mapFields rec id tags fs) := by
  induction fs with
  | nil => exact TKeeps.pure _
  | cons f fs ih =>
    unfold Lex.mapFields
    exact .bind (.mapOne hr hid tags (hfs f (by simp))) fun _ => ih fun g hg => hfs g (by simp [hg])

theorem TKeeps.formMapBody (hC : C.All (ValueHooks True)) (hr : RecTKeeps W rec) {id : Nat} (hid : ok id)
    (tags : List String) {u : Unmapped} (hu : u.All (ValueHooks True)) :
    TKeeps W ok (Lex.formMapBody I C rec id tags u) := by
  unfold Lex.formMapBody
  exact .bind .mapping fun _ => .bind (.formCls id) fun cls =>
    .bind (.withEnv (.mapFields hr hid tags _ (hC cls))) fun _ => .applyUnmapped hr hid hu

theorem TKeeps.nestedMap (hC : C.All (ValueHooks True)) (hr : RecTKeeps W rec) {id : Nat} (hid : ok id)
    (tags : List String) {u : Unmapped} (hu : u.All (ValueHooks True)) (raising : Bool) :
    TKeeps W ok (Lex.nestedMap I C rec id tags u raising) := by
  unfold Lex.nestedMap
  exact .bind (.withErrs (.formMapBody hC hr hid tags hu)) fun _ => .bind (.extend _) fun _ => .pure _

theorem TKeepsR.bind {t : T P α} {f : α → T P β} {post : β → Prop} (h : TKeeps W ok t)
    (hf : ∀ a, TKeepsR W ok (f a) post) : TKeepsR W ok (t >>= f) post := by
  intro env τ hw
  have h1 := h env τ hw
  rcases ht : t env τ with ⟨r, τ'⟩
  rw [ht] at h1
  cases r with
  | error e => rw [T.bind_error ht]; exact ⟨h1, by intro a ha; cases ha⟩
  | ok a =>
    rw [T.bind_ok ht]
    have h2 := hf a env τ' (h1.wf hw)
    exact ⟨h1.trans h2.1, h2.2⟩

theorem TKeepsR.pure {a : α} {post : α → Prop} (h : post a) : TKeepsR W ok (T.pure a : T P α) post :=
  fun _ _ hw => ⟨.refl hw, by intro b hb; cases hb; exact h⟩

theorem TKeepsR.raise {e : Exc} {post : α → Prop} : TKeepsR W ok (T.raise e : T P α) post :=
  fun _ _ hw => ⟨.refl hw, by intro b hb; cases hb⟩

theorem rootSource_wf {id : Nat} {src : SrcArg P} (h : SrcOK W src) :
    TKeepsR W ok (Lex.rootSource I C id src) fun mk => ∀ p, mk = .ok p → W.WF p := by
  have hn : ∀ v al, ∀ p, (Except.ok (I.native v al) : Except Exc P) = .ok p → W.WF p := by
    intro v al p hp; cases hp; exact W.native_wf
  unfold Lex.rootSource
  split
  · exact .pure (hn _ _)
  · rename_i mk
    refine .pure ?_
    intro p hp; subst hp; exact h
  · exact .pure (hn _ _)
  · exact .bind (.formCls _) fun _ => .pure (hn _ _)
  · exact .bind (.formCls _) fun _ => .pure (hn _ _)
  · exact .raise

theorem TKeeps.rootMap (hC : C.All (ValueHooks True)) (hr : RecTKeeps W rec) {id : Nat} (hid : ok id)
    {src : SrcArg P} (hsrc : SrcOK W src) (tags : List String) {u : Unmapped} (hu : u.All (ValueHooks True))
    (raising : Bool) : TKeeps W ok (Lex.rootMap I C rec id src tags u raising) := by
  unfold Lex.rootMap
  exact .bindR (rootSource_wf hsrc) fun mk hmk =>
    .bind (.withErrs (.withSource hmk (.formMapBody hC hr hid tags hu))) fun _ => .pure _

theorem TKeeps.formMap (hC : C.All (ValueHooks True)) (hr : RecTKeeps W rec) {id : Nat} (hid : ok id)
    {src : SrcArg P} (hsrc : SrcOK W src) (tags : List String) (reset : Bool) {u : Unmapped}
    (hu : u.All (ValueHooks True)) (raising : Bool) :
    TKeeps W ok (Lex.formMap I C rec id src tags reset u raising) := by
  unfold Lex.formMap
  refine .bind (.ctxGet? _) fun ct => .bind ?_ fun _ => .bind (.ctxGet _ _) fun cs => .bind ?_ fun es => ?_
  · unfold Lex.formResetIf
    have h := fun tags fs => TKeeps.formReset (W := W) hid tags fs
    tks [h]
  · unfold Lex.formMapAt
    split
    · split
      · exact .nestedMap hC hr hid _ hu raising
      · exact .rootMap hC hr hid (by trivial) _ hu raising
    · exact .rootMap hC hr hid hsrc _ hu raising
  · unfold Lex.formFinish
    tks

theorem TKeeps.fieldGet (hr : RecTKeeps W rec) {f : Field} (hf : f.All (ValueHooks True)) {id : Nat}
    (hid : ok id) : TKeeps W ok (Lex.fieldGet I rec f id) := by
  have h1 := TKeeps.sub (ok := ok) hr hf .NONE
  have h2 : ∀ v, TKeeps W ok (Lex.getFinish f id v : T P Val) := by
    intro v
    have h1 := fun g => TKeeps.formModify (W := W) hid g
    unfold Lex.getFinish
    tks [h1]
  have h3 : TKeeps W ok (Lex.getEmpty I rec f id) := by
    unfold Lex.getEmpty
    exact .withSource (by intro p hp; cases hp; exact W.native_wf) (.withEnv h1)
  unfold Lex.fieldGet
  refine .bind (.formItems _) fun items => ?_
  split
  · exact .pure _
  · refine .bind (.ctxGet? _) fun o => ?_
    split
    · exact .bind (.withErrs h3) fun _ => h2 _
    · refine .bind (.ctxGet? _) fun par => .ite (fun _ => .bind h1 h2) fun _ => .bind h3 h2

/-! ### Field steps -/

theorem TKeeps.fieldDefault {f : Field} (hf : ValueHooks True f) : TKeeps W ok (Lex.fieldDefault I L C rec f) := by
  unfold Lex.fieldDefault
  rcases hf.default with h | ⟨v, h⟩ <;> rw [h]
  · tks
  · refine .bind (.ctxGet _ _) fun ig => .ite (fun _ => .missingNotSet) fun _ => ?_
    cases v with
    | const c => cases c <;> tks
    | _ => tks

theorem TKeeps.keepKey {kfl : Option (Hook (Val → Prog))} (hk : ∀ h, kfl = some h → ∃ id, h = notInForm id)
    (k : Val) : TKeeps W ok (Lex.keepKey I L C rec kfl k) := by
  cases kfl with
  | none => exact TKeeps.pure _
  | some h =>
    obtain ⟨id, rfl⟩ := hk h rfl
    unfold Lex.keepKey
    refine .bind ?_ fun v => .pure _
    unfold Lex.callHook1
    refine .bind (.pure _) fun t => ?_
    show TKeeps W ok (T.bind (Lex.evalProg I L C rec (.hasItem t k)) _)
    refine .bind' ?_ fun r => .pure _
    unfold Lex.evalProg Lex.asForm
    tks

theorem TKeeps.tupleLoop (hr : RecTKeeps W rec) (fs : List Field) (hfs : ∀ f ∈ fs, f.All (ValueHooks True)) :
    ∀ i, TKeeps W ok (Lex.tupleLoop I rec i fs) := by
  induction fs with
  | nil => intro i; exact .pure _
  | cons f fs ih =>
    intro i
    have h1 := TKeeps.sub (ok := ok) hr (hfs f (by simp)) .NONE
    have h2 := ih (fun g hg => hfs g (by simp [hg])) (i + 1)
    unfold Lex.tupleLoop
    tks

theorem TKeeps.listLoop (hr : RecTKeeps W rec) {f : Field} (hf : f.All (ValueHooks True)) (n : Nat) :
    ∀ i, TKeeps W ok (Lex.listLoop I rec f i n) := by
  induction n with
  | zero => intro i; exact .pure _
  | succ n ih =>
    intro i
    have h1 := TKeeps.sub (ok := ok) hr hf .NONE
    have h2 := ih (i + 1)
    unfold Lex.listLoop
    tks

theorem TKeeps.dictLoop (hr : RecTKeeps W rec) {kf vf : Field} (hkf : kf.All (ValueHooks True))
    (hvf : vf.All (ValueHooks True)) {kfl : Option (Hook (Val → Prog))}
    (hk : ∀ h, kfl = some h → ∃ id, h = notInForm id) (ks : List Val) :
    ∀ acc, TKeeps W ok (Lex.dictLoop I L C rec kf vf kfl ks acc) := by
  induction ks with
  | nil => intro acc; exact .pure _
  | cons k ks ih =>
    intro acc
    have h1 := TKeeps.keepKey (W := W) (L := L) (C := C) (rec := rec) (ok := ok) hk k
    have h2 := TKeeps.sub (ok := ok) hr hvf .NONE
    have h3 := TKeeps.sub (ok := ok) hr hkf k
    unfold Lex.dictLoop
    tks [ih]

theorem TKeeps.groupLoop (hr : RecTKeeps W rec) {fs : List (GSrc × Field)}
    (hfs : ∀ x ∈ fs, x.2.All (ValueHooks True)) (ks : List Val) :
    ∀ m acc, TKeeps W ok (Lex.groupLoop I rec fs ks m acc) := by
  induction ks with
  | nil => intro m acc; exact .pure _
  | cons k ks ih =>
    intro m acc
    unfold Lex.groupLoop
    refine .bindR (post := fun r => groupMatch fs k = .ok r)
      (fun env τ hw => ⟨.refl hw, fun a ha => ha⟩) fun r hg => ?_
    rcases r with _ | ⟨f, cap⟩
    · exact ih _ _
    · obtain ⟨g, hmem⟩ := groupMatch_mem hg
      exact .bind (.withKey _ (TKeeps.sub hr (hfs _ hmem) .NONE)) fun v =>
        .ite (fun _ => ih _ _) fun _ => ih _ _

theorem TKeeps.subParse (hC : C.All (ValueHooks True)) (hr : RecTKeeps W rec) (cls : Nat) (reset : Bool)
    {u : Unmapped} (hu : u.All (ValueHooks True)) : TKeeps W ok (Lex.subParse I C rec cls reset u) := by
  unfold Lex.subParse
  exact .newForm fun id => .bind (.formMap hC hr (.inr rfl) (by trivial) _ _ hu _) fun _ => .pure _

theorem TKeeps.probe (hC : C.All (ValueHooks True)) (hr : RecTKeeps W rec) {tf : Field} (hf : tf.All (ValueHooks True))
    (pc : Nat) {src : SrcArg P} (hsrc : SrcOK W src) : TKeeps W ok (Lex.probe I C rec tf pc src) := by
  unfold Lex.probe
  refine .newForm fun id => .bind (.formMap hC hr (.inr rfl) hsrc _ _ .str _) fun es => ?_
  cases es with
  | nil => exact .fieldGet hr hf (.inr rfl)
  | cons e es => exact .raise _

theorem TKeeps.polyType (hC : C.All (ValueHooks True)) (hr : RecTKeeps W rec) {tf : Field} (hf : tf.All (ValueHooks True))
    (pc : Nat) (types : List (Val × Nat)) : TKeeps W ok (Lex.polyType I L C rec tf pc types) := by
  unfold Lex.polyType
  refine .bind (.tryCatch (.bindR probeSrc_wf fun src hsrc =>
    .bind (.probe hC hr hf pc hsrc) fun v => .pure _) fun e => ?_) fun r => ?_
  · tks
  · tks

theorem TKeeps.polyParse (hC : C.All (ValueHooks True)) (hr : RecTKeeps W rec) {tf : Field} (hf : tf.All (ValueHooks True))
    (pc : Nat) (types : List (Val × Nat)) (reset : Bool) {u : Unmapped} (hu : u.All (ValueHooks True)) :
    TKeeps W ok (Lex.polyParse I L C rec tf pc types reset u) := by
  unfold Lex.polyParse
  refine .bind (.polyType hC hr hf pc types) fun r => ?_
  rcases r with _ | _ | cls
  · exact .pure _
  · exact .pure _
  · exact .subParse hC hr cls reset hu

theorem TKeeps.kindParse (hC : C.All (ValueHooks True)) (hr : RecTKeeps W rec) {f : Field} (hf : f.All (ValueHooks True)) :
    TKeeps W ok (Lex.kindParse I L C rec f) := by
  have hn := hf.node
  have hk := hf.kind
  have hd := TKeeps.fieldDefault (W := W) (L := L) (C := C) (rec := rec) (ok := ok) hn
  unfold Lex.kindParse
  cases hkind : f.kind with
  | decimal c => exact .decimalParse
  | date c => exact .dateParse c
  | time c => exact .timeParse c
  | datetime c => exact .datetimeParse c
  | tuple fs =>
    rw [hkind] at hk
    cases hk with
    | tuple h =>
      have h1 := TKeeps.tupleLoop (ok := ok) hr fs h 0
      unfold Lex.tupleParse
      tks
  | list g lo hi a =>
    rw [hkind] at hk
    cases hk with
    | list h =>
      have h1 := fun n => TKeeps.listLoop (ok := ok) hr h n 0
      have h2 := TKeeps.sub (ok := ok) hr h .NONE
      unfold Lex.listParse
      tks [h1, TKeeps.seqTry]
  | dict kf vf kfl r m =>
    rw [hkind] at hk
    cases hk with
    | dict hk hv =>
      have h1 := fun ks => TKeeps.dictLoop (ok := ok) (L := L) (C := C) (kfl := kfl) hr hk hv
        (fun h e => hn.keyFilter kf vf h r m (by rw [hkind, e])) ks []
      have h2 := fun kv => TKeeps.iterKeys (W := W) (ok := ok) kv
      unfold Lex.dictParse
      tks [h1, h2]
  | code => exact .codeParse
  | uuid => exact .uuidParse
  | subform cls reset u =>
    rw [hkind] at hk; cases hk with | subform h => exact .subParse hC hr cls reset h
  | poly tf pc ts reset u =>
    rw [hkind] at hk; cases hk with | poly ht h => exact .polyParse hC hr ht pc ts reset h
  | group fs =>
    rw [hkind] at hk
    cases hk with
    | group h =>
      have h1 := fun ks => TKeeps.groupLoop (ok := ok) hr h ks false []
      have h2 := fun kv => TKeeps.iterKeys (W := W) (ok := ok) kv
      unfold Lex.groupParse
      tks [h1, h2]
  | _ => exact .primitive _

/-! ### Running a hook-free field -/

theorem HookFree.mungeStep {f : Field} (hf : HookFree f) (v : Val) :
    Lex.mungeStep I L C rec f v = T.ofExcept (fieldMunge f v) := by
  unfold Lex.mungeStep
  funext env τ
  rw [hf.munge]
  cases hm : fieldMunge f v with
  | error e => rfl
  | ok w =>
    rw [T.bind_ok (show T.ofExcept (Except.ok w) env τ = (.ok w, τ) from rfl)]
    split <;> rfl

theorem HookFree.filterStep {f : Field} (hf : HookFree f) (v : Val) :
    Lex.filterStep I L C rec f v = T.pure (fieldFilter f v) := by
  unfold Lex.filterStep
  rw [hf.filter]
  cases fieldFilter f v <;> rfl

theorem HookFree.validateStep {f : Field} (hf : HookFree f) (v : Val) :
    Lex.validateStep I L C rec f v = Lex.kindValidate I L f v := by
  unfold Lex.validateStep
  rw [hf.validate]
  funext env τ
  rcases h : Lex.kindValidate I L f v env τ with ⟨r, τ'⟩
  cases r with
  | error e => rw [T.bind_error h]
  | ok b => rw [T.bind_ok h]; cases b <;> rfl

theorem ValueHooks.computeStep {f : Field} {a : Prop} (hf : ValueHooks a f) :
    Lex.computeStep I L C rec f = Lex.fieldCompute I L C rec f := by
  unfold Lex.computeStep; rw [hf.compute]

theorem ValueHooks.fieldParse {f : Field} {a : Prop} (hf : ValueHooks a f) :
    Lex.fieldParse I L C rec f = Lex.kindParse I L C rec f := by
  unfold Lex.fieldParse; rw [hf.parse]

/-- A hook that is a function of values does nothing else. -/
theorem TKeeps.callHook1 {h : Hook (Val → Prog)} (hp : h.Pure True) (v : Val) : TKeeps W ok (Lex.callHook1 I L C rec h v) := by
  obtain ⟨-, g, hg⟩ := hp
  unfold Lex.callHook1 Lex.hookTarget
  refine .bind ?_ fun t => ?_
  · cases h.target <;> tks
  · rw [hg]
    induction (g v).1 with
    | nil => cases (g v).2 with
      | ok w => exact .pure _
      | error e => exact .raise _
    | cons m ms ih => exact .bind (.bind (.report _) fun _ => .pure _) fun _ => ih

theorem TKeeps.mungeStep {f : Field} (hf : ValueHooks True f) (v : Val) : TKeeps W ok (Lex.mungeStep I L C rec f v) := by
  unfold Lex.mungeStep
  refine .bind (.ofExcept _) fun v => .ite (fun _ => .pure _) fun _ => ?_
  cases hm : f.core.munge with
  | none => exact .pure _
  | some h => exact .callHook1 (hf.munge h hm) v

theorem TKeeps.filterStep {f : Field} (hf : ValueHooks True f) (v : Val) : TKeeps W ok (Lex.filterStep I L C rec f v) := by
  unfold Lex.filterStep
  refine .ite (fun _ => ?_) fun _ => .pure _
  cases hm : f.core.filter with
  | none => exact .pure _
  | some h => exact .bind (.callHook1 (hf.filter h hm) v) fun _ => .pure _

theorem TKeeps.validateStep {f : Field} (hf : ValueHooks True f) (v : Val) : TKeeps W ok (Lex.validateStep I L C rec f v) := by
  unfold Lex.validateStep
  refine .bind (.kindValidate f v) fun b => .ite (fun _ => ?_) fun _ => .pure _
  cases hm : f.core.validate with
  | none => exact .pure _
  | some h => exact .bind (.callHook1 (hf.validate h hm) v) fun _ => .pure _

theorem TKeeps.fieldCheck {f : Field} (hf : ValueHooks True f) (v : Val) :
    TKeeps W ok (Lex.fieldCheck I L C rec f v) := by
  have h1 := TKeeps.fieldDefault (W := W) (L := L) (C := C) (rec := rec) (ok := ok) hf
  have h2 := fun v => TKeeps.kindValidate (W := W) (L := L) (ok := ok) f v
  unfold Lex.fieldCheck
  have h3 := fun v => TKeeps.mungeStep (W := W) (L := L) (C := C) (rec := rec) (ok := ok) hf v
  have h4 := fun v => TKeeps.filterStep (W := W) (L := L) (C := C) (rec := rec) (ok := ok) hf v
  have h5 := fun v => TKeeps.validateStep (W := W) (L := L) (C := C) (rec := rec) (ok := ok) hf v
  tks [h3, h4, h5]

theorem TKeeps.fieldCompute (hC : C.All (ValueHooks True)) (hr : RecTKeeps W rec) {f : Field}
    (hf : f.All (ValueHooks True)) : TKeeps W ok (Lex.fieldCompute I L C rec f) := by
  have h1 := TKeeps.kindParse (ok := ok) (L := L) hC hr hf
  unfold Lex.fieldCompute
  rw [hf.node.fieldParse]
  tks

theorem ValueHooks.fieldStart {f : Field} {a : Prop} (hf : ValueHooks a f) :
    Lex.fieldStart I L C rec f = (do
      let v ← Lex.fieldCompute I L C rec f
      if v.isNONE then Lex.fieldDefault I L C rec f
      else if v.isIgnore then T.pure v
      else Lex.fieldCheck I L C rec f v) := by
  unfold Lex.fieldStart
  rw [hf.computeStep]
  rcases hf.default with h | ⟨w, h⟩ <;> simp only [h]

theorem TKeeps.fieldStart (hC : C.All (ValueHooks True)) (hr : RecTKeeps W rec) {f : Field}
    (hf : f.All (ValueHooks True)) : TKeeps W ok (Lex.fieldStart I L C rec f) := by
  have h1 := TKeeps.fieldCompute (ok := ok) (L := L) hC hr hf
  have h2 := TKeeps.fieldDefault (W := W) (L := L) (C := C) (rec := rec) (ok := ok) hf.node
  have h3 := fun v => TKeeps.fieldCheck (W := W) (L := L) (C := C) (rec := rec) (ok := ok) hf.node v
  rw [hf.node.fieldStart]
  tks [h3]

theorem TKeeps.withResolve {f : Field} (hf : ValueHooks True f) {t : T P α} (h : TKeeps W ok t) :
    TKeeps W ok (Lex.withResolve I L C rec f t) := by
  unfold Lex.withResolve
  rw [hf.resolve]
  cases f.kind <;> first
    | exact h
    | exact .ite (fun _ => h) fun _ => .withKey _ h

theorem TKeeps.setParent (v : Val) : TKeeps W ok (Lex.setParent v : T P Unit) := by
  unfold Lex.setParent
  refine .bind (.ctxGet? _) fun par => ?_
  cases v <;> tks

theorem TKeeps.mapFieldF (hC : C.All (ValueHooks True)) (hr : RecTKeeps W rec) :
    RecTKeeps W (Lex.mapFieldF I L C rec) := by
  intro f v hf
  unfold Lex.mapFieldF Lex.fieldMapInner
  refine .bind (.withEnv (.ite (fun _ => .withResolve hf.node (.fieldStart hC hr hf))
    fun _ => .fieldCheck hf.node v)) fun w => ?_
  dsimp only
  exact .ite (fun _ => .bind (.setParent w) fun _ => .pure _) fun _ => .pure _

/-- Mapping a field whose hooks are functions of the value keeps path and forms, and only adds errors. -/
theorem TKeeps.mapField (hC : C.All (ValueHooks True)) (n : Nat) : RecTKeeps W (Lex.mapField I L C n) := by
  induction n with
  | zero => intro f v _; exact .raise _
  | succ n ih => exact TKeeps.mapFieldF hC ih

theorem HookFree.computeStep {f : Field} (hf : HookFree f) :
    Lex.computeStep I L C rec f = Lex.fieldCompute I L C rec f := (hf.calm (asks := True)).computeStep

theorem HookFree.fieldParse {f : Field} (hf : HookFree f) :
    Lex.fieldParse I L C rec f = Lex.kindParse I L C rec f := (hf.calm (asks := True)).fieldParse

theorem HookFree.fieldStart {f : Field} (hf : HookFree f) :
    Lex.fieldStart I L C rec f = (do
      let v ← Lex.fieldCompute I L C rec f
      if v.isNONE then Lex.fieldDefault I L C rec f
      else if v.isIgnore then T.pure v
      else Lex.fieldCheck I L C rec f v) := (hf.calm (asks := True)).fieldStart

end
end Pilo
