import Verif.Hush

/-!
# Where errors are reported

`Lies C f rel n`: the field `f`, or something inside it, that is called `n` lives at the keys `rel` below the
place `f` is mapped from.  This is a reading of the declaration alone; it does not mention the mapping
algorithm.  `LocP`/`Loc` then say of a computation that every error it adds to the current list satisfies a given
predicate, and that the current path is where it was.
-/

namespace Pilo

/-! ## Where the parts of a declaration live -/

/-- The keys a field without resolve hook adds to the path (`pilo/fields.py:263-272`, `1233-1246` for
`Group`): its `src`, unless it has none. -/
def Field.srcKeys (f : Field) : List Val :=
  match f.kind with
  | .group _ => []
  | _ => if noSrc f.core.src then [] else [f.core.src]

/-- Key and value fields of the `Dict` that takes the unmapped keys (`pilo/fields.py:1611-1626`), if the
directive asks for one. -/
def Unmapped.fields : Unmapped → Option (Field × Field)
  | .str .capture => some (captureKeyField, captureValueField)
  | .str _ => none
  | .value vf => some (captureKeyField, vf)
  | .pair kf vf => some (kf, vf)

mutual
/-- `f` or one of its parts, called `n`, is found at the keys `rel`. -/
inductive Lies (C : Classes) : Field → List Val → Option String → Prop
  | self {f} : Lies C f f.srcKeys f.name
  | part {f rel n} : Inside C f.kind rel n → Lies C f (f.srcKeys ++ rel) n
/-- A part of a field of this kind, called `n`, is found at the keys `rel` below the field. -/
inductive Inside (C : Classes) : Kind → List Val → Option String → Prop
  | item {g lo hi a rel n} (i : Nat) : Lies C g rel n → Inside C (.list g lo hi a) (.int i :: rel) n
  | single {g lo hi rel n} : Lies C g rel n → Inside C (.list g lo hi true) rel n
  | entry {fs g rel n} (i : Nat) : fs[i]? = some g → Lies C g rel n → Inside C (.tuple fs) (.int i :: rel) n
  | key {kf vf fl r m} : Inside C (.dict kf vf fl r m) [] kf.name
  | noneKey {kf vf fl r m rel n} : Lies C kf rel n → Inside C (.dict kf vf fl r m) rel n
  | value {kf vf fl r m rel n} (k : Val) : Lies C vf rel n → Inside C (.dict kf vf fl r m) (k :: rel) n
  | member {fs g f rel n} (k : Val) : (g, f) ∈ fs → Lies C f rel n → Inside C (.group fs) (k :: rel) n
  | form {cls r u rel n} : InForm C cls u rel n → Inside C (.subform cls r u) rel n
  | polyForm {tf pc ts r u v cls rel n} : (v, cls) ∈ ts → InForm C cls u rel n →
      Inside C (.poly tf pc ts r u) rel n
  | polyProbe {tf pc ts r u rel n} : InForm C pc (.str .ignore) rel n → Inside C (.poly tf pc ts r u) rel n
  | polyType {tf pc ts r u rel n} : Lies C tf rel n → Inside C (.poly tf pc ts r u) rel n
/-- A part of a form of class `cls` with directive `u` for unmapped keys is found at the keys `rel` below the
form. -/
inductive InForm (C : Classes) : Nat → Unmapped → List Val → Option String → Prop
  | field {cls u f rel n} : f ∈ (C cls).fields → Lies C f rel n → InForm C cls u rel n
  | rest {cls u id kf vf rel n} : u.fields = some (kf, vf) → Lies C (unmappedField id kf vf) rel n →
      InForm C cls u rel n
end

/-! ## Computations that report where they should -/

section
variable {P : Type} {I : PathOps P} (W : LawfulPath I)

/-- The forms that `φ` speaks of have the class it says. -/
def Known (φ : Nat → Nat → Prop) (fs : List FormObj) : Prop :=
  ∀ i c, φ i c → (fs[i]?).map FormObj.cls = some c

/-- An outcome that ends the whole mapping with an exception: an `AttributeError`, which nothing in a mapping
without hooks catches, or any exception while errors are raised. -/
def Doomed {α : Type} (raising : Bool) : Except Exc α → Prop
  | .ok _ => False
  | .error e => raising = true ∨ ∃ m, e = .attributeError m

/-- Run where the current path has keys `ks` and `ctx.field` is `fld`, `t` only adds errors that satisfy `G`,
leaves the path there and returns what `post` says.  `φ` says which classes some forms are known to have.  If `R`
holds, nothing is said of the errors when the whole mapping is bound to end with an exception. -/
def LocP (R : Prop) (φ : Nat → Nat → Prop) (fld : Option (Option String)) (ks : List Val) (G : W.Shape → Err → Prop) {α : Type} (t : T P α)
    (post : α → Prop) : Prop :=
  ∀ sh env τ b, At W sh ks τ → env.field = fld → τ.errs = some b → Known φ τ.forms →
    ∃ es, (t env τ).2.errs = some { b with items := b.items ++ es } ∧ At W sh ks (t env τ).2 ∧
      Known φ (t env τ).2.forms ∧ ((∀ e ∈ es, G sh e) ∨ R ∧ Doomed b.raising (t env τ).1) ∧
      ∀ a, (t env τ).1 = .ok a → post a

/-- The same without a claim about the result. -/
abbrev Loc (R : Prop) (φ : Nat → Nat → Prop) (fld : Option (Option String)) (ks : List Val) (G : W.Shape → Err → Prop) {α : Type} (t : T P α) :
    Prop := LocP W R φ fld ks G t fun _ => True

variable {W} {R : Prop} {φ : Nat → Nat → Prop} {fld : Option (Option String)} {ks : List Val} {G G' : W.Shape → Err → Prop} {α β : Type}

theorem LocP.weaken {t : T P α} {post : α → Prop} (h : LocP W R φ fld ks G t post)
    (hg : ∀ sh e, G sh e → G' sh e) : LocP W R φ fld ks G' t post := by
  intro sh env τ b ha hf hb hn
  obtain ⟨es, h1, h2, h9, h3, h4⟩ := h sh env τ b ha hf hb hn
  exact ⟨es, h1, h2, h9, h3.imp (fun h e he => hg sh e (h e he)) fun h => h, h4⟩

theorem LocP.state {t : T P α} {post : α → Prop} (h : ∀ env τ, (t env τ).2 = τ)
    (hp : ∀ env τ a, (t env τ).1 = .ok a → post a) : LocP W R φ fld ks G t post := by
  intro sh env τ b ha _ hb hn
  refine ⟨[], by rw [h, hb]; simp, by rw [h]; exact ha, by rw [h]; exact hn, .inl (by simp), hp env τ⟩

theorem LocP.pure {a : α} {post : α → Prop} (h : post a) : LocP W R φ fld ks G (T.pure a : T P α) post :=
  .state (fun _ _ => rfl) fun _ _ _ hb => by cases hb; exact h

theorem LocP.raise {e : Exc} {post : α → Prop} : LocP W R φ fld ks G (T.raise e : T P α) post :=
  .state (fun _ _ => rfl) fun _ _ _ hb => by cases hb

theorem LocP.ofExcept {r : Except Exc α} {post : α → Prop} (h : ∀ a, r = .ok a → post a) :
    LocP W R φ fld ks G (T.ofExcept r : T P α) post :=
  .state (fun _ _ => rfl) fun _ _ a hb => h a hb

theorem Loc.pure {a : α} : Loc W R φ fld ks G (T.pure a : T P α) := LocP.pure trivial
theorem Loc.ofExcept {r : Except Exc α} : Loc W R φ fld ks G (T.ofExcept r : T P α) :=
  LocP.ofExcept fun _ _ => trivial
theorem Loc.ctxGet? (proj : Env → Option α) : Loc W R φ fld ks G (T.ctxGet? proj : T P _) :=
  LocP.state (fun _ _ => rfl) fun _ _ _ _ => trivial
theorem Loc.ctxGet (proj : Env → Option α) (n : String) : Loc W R φ fld ks G (T.ctxGet proj n : T P _) :=
  LocP.state (fun env τ => by unfold T.ctxGet; cases proj env <;> rfl) fun _ _ _ _ => trivial
theorem Loc.formItems (id : Nat) : Loc W R φ fld ks G (T.formItems id : T P _) :=
  LocP.state (fun _ _ => rfl) fun _ _ _ _ => trivial
theorem Loc.formCls (id : Nat) : Loc W R φ fld ks G (T.formCls id : T P _) :=
  LocP.state (fun env τ => by unfold T.formCls; cases τ.forms[id]? <;> rfl) fun _ _ _ _ => trivial

theorem LocP.formCls {id cls : Nat} (h : φ id cls) :
    LocP W R φ fld ks G (T.formCls id : T P _) fun c => c = cls := by
  intro sh env τ b ha hf hb hn
  have := hn id cls h
  unfold T.formCls
  cases ho : τ.forms[id]? with
  | none => rw [ho] at this; cases this
  | some o =>
    rw [ho] at this
    exact ⟨[], by simp [hb], ha, hn, .inl (by simp), by intro a h; cases h; simpa using this⟩

theorem LocP.bind {t : T P α} {f : α → T P β} {post : α → Prop} {post' : β → Prop}
    (h : LocP W R φ fld ks G t post) (hf : ∀ a, post a → LocP W R φ fld ks G (f a) post') :
    LocP W R φ fld ks G (t >>= f) post' := by
  intro sh env τ b ha hfl hb hn
  obtain ⟨es, h1, h2, h9, h3, h4⟩ := h sh env τ b ha hfl hb hn
  rcases ht : t env τ with ⟨r, τ'⟩
  rw [ht] at h1 h2 h3 h4 h9
  cases r with
  | error e => rw [T.bind_error ht]; exact ⟨es, h1, h2, h9, h3, by intro a ha; cases ha⟩
  | ok a =>
    rw [T.bind_ok ht]
    obtain ⟨es', g1, g2, g9, g3, g4⟩ := hf a (h4 a rfl) sh env τ' _ h2 hfl h1 h9
    refine ⟨es ++ es', by rw [g1]; simp, g2, g9, ?_, g4⟩
    rcases h3 with h3 | ⟨_, h3⟩
    · refine g3.imp (fun g3 e he => ?_) fun h => h
      rcases List.mem_append.1 he with he | he
      · exact h3 e he
      · exact g3 e he
    · cases h3

theorem LocP.seq {t : T P α} {f : α → T P β} {post : β → Prop} (h : Loc W R φ fld ks G t)
    (hf : ∀ a, LocP W R φ fld ks G (f a) post) : LocP W R φ fld ks G (t >>= f) post :=
  .bind h fun a _ => hf a

/-- `except` clauses that record the exception and go on, or let it pass. -/
theorem LocP.catch {t : T P α} {c : Exc → Bool} {k : Exc → ErrKind} {x : α} {post : α → Prop}
    (ht : LocP W R φ fld ks G t post) (hc : ∀ m, c (.attributeError m) = false) (hx : post x)
    (hk : ∀ k, Loc W R φ fld ks G (T.report I k)) :
    LocP W R φ fld ks G (T.tryCatch t fun e => if c e = true then (T.report I (k e) >>= fun _ => T.pure x)
      else T.raise e) post := by
  intro sh env τ b ha hfl hb hn
  obtain ⟨es, h1, h2, h9, h3, h4⟩ := ht sh env τ b ha hfl hb hn
  unfold T.tryCatch
  rcases hr : t env τ with ⟨r, τ'⟩
  rw [hr] at h1 h2 h3 h4 h9
  cases r with
  | ok a => exact ⟨es, h1, h2, h9, h3, h4⟩
  | error e =>
    dsimp only
    split
    · rename_i hce
      have hh : LocP W R φ fld ks G (T.report I (k e) >>= fun _ => T.pure x) post :=
        .seq (hk _) fun _ => .pure hx
      obtain ⟨es', g1, g2, g9, g3, g4⟩ := hh sh env τ' _ h2 hfl h1 h9
      refine ⟨es ++ es', by rw [g1]; simp, g2, g9, ?_, g4⟩
      rcases h3 with h3 | ⟨hR, h3 | ⟨m, rfl⟩⟩
      · refine g3.imp (fun g3 e he => ?_) fun h => h
        rcases List.mem_append.1 he with he | he
        · exact h3 e he
        · exact g3 e he
      · refine .inr ⟨hR, ?_⟩
        obtain ⟨e', τ2, he'⟩ := report_raises (I := I) (k := k e) (env := env) h1 h3
        rw [T.bind_error he']
        exact .inl h3
      · rw [hc] at hce; cases hce
    · exact ⟨es, h1, h2, h9, h3, by intro a h; cases h⟩

theorem LocP.ite {c : Prop} [Decidable c] {t u : T P α} {post : α → Prop} (ht : c → LocP W R φ fld ks G t post)
    (hu : ¬c → LocP W R φ fld ks G u post) : LocP W R φ fld ks G (if c then t else u) post := by
  split
  · exact ht ‹_›
  · exact hu ‹_›

theorem Loc.onPath {f : P → Except Exc α × P} (h : ∀ p, W.WF p → Same I W.WF W.shape p (f p).2) :
    Loc W R φ fld ks G (T.onPath f) := by
  intro sh env τ b ha hfl hb hn
  obtain ⟨r, p, hp, hw, hk, hs⟩ := ha
  rw [T.onPath_run hp]
  have := h p hw
  exact ⟨[], by simp [hb], ⟨r, _, rfl, this.wf, this.keys.trans hk, this.shape.trans hs⟩, hn, .inl (by simp),
    fun _ _ => trivial⟩

theorem Loc.value : Loc W R φ fld ks G (T.onPath I.value) := .onPath fun _ h => W.value_keys h
theorem Loc.exists_ : Loc W R φ fld ks G (T.onPath I.exists_) := .onPath fun _ h => W.exists_keys h
theorem Loc.isNull : Loc W R φ fld ks G (T.onPath I.isNull) := .onPath fun _ h => W.isNull_keys h
theorem Loc.mapping : Loc W R φ fld ks G (T.onPath I.mapping) := .onPath fun _ h => W.mapping_keys h
theorem Loc.sequence : Loc W R φ fld ks G (T.onPath I.sequence) := .onPath fun _ h => W.sequence_keys h
theorem Loc.primitive (ty : PTy) : Loc W R φ fld ks G (T.onPath (I.primitive ty)) :=
  .onPath fun _ h => W.primitive_keys h

theorem LocP.withEnv {fld' : Option (Option String)} {g : Env → Env} {t : T P α} {post : α → Prop}
    (h : LocP W R φ fld' ks G t post) (hs : ∀ env : Env, env.field = fld → (g env).field = fld') :
    LocP W R φ fld ks G (T.withEnv g t) post := by
  intro sh env τ b ha hf hb hn
  exact h sh (g env) τ b ha (hs env hf) hb hn

/-- Below another source, errors are about that source. -/
theorem LocP.withSource {mk : Except Exc P} {t : T P α} {post : α → Prop}
    (hmk : ∀ p, mk = .ok p → W.WF p)
    (h : ∀ p, mk = .ok p → LocP W R φ fld (I.keys p) G' t post)
    (hg : ∀ p, mk = .ok p → ∀ sh e, G' (W.shape p) e → G sh e) :
    LocP W R φ fld ks G (T.withSource mk t) post := by
  intro sh env τ b ha hf hb hn
  unfold T.withSource
  cases mk with
  | error e => exact ⟨[], by simp [hb], ha, hn, .inl (by simp), by intro a ha; cases ha⟩
  | ok p =>
    obtain ⟨es, h1, h2, h9, h3, h4⟩ := h p rfl (W.shape p) { env with src := some true }
      { τ with path := some (some (τ.npaths, p)), npaths := τ.npaths + 1 } b
      ⟨_, p, rfl, hmk p rfl, rfl, rfl⟩ hf hb hn
    exact ⟨es, h1, ha, h9, h3.imp (fun h e he => hg p rfl sh e (h e he)) fun h => h, h4⟩

/-- A list of errors of its own. -/
theorem Loc.withErrs {raising : Bool} {t : T P α} (h : Loc W R φ fld ks G' t) :
    Loc W R φ fld ks G (T.withErrs raising t) := by
  intro sh env τ b ha hf hb hn
  obtain ⟨es, h1, h2, h9, h3, h4⟩ := h sh env { τ with errs := some { raising := raising, items := [] } } _
    ha hf rfl hn
  unfold T.withErrs
  rcases hr : t env { τ with errs := some { raising := raising, items := [] } } with ⟨r, τ'⟩
  rw [hr] at h1 h2 h9
  cases r <;> exact ⟨[], by simp [hb], h2, h9, .inl (by simp), fun _ _ => trivial⟩

/-- A list of errors of its own, added to the enclosing list afterwards. -/
theorem Loc.withErrsExtend {raising : Bool} {t : T P α} (h : Loc W R φ fld ks G t) :
    Loc W R φ fld ks G (T.withErrs raising t >>= fun x => T.extend x.2 >>= fun _ => T.pure x.2) := by
  intro sh env τ b ha hf hb hn
  obtain ⟨es, h1, h2, h9, h3, h4⟩ := h sh env { τ with errs := some { raising := raising, items := [] } } _
    ha hf rfl hn
  rcases hr : t env { τ with errs := some { raising := raising, items := [] } } with ⟨r, τ'⟩
  rw [hr] at h1 h2 h9
  cases r with
  | error e =>
    have : T.withErrs raising t env τ = (.error e, { τ' with errs := τ.errs }) := by
      unfold T.withErrs; rw [hr]
    rw [T.bind_error this]
    exact ⟨[], by simp [hb], h2, h9, .inl (by simp), by intro a ha; cases ha⟩
  | ok a =>
    have : T.withErrs raising t env τ = (.ok (a, es), { τ' with errs := τ.errs }) := by
      have h1' : τ'.errs = some { raising := raising, items := es } := by simpa using h1
      unfold T.withErrs
      rw [hr]
      dsimp only
      rw [h1']
      rfl
    rw [T.bind_ok this]
    have hx : T.extend es env { τ' with errs := τ.errs } =
        (.ok (), { τ' with errs := some { b with items := b.items ++ es } }) := by
      unfold T.extend; rw [hb]
    rw [T.bind_ok hx]
    refine ⟨es, rfl, h2, h9, .inl ?_, fun _ _ => trivial⟩
    rcases h3 with h3 | ⟨_, h3⟩
    · exact h3
    · rw [hr] at h3; cases h3

theorem LocP.withKey {k : Val} {t : T P α} {post : α → Prop} (h : LocP W R φ fld (ks ++ [k]) G t post) :
    LocP W R φ fld ks G (T.withKey I k t) post := by
  intro sh env τ b ha hf hb hn
  obtain ⟨r, p, hp, hw, hk, hs⟩ := ha
  unfold T.withKey
  rw [T.onPath_run hp]
  unfold pathAppend
  cases hap : I.append p k with
  | error e =>
    exact ⟨[], by simp [hb], ⟨r, p, rfl, hw, hk, hs⟩, hn, .inl (by simp), by intro a ha; cases ha⟩
  | ok q =>
    have hq := W.append_keys hw hap
    obtain ⟨es, h1, ⟨r', q', hp', hw', hk', hs'⟩, h9, h3, h4⟩ := h sh { env with src := some (!k.isNull) }
      { τ with path := some (some (r, q)) } b
      ⟨r, q, rfl, hq.2, by rw [hq.1, hk], by rw [W.append_shape hw hap, hs]⟩ hf hb hn
    dsimp only
    rcases hr : t { env with src := some (!k.isNull) } { τ with path := some (some (r, q)) } with ⟨x, τ1⟩
    rw [hr] at h1 hp' h3 h4 h9
    obtain ⟨q9, hpop, hk9, hw9, hs9⟩ := W.pop_keys hw' hk'
    dsimp only
    rw [T.onPath_run hp']
    unfold pathPop
    rw [hpop]
    exact ⟨es, h1, ⟨r', q9, rfl, hw9, hk9, hs9.trans hs'⟩, h9, h3, h4⟩

/-- A report names the current field and renders the current path. -/
theorem Loc.report {k : ErrKind}
    (h : ∀ sh s n pr, fld = some n → W.text sh ks = .ok s → G sh ⟨k, s, n, pr⟩) :
    Loc W R φ fld ks G (T.report I k) := by
  intro sh env τ b ha hf hb hn
  obtain ⟨r, p, hp, hw, hk, hs⟩ := ha
  have h0 : (T.errsBound : T P Unit) env τ = (.ok (), τ) := by unfold T.errsBound; rw [hb]
  unfold T.report
  rw [T.bind_ok h0]
  cases fld with
  | none =>
    have h1 : (T.ctxGet Env.field "field" : T P _) env τ = (.error (noCtxAttr "field"), τ) := by
      unfold T.ctxGet; rw [hf]
    rw [T.bind_error h1]
    exact ⟨[], by simp [hb], ⟨r, p, hp, hw, hk, hs⟩, hn, .inl (by simp), by intro a ha; cases ha⟩
  | some n =>
    have h1 : (T.ctxGet Env.field "field" : T P _) env τ = (.ok n, τ) := by
      unfold T.ctxGet; rw [hf]
    rw [T.bind_ok h1]
    cases ht : I.render p with
    | error e =>
      have h2 : T.pathText I env τ = (.error e, τ) := by
        unfold T.pathText; rw [hp]; simp only [ht]
      rw [T.bind_error h2]
      exact ⟨[], by simp [hb], ⟨r, p, hp, hw, hk, hs⟩, hn, .inl (by simp), by intro a ha; cases ha⟩
    | ok s =>
      have h2 : T.pathText I env τ = (.ok (s, some r), τ) := by
        unfold T.pathText; rw [hp]; simp only [ht]
      rw [T.bind_ok h2]
      dsimp only
      unfold T.record
      simp only [hb]
      refine ⟨[_], rfl, ⟨r, p, hp, hw, hk, hs⟩, hn, .inl ?_, fun _ _ => trivial⟩
      intro e he
      rw [List.mem_singleton.1 he]
      refine h sh s n _ rfl ?_
      rw [← hs, ← hk, ← W.render_text hw, ht]

theorem Loc.onForms {t : T P α} (h : ∀ env τ, ∃ fs, (t env τ).2 = { τ with forms := fs } ∧
      ∀ (i c : Nat), (τ.forms[i]?).map FormObj.cls = some c → (fs[i]?).map FormObj.cls = some c) :
    Loc W R φ fld ks G t := by
  intro sh env τ b ha hf hb hn
  obtain ⟨fs, h, hc⟩ := h env τ
  rw [h]
  exact ⟨[], by simp [hb], ha, fun i c hi => hc i c (hn i c hi), by simp, fun _ _ => trivial⟩

theorem modify_cls (fs : List FormObj) (id : Nat) (g : FormObj → FormObj) (hg : ∀ o, (g o).cls = o.cls)
    (i c : Nat) (h : (fs[i]?).map FormObj.cls = some c) :
    ((fs.modify id g)[i]?).map FormObj.cls = some c := by
  rw [List.getElem?_modify]
  cases hi : fs[i]? with
  | none => rw [hi] at h; cases h
  | some o =>
    rw [hi] at h
    by_cases he : id = i
    · simpa [he, hg] using h
    · simpa [he] using h

theorem Loc.formModify (id : Nat) (g : List (Val × Val) → List (Val × Val)) :
    Loc W R φ fld ks G (T.formModify id g : T P Unit) :=
  .onForms fun _ _ => ⟨_, rfl, modify_cls _ _ (fun o => { o with items := g o.items }) fun _ => rfl⟩
theorem Loc.formParent (id : Nat) (par : Option Parent) :
    Loc W R φ fld ks G (T.formParent id par : T P Unit) :=
  .onForms fun _ _ => ⟨_, rfl, modify_cls _ _ (fun o => { o with parent := some par }) fun _ => rfl⟩

/-- What is known of the classes of forms after `form_type()`. -/
def knows (φ : Nat → Nat → Prop) (id cls : Nat) (i c : Nat) : Prop := φ i c ∨ (i = id ∧ c = cls)

theorem LocP.newForm {cls : Nat} {f : Nat → T P α} {post : α → Prop}
    (h : ∀ id, LocP W R (knows φ id cls) fld ks G (f id) post) :
    LocP W R φ fld ks G ((T.newForm cls : T P Nat) >>= f) post := by
  intro sh env τ b ha hf hb hn
  have h0 : (T.newForm cls : T P Nat) env τ =
    (.ok τ.forms.length, { τ with forms := τ.forms ++ [{ cls := cls, items := [] }] }) := rfl
  rw [T.bind_ok h0]
  obtain ⟨es, h1, h2, h9, h3, h4⟩ := h τ.forms.length sh env
    { τ with forms := τ.forms ++ [{ cls := cls, items := [] }] } b ha hf hb (by
      rintro i c (hi | ⟨rfl, rfl⟩)
      · have := hn i c hi
        cases hl : τ.forms[i]? with
        | none => rw [hl] at this; cases this
        | some o =>
          have hlt := (List.getElem?_eq_some_iff.1 hl).1
          simp only [List.getElem?_append_left hlt, hl]
          rw [hl] at this
          exact this
      · simp)
  exact ⟨es, h1, h2, fun i c hi => h9 i c (.inl hi), h3, h4⟩

end

macro "locs_step" : tactic => `(tactic| with_reducible first
  | assumption
  | exact Loc.pure
  | exact LocP.raise
  | exact Loc.ofExcept
  | exact Loc.ctxGet _ _ | exact Loc.ctxGet? _
  | exact Loc.formItems _ | exact Loc.formCls _ | exact Loc.formParent _ _ | exact Loc.formModify _ _
  | exact Loc.value | exact Loc.exists_ | exact Loc.isNull | exact Loc.mapping
  | exact Loc.sequence | exact Loc.primitive _
  | refine LocP.seq ?_ ?_
  | refine LocP.ite ?_ ?_
  | intro _
  | split
  | dsimp only)

macro "locs" : tactic => `(tactic| repeat' locs_step)
macro "locs" "[" ts:term,* "]" : tactic => do
  let ts := ts.getElems
  `(tactic| repeat' first $[| with_reducible apply $ts]* | locs_step)

section
variable {P : Type} {I : PathOps P} {W : LawfulPath I} {L : Lib} {C : Classes} {α β : Type} {rec : TRec P}
  {R : Prop} {φ : Nat → Nat → Prop} {fld : Option (Option String)} {ks : List Val} {G G' : W.Shape → Err → Prop}

/-- Reports made here, under the current field, are as `G` wants them. -/
def Here (W : LawfulPath I) (fld : Option (Option String)) (ks : List Val) (G : W.Shape → Err → Prop) :
    Prop := ∀ sh k s n pr, fld = some n → W.text sh ks = .ok s → G sh ⟨k, s, n, pr⟩

theorem Loc.here (h : Here W fld ks G) (k : ErrKind) : Loc W R φ fld ks G (T.report I k) :=
  .report fun sh s n pr => h sh k s n pr

theorem Loc.failWith (h : Here W fld ks G) (m : String) : Loc W R φ fld ks G (Lex.failWith I m) := by
  unfold Lex.failWith Lex.invalid
  exact .seq (.here h _) fun _ => Loc.pure

theorem Loc.rejectWith (h : Here W fld ks G) (m : String) : Loc W R φ fld ks G (Lex.rejectWith I m) := by
  unfold Lex.rejectWith Lex.invalid
  exact .seq (.here h _) fun _ => Loc.pure

theorem Loc.missingNotSet (h : Here W fld ks G) : Loc W R φ fld ks G (Lex.missingNotSet I) := by
  unfold Lex.missingNotSet Lex.missing
  exact .seq (.ctxGet _ _) fun im => .ite (fun _ => Loc.pure) fun _ => .seq (.here h _) fun _ => Loc.pure

/-! ### Validation -/

theorem Loc.stringValidate (h : Here W fld ks G) (f : Field) (cfg : StrCfg) (v : Val) :
    Loc W R φ fld ks G (Lex.stringValidate I L f cfg v) := by
  unfold Lex.stringValidate
  locs [Loc.rejectWith h]

theorem Loc.rangeValidate (h : Here W fld ks G) (lo hi : Option Val) (a b : Val → Val → String) (v : Val) :
    Loc W R φ fld ks G (Lex.rangeValidate I L lo hi a b v) := by
  unfold Lex.rangeValidate
  locs [Loc.rejectWith h]

theorem Loc.listValidate (h : Here W fld ks G) (lo hi : Option Nat) (v : Val) :
    Loc W R φ fld ks G (Lex.listValidate I lo hi v) := by
  unfold Lex.listValidate
  locs [Loc.rejectWith h]

theorem Loc.dictValidate (h : Here W fld ks G) (req : Required) (mx : Option Nat) (v : Val) :
    Loc W R φ fld ks G (Lex.dictValidate I L req mx v) := by
  unfold Lex.dictValidate
  locs [Loc.rejectWith h]

theorem Loc.kindValidate (h : Here W fld ks G) (f : Field) (v : Val) :
    Loc W R φ fld ks G (Lex.kindValidate I L f v) := by
  unfold Lex.kindValidate Lex.numberValidate Lex.dateValidate Lex.baseValidate
  locs [Loc.rejectWith h, Loc.stringValidate h, Loc.rangeValidate h, Loc.listValidate h, Loc.dictValidate h]

/-! ### Parsing -/

theorem Loc.decimalParse : Loc W R φ fld ks G (Lex.decimalParse I L) := by
  unfold Lex.decimalParse
  locs

theorem Loc.dateParse (h : Here W fld ks G) (cfg : DateCfg) : Loc W R φ fld ks G (Lex.dateParse I L cfg) := by
  unfold Lex.dateParse
  locs [Loc.failWith h]

theorem Loc.timeParse (h : Here W fld ks G) (cfg : DateCfg) : Loc W R φ fld ks G (Lex.timeParse I L cfg) := by
  unfold Lex.timeParse
  locs [Loc.failWith h]

theorem Loc.datetimeParse (h : Here W fld ks G) (cfg : DateCfg) :
    Loc W R φ fld ks G (Lex.datetimeParse I L cfg) := by
  unfold Lex.datetimeParse
  locs [Loc.failWith h]

theorem Loc.uuidParse : Loc W R φ fld ks G (Lex.uuidParse I L) := by
  unfold Lex.uuidParse
  locs

theorem Loc.codeParse (h : Here W fld ks G) : Loc W R φ fld ks G (Lex.codeParse I L) := by
  unfold Lex.codeParse
  locs [Loc.failWith h]

theorem Loc.fieldDefault (h : Here W fld ks G) {f : Field} (hf : ValueHooks True f) :
    Loc W R φ fld ks G (Lex.fieldDefault I L C rec f) := by
  unfold Lex.fieldDefault
  refine .seq (.ctxGet _ _) fun ig => .ite (fun _ => Loc.missingNotSet h) fun _ => ?_
  rcases hf.default with h' | ⟨v, h'⟩ <;> rw [h']
  · exact Loc.missingNotSet h
  · have hc : ∀ w, Loc W R φ fld ks G (match Default.value w with
        | .unset => Lex.missingNotSet I
        | .hook h => Lex.callHook I L C rec h
        | .callable p => Lex.evalProg I L C rec p
        | .value (.const .NOT_SET) => Lex.missingNotSet I
        | .value (.func id) => T.ofExcept (L.call id)
        | .value v => T.pure v) := by
      intro w
      cases w with
      | const c => cases c <;> first | exact Loc.pure | exact Loc.missingNotSet h
      | func id => exact Loc.ofExcept
      | _ => exact Loc.pure
    exact hc v

theorem Loc.callHook1 (hh : Here W fld ks G) {h : Hook (Val → Prog)} (hp : h.Pure True) (v : Val) :
    Loc W R φ fld ks G (Lex.callHook1 I L C rec h v) := by
  obtain ⟨-, g, hg⟩ := hp
  unfold Lex.callHook1 Lex.hookTarget
  refine .seq ?_ fun t => ?_
  · cases h.target with
    | none => exact .seq (.ctxGet _ _) fun _ => Loc.pure
    | some t => exact Loc.pure
  · rw [hg]
    induction (g v).1 with
    | nil => cases (g v).2 with
      | ok w => exact Loc.pure
      | error e => exact LocP.raise
    | cons m ms ih => exact .seq (.seq (Loc.here hh _) fun _ => Loc.pure) fun _ => ih

theorem Loc.fieldCheck (h : Here W fld ks G) {f : Field} (hf : ValueHooks True f) (v : Val) :
    Loc W R φ fld ks G (Lex.fieldCheck I L C rec f v) := by
  have hd := Loc.fieldDefault (R := R) (φ := φ) (L := L) (C := C) (rec := rec) h hf
  unfold Lex.fieldCheck
  have h1 : Loc W R φ fld ks G (Lex.mungeStep I L C rec f v) := by
    unfold Lex.mungeStep
    refine .seq Loc.ofExcept fun v => .ite (fun _ => Loc.pure) fun _ => ?_
    cases hm : f.core.munge with
    | none => exact Loc.pure
    | some k => exact Loc.callHook1 h (hf.munge k hm) v
  refine .seq h1 fun w => ?_
  have h2 : Loc W R φ fld ks G (Lex.filterStep I L C rec f w) := by
    unfold Lex.filterStep
    refine .ite (fun _ => ?_) fun _ => Loc.pure
    cases hm : f.core.filter with
    | none => exact Loc.pure
    | some k => exact .seq (Loc.callHook1 h (hf.filter k hm) w) fun _ => Loc.pure
  have h3 : Loc W R φ fld ks G (Lex.validateStep I L C rec f w) := by
    unfold Lex.validateStep
    refine .seq (Loc.kindValidate h f w) fun b => .ite (fun _ => ?_) fun _ => Loc.pure
    cases hm : f.core.validate with
    | none => exact Loc.pure
    | some k => exact .seq (Loc.callHook1 h (hf.validate k hm) w) fun _ => Loc.pure
  locs


/-! ### Errors below a place -/

variable (W C) in
/-- An error about the type field of a polymorphic field, reported as if it were read from an empty source. -/
def Stray (Q : Field → Prop) (e : Err) : Prop :=
  ∃ tf rel n, Q tf ∧ Lies C tf rel n ∧ e.field = n ∧
    W.text (W.shape (I.native (.dict []) none)) rel = .ok e.path

variable (W C) in
/-- The error names a field that lives at its path, according to `E`; or it is a stray one. -/
def Told (Q : Field → Prop) (E : List Val → Option String → Prop) (sh : W.Shape) (e : Err) : Prop :=
  (∃ rel n, E rel n ∧ e.field = n ∧ W.text sh rel = .ok e.path) ∨ Stray W C Q e

/-- Places below `ks`. -/
def Below (ks : List Val) (E : List Val → Option String → Prop) (full : List Val) (n : Option String) : Prop :=
  ∃ rel, full = ks ++ rel ∧ E rel n

/-- Exactly the place `ks`. -/
def Just (ks : List Val) (m : Option String) (full : List Val) (n : Option String) : Prop :=
  full = ks ∧ n = m

variable {Q : Field → Prop} {E E' : List Val → Option String → Prop}

theorem Told.mono (h : ∀ full n, E full n → E' full n) {sh : W.Shape} {e : Err} (ht : Told W C Q E sh e) :
    Told W C Q E' sh e := by
  rcases ht with ⟨rel, n, h1, h2⟩ | h'
  · exact .inl ⟨rel, n, h _ _ h1, h2⟩
  · exact .inr h'

theorem Loc.mono {t : T P α} {post : α → Prop} (ht : LocP W R φ fld ks (Told W C Q E) t post)
    (h : ∀ full n, E full n → E' full n) : LocP W R φ fld ks (Told W C Q E') t post :=
  ht.weaken fun _ _ => Told.mono h

theorem here_told (h : ∀ n, fld = some n → E ks n) : Here W fld ks (Told W C Q E) := by
  intro sh k s n pr hf ht
  exact .inl ⟨ks, n, h n hf, rfl, ht⟩

/-- The hooks are functions of the value, and the type field of a polymorphic field is a field of a single value or one that `Q` allows to
stray.  `R`: there may be polymorphic fields. -/
def Placed (R : Prop) (Q : Field → Prop) (f : Field) : Prop :=
  ValueHooks True f ∧ ∀ tf pc ts r u, f.kind = .poly tf pc ts r u → R ∧ ((tf.kind.leaf = true ∧ tf.Wordless) ∨ Q tf)

variable (W C) in
/-- `rec` reports errors of a field where the field lives. -/
def RecLoc (R : Prop) (Q : Field → Prop) (rec : TRec P) : Prop :=
  ∀ f, f.All (Placed R Q) →
    (∀ φ fld ks, Loc W R φ fld ks (Told W C Q (Below ks (Lies C f))) (rec f .NONE) ∧
      ∀ v, v.isNONE = false → Loc W R φ fld ks (Told W C Q (Just ks f.name)) (rec f v)) ∧
    (f.kind.leaf = true ∧ f.Wordless → Hush W (rec f .NONE) (·.isIgnore = true))

theorem RecLoc.at (hr : RecLoc W C R Q rec) {f : Field} (hf : f.All (Placed R Q))
    (h : ∀ rel n, Lies C f rel n → E (ks ++ rel) n) : Loc W R φ fld ks (Told W C Q E) (rec f .NONE) :=
  Loc.mono ((hr f hf).1 φ fld ks).1 fun _ n ⟨rel, hrel, hl⟩ => hrel ▸ h rel n hl

theorem RecLoc.atKey (hr : RecLoc W C R Q rec) {f : Field} (hf : f.All (Placed R Q)) (k : Val)
    (h : ∀ rel n, Lies C f rel n → E (ks ++ k :: rel) n) :
    Loc W R φ fld ks (Told W C Q E) (T.withKey I k (rec f .NONE)) :=
  LocP.withKey (hr.at hf fun rel n hl => by
    have := h rel n hl
    rwa [List.append_cons] at this)

theorem placed_plain {f : Field} (hf : HookFree f) (hk : ∀ tf pc ts r u, f.kind ≠ .poly tf pc ts r u) :
    Placed R Q f := ⟨hf.calm, fun _ _ _ _ _ h => absurd h (hk _ _ _ _ _)⟩

theorem captureKey_placed : captureKeyField.All (Placed R Q) :=
  .mk (placed_plain captureKey_free.node (fun _ _ _ _ _ h => by cases h)) .string
theorem captureValue_placed : captureValueField.All (Placed R Q) :=
  .mk (placed_plain captureValue_free.node (fun _ _ _ _ _ h => by cases h)) .base

theorem unmappedField_placed {id : Nat} {kf vf : Field} (hk : kf.All (Placed R Q)) (hv : vf.All (Placed R Q)) :
    (unmappedField id kf vf).All (Placed R Q) :=
  .mk ⟨(unmappedField_calm (hk.imp fun _ h => h.1) (hv.imp fun _ h => h.1)).node, fun _ _ _ _ _ h => by cases h⟩
    (.dict hk hv)

/-! ### Forms -/

theorem Loc.formReset (id : Nat) (tags : List String) (fs : List Field) :
    Loc W R φ fld ks G (Lex.formReset id tags fs : T P Unit) := by
  induction fs with
  | nil => exact Loc.pure
  | cons f fs ih =>
    unfold Lex.formReset
    locs

theorem Loc.unmappedGo (hr : RecLoc W C R Q rec) (id : Nat) {kf vf : Field} (hk : kf.All (Placed R Q))
    (hv : vf.All (Placed R Q)) (h : ∀ rel n, Lies C (unmappedField id kf vf) rel n → E (ks ++ rel) n) :
    Loc W R φ fld ks (Told W C Q E) (Lex.unmappedGo rec id kf vf) := by
  have h := hr.at (φ := φ) (fld := fld) (unmappedField_placed (id := id) hk hv) h
  unfold Lex.unmappedGo
  locs

theorem Loc.applyUnmapped (hr : RecLoc W C R Q rec) (id cls : Nat) {u : Unmapped} (hu : u.All (Placed R Q)) :
    Loc W R φ fld ks (Told W C Q (Below ks (InForm C cls u))) (Lex.applyUnmapped rec id u) := by
  have hb : ∀ kf vf, u.fields = some (kf, vf) → ∀ rel n, Lies C (unmappedField id kf vf) rel n →
      Below ks (InForm C cls u) (ks ++ rel) n := fun kf vf h rel n hl => ⟨rel, rfl, .rest h hl⟩
  cases hu with
  | value h => exact .unmappedGo hr id captureKey_placed h (hb _ _ rfl)
  | pair hk hv => exact .unmappedGo hr id hk hv (hb _ _ rfl)
  | str =>
    rename_i u
    cases u with
    | capture => exact .unmappedGo hr id captureKey_placed captureValue_placed (hb _ _ rfl)
    | none => exact Loc.pure
    | ignore => exact Loc.pure
    | bad => exact LocP.raise

theorem Loc.mapFields (hr : RecLoc W C R Q rec) (id : Nat) (tags : List String) (fs : List Field)
    (hfs : ∀ f ∈ fs, f.All (Placed R Q)) (h : ∀ f ∈ fs, ∀ rel n, Lies C f rel n → E (ks ++ rel) n) :
    Loc W R φ fld ks (Told W C Q E) (Lex.mapFields rec id tags fs) := by
  induction fs with
  | nil => exact Loc.pure
  | cons f fs ih =>
    have h1 := hr.at (φ := φ) (fld := fld) (hfs f (by simp)) (h f (by simp))
    have h2 := ih (fun g hg => hfs g (by simp [hg])) fun g hg => h g (by simp [hg])
    unfold Lex.mapFields Lex.mapOne
    locs

theorem Loc.formMapBody (hC : C.All (Placed R Q)) (hr : RecLoc W C R Q rec) {id cls : Nat} (hφ : φ id cls)
    (tags : List String) {u : Unmapped} (hu : u.All (Placed R Q)) :
    Loc W R φ fld ks (Told W C Q (Below ks (InForm C cls u))) (Lex.formMapBody I C rec id tags u) := by
  unfold Lex.formMapBody
  refine .seq .mapping fun _ => .bind (.formCls hφ) fun c hc => ?_
  subst hc
  exact .seq (.withEnv (fld' := fld) (Loc.mapFields hr id tags _ (hC c)
    fun f hf rel n hl => ⟨rel, rfl, .field hf hl⟩) fun _ h => h) fun _ => Loc.applyUnmapped hr id c hu

theorem Loc.nestedMap (hC : C.All (Placed R Q)) (hr : RecLoc W C R Q rec) {id cls : Nat} (hφ : φ id cls)
    (tags : List String) {u : Unmapped} (hu : u.All (Placed R Q)) (raising : Bool) :
    Loc W R φ fld ks (Told W C Q (Below ks (InForm C cls u))) (Lex.nestedMap I C rec id tags u raising) := by
  unfold Lex.nestedMap
  exact .withErrsExtend (.formMapBody hC hr hφ tags hu)

variable (W) in
/-- The source of a form is well formed. -/
def SrcWF : SrcArg P → Prop
  | .source mk => ∀ p, mk = .ok p → W.WF p
  | _ => True

theorem LocP.rootSource {id : Nat} {src : SrcArg P} (h : SrcWF W src) :
    LocP W R φ fld ks G (Lex.rootSource I C id src) fun mk => ∀ p, mk = .ok p → W.WF p := by
  unfold Lex.rootSource
  split
  · exact .pure (by intro p hp; cases hp; exact W.native_wf)
  · exact .pure h
  · exact .pure (by intro p hp; cases hp; exact W.native_wf)
  · exact .seq (.formCls _) fun cls => .pure (by intro p hp; cases hp; exact W.native_wf)
  · exact .seq (.formCls _) fun cls => .pure (by intro p hp; cases hp; exact W.native_wf)
  · exact .raise

/-- The errors of a root mapping stay in its own list. -/
theorem Loc.rootMap (hC : C.All (Placed R Q)) (hr : RecLoc W C R Q rec) {id cls : Nat} (hφ : φ id cls)
    {src : SrcArg P} (hsrc : SrcWF W src) (tags : List String) {u : Unmapped} (hu : u.All (Placed R Q))
    (raising : Bool) : Loc W R φ fld ks G (Lex.rootMap I C rec id src tags u raising) := by
  unfold Lex.rootMap
  refine .bind (.rootSource hsrc) fun mk hmk => .seq (.withErrs (G' := fun _ _ => True)
    (.withSource (G' := fun _ _ => True) hmk (fun p _ => ?_) fun _ _ _ _ _ => trivial)) fun _ => Loc.pure
  exact (Loc.formMapBody hC hr hφ tags hu).weaken fun _ _ _ => trivial

theorem Loc.formResetIf (id : Nat) (tags : List String) (reset : Bool) :
    Loc W R φ fld ks G (Lex.formResetIf C id tags reset : T P Unit) := by
  unfold Lex.formResetIf
  locs [Loc.formReset]

theorem Loc.formMap (hC : C.All (Placed R Q)) (hr : RecLoc W C R Q rec) {id cls : Nat} (hφ : φ id cls)
    {src : SrcArg P} (hsrc : SrcWF W src) (tags : List String) (reset : Bool) {u : Unmapped}
    (hu : u.All (Placed R Q)) (raising : Bool) :
    Loc W R φ fld ks (Told W C Q (Below ks (InForm C cls u)))
      (Lex.formMap I C rec id src tags reset u raising) := by
  unfold Lex.formMap
  refine .seq (.ctxGet? _) fun ct => .seq (.formResetIf _ _ _) fun _ => .seq (.ctxGet _ _) fun cs =>
    .seq ?_ fun es => ?_
  · unfold Lex.formMapAt
    split
    · split
      · exact .nestedMap hC hr hφ _ hu raising
      · exact .rootMap hC hr hφ (by trivial) _ hu raising
    · exact .rootMap hC hr hφ hsrc _ hu raising
  · unfold Lex.formFinish
    locs

theorem Loc.subParse (hC : C.All (Placed R Q)) (hr : RecLoc W C R Q rec) (cls : Nat) (reset : Bool)
    {u : Unmapped} (hu : u.All (Placed R Q)) :
    Loc W R φ fld ks (Told W C Q (Below ks (InForm C cls u))) (Lex.subParse I C rec cls reset u) := by
  unfold Lex.subParse
  exact .newForm fun id => .seq (Loc.formMap hC hr (.inr ⟨rfl, rfl⟩) (by trivial) _ _ hu _) fun _ => Loc.pure

theorem Loc.getFinish (f : Field) (id : Nat) (v : Val) : Loc W R φ fld ks G (Lex.getFinish f id v : T P Val) := by
  unfold Lex.getFinish
  locs

/-- Reading from an empty source reports nothing, or the mapping is bound to end with an exception. -/
theorem Loc.getEmpty_leaf (hR : R) (hr : RecLoc W C R Q rec) {f : Field} (hf : f.All (Placed R Q))
    (hk : f.kind.leaf = true ∧ f.Wordless) (id : Nat) :
    Loc W R φ fld ks G (Lex.getEmpty I rec f id >>= fun v => Lex.getFinish f id v) := by
  have h1 : Loc W R φ fld ks (fun _ _ => True) (Lex.getEmpty I rec f id) := by
    unfold Lex.getEmpty
    refine .withSource (G' := fun _ _ => True) (by intro p hp; cases hp; exact W.native_wf) (fun p hp => ?_)
      fun _ _ _ _ _ => trivial
    cases hp
    rw [W.native_keys]
    exact .withEnv (fld' := fld) (((hr f hf).1 φ fld []).1.weaken fun _ _ _ => trivial) fun _ h => h
  intro sh env τ b ha hfl hb hn
  obtain ⟨es, g1, g2, g9, -, -⟩ := h1 sh env τ b ha hfl hb hn
  have h2 : es = [] ∨ Owned (·.isIgnore = true) b.raising (Lex.getEmpty I rec f id env τ).1 := by
    unfold Lex.getEmpty T.withSource T.withEnv at g1 ⊢
    dsimp only at g1 ⊢
    obtain ⟨es', e1, -, e3⟩ := (hr f hf).2 hk _ _
      { { env with src := some true } with form := some id, parent := some (.form id) }
      { τ with path := some (some (τ.npaths, I.native (.dict []) none)), npaths := τ.npaths + 1 } b
      ⟨_, _, rfl, W.native_wf, rfl, rfl⟩ hb
    have : es = es' := by
      have := e1.symm.trans g1
      simpa using this.symm
    subst this
    exact e3
  rcases hg : Lex.getEmpty I rec f id env τ with ⟨r, τ'⟩
  rw [hg] at g1 g2 g9 h2
  cases r with
  | error e =>
    rw [T.bind_error hg]
    refine ⟨es, g1, g2, g9, ?_, by intro a h; cases h⟩
    rcases h2 with rfl | h2
    · exact .inl (by simp)
    · exact .inr ⟨hR, .inl h2⟩
  | ok v =>
    rw [T.bind_ok hg]
    rcases h2 with rfl | h2
    · exact Loc.getFinish f id v sh env τ' b g2 hfl (by rw [g1]; simp) g9
    · have : Lex.getFinish f id v env τ' = (.error (.attributeError "form cannot map field"), τ') := by
        have h2 : v.isIgnore = true := h2
        unfold Lex.getFinish
        rw [if_pos h2]
        rfl
      rw [this]
      exact ⟨es, g1, g2, g9, .inr ⟨hR, .inr ⟨_, rfl⟩⟩, by intro a h; cases h⟩

theorem Loc.fieldGet (hR : R) (hr : RecLoc W C R Q rec) {f : Field} (hf : f.All (Placed R Q))
    (hq : (f.kind.leaf = true ∧ f.Wordless) ∨ Q f) (id : Nat) :
    Loc W R φ fld ks (Told W C Q (Below ks (Lies C f))) (Lex.fieldGet I rec f id) := by
  have h1 := ((hr f hf).1 φ fld ks).1
  have h2 : ∀ v, Loc W R φ fld ks (Told W C Q (Below ks (Lies C f))) (Lex.getFinish f id v : T P Val) :=
    fun v => Loc.getFinish f id v
  have h3 : ∀ G, (Q f → ∀ sh e, Stray W C Q e → G sh e) → 
      (f.kind.leaf = true ∧ f.Wordless → ∀ sh e, G sh e) → Loc W R φ fld ks G (Lex.getEmpty I rec f id) := by
    intro G hG hG'
    unfold Lex.getEmpty
    refine .withSource (G' := Told W C Q (Below [] (Lies C f)))
      (by intro p hp; cases hp; exact W.native_wf) (fun p hp => ?_) fun p hp sh e he => ?_
    · cases hp
      rw [W.native_keys]
      exact .withEnv (fld' := fld) ((hr f hf).1 φ fld []).1 fun _ h => h
    · cases hp
      rcases hq with hq | hq
      · exact hG' hq sh e
      rcases he with ⟨full, n, ⟨rel, hrel, hl⟩, hn, ht⟩ | he
      · rw [hrel, List.nil_append] at ht
        exact hG hq _ _ ⟨f, rel, n, hq, hl, hn, ht⟩
      · exact hG hq _ _ he
  unfold Lex.fieldGet
  refine .seq (.formItems _) fun items => ?_
  split
  · exact Loc.pure
  · refine .seq (.ctxGet? _) fun o => ?_
    split
    · exact .seq (.withErrs (h3 (fun _ _ => True) (fun _ _ _ _ => trivial) fun _ _ _ => trivial)) fun _ => h2 _
    · refine .seq (.ctxGet? _) fun par => .ite (fun _ => .seq h1 h2) fun _ => ?_
      by_cases hk : f.kind.leaf = true ∧ f.Wordless
      · exact Loc.getEmpty_leaf hR hr hf hk id
      · exact .seq (h3 _ (fun _ _ _ h => .inr h) fun h => absurd h hk) h2

theorem LocP.probeSrc : LocP W R φ fld ks G (Lex.probeSrc I) (SrcWF W) := by
  intro sh env τ b ha hf hb hn
  obtain ⟨r, p, hp, hw, hk, hs⟩ := ha
  have hv := T.onPath_run (f := I.value) (env := env) hp
  have hsame := W.value_keys hw
  unfold Lex.probeSrc
  cases hval : (I.value p).1 with
  | error e =>
    rw [hval] at hv
    rw [T.bind_error hv]
    exact ⟨[], by simp [hb], ⟨r, _, rfl, hsame.wf, hsame.keys.trans hk, hsame.shape.trans hs⟩, hn, .inl (by simp),
      by intro a ha; cases ha⟩
  | ok v =>
    rw [hval] at hv
    rw [T.bind_ok hv, T.onPath_run (r := r) (p := (I.value p).2) rfl]
    refine ⟨[], by simp [hb], ⟨r, _, rfl, hsame.wf, hsame.keys.trans hk, hsame.shape.trans hs⟩, hn, .inl (by simp), ?_⟩
    intro a ha
    cases ha
    cases hj : I.joinPath (I.value p).2 with
    | none => trivial
    | some mk =>
      intro q hmk
      subst hmk
      exact W.joinPath_wf hsame.wf hj

theorem Loc.probe (hR : R) (hC : C.All (Placed R Q)) (hr : RecLoc W C R Q rec) {tf : Field}
    (hf : tf.All (Placed R Q)) (hq : (tf.kind.leaf = true ∧ tf.Wordless) ∨ Q tf) (pc : Nat) {src : SrcArg P} (hsrc : SrcWF W src)
    (h1 : ∀ rel n, InForm C pc (.str .ignore) rel n → E (ks ++ rel) n)
    (h2 : ∀ rel n, Lies C tf rel n → E (ks ++ rel) n) :
    Loc W R φ fld ks (Told W C Q E) (Lex.probe I C rec tf pc src) := by
  unfold Lex.probe
  refine .newForm fun id => .seq (Loc.mono (Loc.formMap hC hr (.inr ⟨rfl, rfl⟩) hsrc _ _ .str _)
    fun _ n ⟨rel, hrel, hl⟩ => hrel ▸ h1 rel n hl) fun es => ?_
  cases es with
  | nil => exact Loc.mono (Loc.fieldGet hR hr hf hq id) fun _ n ⟨rel, hrel, hl⟩ => hrel ▸ h2 rel n hl
  | cons e es => exact LocP.raise

theorem Loc.polyParse (hR : R) (hC : C.All (Placed R Q)) (hr : RecLoc W C R Q rec) {tf : Field}
    (hf : tf.All (Placed R Q)) (hq : (tf.kind.leaf = true ∧ tf.Wordless) ∨ Q tf) (pc : Nat) (types : List (Val × Nat)) (reset : Bool) {u : Unmapped} (hu : u.All (Placed R Q))
    (h : Here W fld ks (Told W C Q E))
    (hi : ∀ rel n, Inside C (.poly tf pc types reset u) rel n → E (ks ++ rel) n) :
    Loc W R φ fld ks (Told W C Q E) (Lex.polyParse I L C rec tf pc types reset u) := by
  unfold Lex.polyParse
  refine .bind (post := fun r => ∀ cls, r = some (some cls) → ∃ v, (v, cls) ∈ types) ?_ fun r hr' => ?_
  · unfold Lex.polyType
    refine .seq (LocP.catch (c := Exc.isValueError) (k := fun e => .invalid e.str) (x := none)
      (.bind .probeSrc fun src hsrc => .seq (Loc.probe hR hC hr hf hq pc hsrc
        (fun rel n hl => hi rel n (.polyProbe hl)) fun rel n hl => hi rel n (.polyType hl))
        fun v => Loc.pure) (fun _ => rfl) trivial fun k => Loc.here h k) fun o => ?_
    · have hfin : ∀ v : Val, LocP W R φ fld ks (Told W C Q E)
          (if (!v.hashable) = true then T.raise (.typeError "unhashable type")
            else match types.find? (fun p => v.pyEq p.1) with
              | some p => T.pure (some (some p.2))
              | none => do
                Lex.invalid I ("invalid identity " ++ L.fmt v)
                T.pure (some none)) fun r => ∀ cls, r = some (some cls) → ∃ v, (v, cls) ∈ types := by
        intro v
        refine .ite (fun _ => .raise) fun _ => ?_
        split
        · rename_i p hp
          refine .pure ?_
          rintro cls h
          cases h
          exact ⟨p.1, List.mem_of_find?_eq_some hp⟩
        · exact .seq (Loc.here h _) fun _ => .pure (by rintro cls h; cases h)
      cases o with
      | none => exact .pure (by rintro cls h; cases h)
      | some v =>
        cases v with
        | none => exact .pure (by rintro cls h; cases h)
        | _ => exact hfin _
  · rcases r with _ | _ | cls
    · exact Loc.pure
    · exact Loc.pure
    · obtain ⟨v, hv⟩ := hr' cls rfl
      exact Loc.mono (Loc.subParse hC hr cls reset hu)
        fun _ n ⟨rel, hrel, hl⟩ => hrel ▸ hi rel n (.polyForm hv hl)

/-! ### Containers -/

theorem Loc.tupleLoop (hr : RecLoc W C R Q rec) (fs : List Field) (hfs : ∀ f ∈ fs, f.All (Placed R Q)) :
    ∀ i, (∀ j g, fs[j]? = some g → ∀ rel n, Lies C g rel n → E (ks ++ .int (i + j : Nat) :: rel) n) →
      Loc W R φ fld ks (Told W C Q E) (Lex.tupleLoop I rec i fs) := by
  induction fs with
  | nil => intro i _; exact Loc.pure
  | cons f fs ih =>
    intro i h
    have h1 := hr.atKey (φ := φ) (fld := fld) (hfs f (by simp)) (.int i) (h 0 f rfl)
    have h2 := ih (fun g hg => hfs g (by simp [hg])) (i + 1) fun j g hg rel n hl => by
      have := h (j + 1) g hg rel n hl
      rwa [show i + (j + 1) = i + 1 + j by omega] at this
    unfold Lex.tupleLoop
    locs

theorem Loc.listLoop (hr : RecLoc W C R Q rec) {f : Field} (hf : f.All (Placed R Q))
    (h : ∀ (i : Nat) rel n, Lies C f rel n → E (ks ++ .int i :: rel) n) (n : Nat) :
    ∀ i, Loc W R φ fld ks (Told W C Q E) (Lex.listLoop I rec f i n) := by
  induction n with
  | zero => intro i; exact Loc.pure
  | succ n ih =>
    intro i
    have h1 := hr.atKey (φ := φ) (fld := fld) hf (.int i) (h i)
    have h2 := ih (i + 1)
    unfold Lex.listLoop
    locs

theorem Loc.keepKey {kfl : Option (Hook (Val → Prog))} (hk : ∀ h, kfl = some h → ∃ id, h = notInForm id)
    (k : Val) : Loc W R φ fld ks G (Lex.keepKey I L C rec kfl k) := by
  cases kfl with
  | none => exact Loc.pure
  | some h =>
    obtain ⟨id, rfl⟩ := hk h rfl
    unfold Lex.keepKey
    refine .seq ?_ fun v => Loc.pure
    unfold Lex.callHook1
    refine .seq Loc.pure fun t => ?_
    show Loc W R φ fld ks G (T.bind (Lex.evalProg I L C rec (.hasItem t k)) _)
    refine LocP.seq ?_ fun r => Loc.pure
    unfold Lex.evalProg Lex.asForm
    locs

theorem Loc.dictLoop (hr : RecLoc W C R Q rec) {kf vf : Field} (hkf : kf.All (Placed R Q))
    (hvf : vf.All (Placed R Q)) {kfl : Option (Hook (Val → Prog))}
    (hk : ∀ h, kfl = some h → ∃ id, h = notInForm id) {r : Required} {m : Option Nat}
    (h : ∀ rel n, Inside C (.dict kf vf kfl r m) rel n → E (ks ++ rel) n) (keys : List Val) :
    ∀ acc, Loc W R φ fld ks (Told W C Q E) (Lex.dictLoop I L C rec kf vf kfl keys acc) := by
  induction keys with
  | nil => intro acc; exact Loc.pure
  | cons k keys ih =>
    intro acc
    have h1 := Loc.keepKey (R := R) (φ := φ) (fld := fld) (ks := ks) (G := Told W C Q E) (L := L) (C := C)
      (rec := rec) hk k
    have h2 := hr.atKey (φ := φ) (fld := fld) hvf k fun rel n hl => h (k :: rel) n (.value k hl)
    have h3 : Loc W R φ fld ks (Told W C Q E) (rec kf k) := by
      cases hN : k.isNONE with
      | true =>
        have : k = .NONE := by
          cases k with
          | const c => cases c <;> first | rfl | (cases hN; done)
          | _ => cases hN
        subst this
        exact hr.at hkf fun rel n hl => h rel n (.noneKey hl)
      | false =>
        refine Loc.mono (((hr kf hkf).1 φ fld ks).2 k hN) ?_
        rintro full n ⟨rfl, rfl⟩
        have := h [] kf.name .key
        rwa [List.append_nil] at this
    unfold Lex.dictLoop
    locs [ih]

theorem Loc.groupLoop (hr : RecLoc W C R Q rec) {fs : List (GSrc × Field)}
    (hfs : ∀ x ∈ fs, x.2.All (Placed R Q))
    (h : ∀ rel n, Inside C (.group fs) rel n → E (ks ++ rel) n) (keys : List Val) :
    ∀ m acc, Loc W R φ fld ks (Told W C Q E) (Lex.groupLoop I rec fs keys m acc) := by
  induction keys with
  | nil => intro m acc; exact Loc.pure
  | cons k keys ih =>
    intro m acc
    unfold Lex.groupLoop
    refine .bind (post := fun r => groupMatch fs k = .ok r) (.ofExcept fun _ h => h) fun r hg => ?_
    rcases r with _ | ⟨f, cap⟩
    · exact ih _ _
    · obtain ⟨g, hmem⟩ := groupMatch_mem hg
      exact .seq (hr.atKey (hfs _ hmem) k fun rel n hl => h (k :: rel) n (.member k hmem hl)) fun v =>
        .ite (fun _ => ih _ _) fun _ => ih _ _

theorem Loc.iterKeys (kv : KeysView) : Loc W R φ fld ks G (Lex.iterKeys kv : T P _) := by
  unfold Lex.iterKeys; locs

theorem Loc.seqTry : Loc W R φ fld ks G (Lex.seqTry I) := by
  have hs : Loc W R φ fld ks G (Lex.pathHasSrc I) := .onPath fun p hp => ⟨rfl, hp, rfl⟩
  intro sh env τ b ha hf hb hn
  have hh : ∀ e, Loc W R φ fld ks G (do
      let hs ← Lex.pathHasSrc I
      if !hs then T.raise (.attributeError "'MountPath' object has no attribute 'src'")
      else if e.isSourceError then T.pure (.error e)
      else T.raise e : T P (Except Exc Nat)) := by
    intro e
    locs
  obtain ⟨r, p, hp, hw, hk, hsh⟩ := ha
  have hsq := T.onPath_run (f := I.sequence) (env := env) hp
  have hsame := W.sequence_keys hw
  have hat : At W sh ks { τ with path := some (some (r, (I.sequence p).2)) } :=
    ⟨r, _, rfl, hsame.wf, hsame.keys.trans hk, hsame.shape.trans hsh⟩
  unfold Lex.seqTry T.tryCatch
  cases hres : (I.sequence p).1 with
  | ok n =>
    rw [hres] at hsq
    rw [T.bind_ok hsq]
    exact ⟨[], by rw [List.append_nil]; exact hb, hat, hn, .inl (by simp), fun _ _ => trivial⟩
  | error e =>
    rw [hres] at hsq
    rw [T.bind_error hsq]
    exact hh e sh env _ b hat hf hb hn

/-- Parsing reports errors at the field or inside it. -/
theorem Loc.kindParse (hC : C.All (Placed R Q)) (hr : RecLoc W C R Q rec) {f : Field} (hf : f.All (Placed R Q))
    (h : Here W fld ks (Told W C Q E)) (hi : ∀ rel n, Inside C f.kind rel n → E (ks ++ rel) n) :
    Loc W R φ fld ks (Told W C Q E) (Lex.kindParse I L C rec f) := by
  have hn := hf.node
  have hk := hf.kind
  have hd := Loc.fieldDefault (R := R) (φ := φ) (L := L) (C := C) (rec := rec) h hn.1
  unfold Lex.kindParse
  cases hkind : f.kind with
  | decimal c => exact Loc.decimalParse
  | date c => exact Loc.dateParse h c
  | time c => exact Loc.timeParse h c
  | datetime c => exact Loc.datetimeParse h c
  | tuple fs =>
    rw [hkind] at hk hi
    cases hk with
    | tuple ha =>
      have h1 := Loc.tupleLoop (φ := φ) (fld := fld) hr fs ha 0 fun j g hg rel n hl => by
        have := hi _ n (.entry j hg hl)
        simpa using this
      unfold Lex.tupleParse
      locs [Loc.failWith h]
  | list g lo hi' a =>
    rw [hkind] at hk hi
    cases hk with
    | list ha =>
      have h1 := fun n => Loc.listLoop (φ := φ) (fld := fld) hr ha
        (fun i rel n hl => hi _ n (.item i hl)) n 0
      unfold Lex.listParse
      refine .seq Loc.seqTry fun r => ?_
      cases r with
      | ok n => exact .seq (h1 n) fun _ => Loc.pure
      | error e =>
        refine .ite (fun _ => LocP.raise) fun hal => ?_
        have : a = true := by simpa using hal
        subst this
        exact .seq (hr.at ha fun rel n hl => hi rel n (.single hl)) fun _ => Loc.pure
  | dict kf vf kfl r m =>
    rw [hkind] at hk hi
    cases hk with
    | dict hk hv =>
      have h1 := fun keys => Loc.dictLoop (φ := φ) (fld := fld) (L := L) hr hk hv
        (fun h e => hn.1.keyFilter kf vf h r m (by rw [hkind, e])) hi keys []
      unfold Lex.dictParse
      refine .seq .mapping fun a => ?_
      cases a with
      | none => exact hd
      | some kv => exact .seq (Loc.iterKeys kv) fun keys => .seq (h1 keys) fun _ => Loc.pure
  | code => exact Loc.codeParse h
  | uuid => exact Loc.uuidParse
  | subform cls reset u =>
    rw [hkind] at hk hi
    cases hk with
    | subform ha =>
      exact Loc.mono (Loc.subParse hC hr cls reset ha)
        fun _ n ⟨rel, hrel, hl⟩ => hrel ▸ hi rel n (.form hl)
  | poly tf pc ts reset u =>
    have hq := hn.2 _ _ _ _ _ hkind
    rw [hkind] at hk hi
    cases hk with
    | poly ht hu => exact Loc.polyParse hq.1 hC hr ht hq.2 pc ts reset hu h hi
  | group fs =>
    rw [hkind] at hk hi
    cases hk with
    | group ha =>
      have h1 := fun keys => Loc.groupLoop (φ := φ) (fld := fld) hr ha hi keys false []
      unfold Lex.groupParse
      refine .seq .mapping fun a => ?_
      cases a with
      | none => exact hd
      | some kv =>
        refine .seq (Loc.iterKeys kv) fun keys => .seq (h1 keys) fun r => ?_
        cases r <;> exact Loc.pure
  | _ => exact Loc.primitive _

/-! ### `Field.map` -/

theorem Loc.fieldStart (hC : C.All (Placed R Q)) (hr : RecLoc W C R Q rec) {f : Field} (hf : f.All (Placed R Q))
    (h : Here W fld ks (Told W C Q E)) (hi : ∀ rel n, Inside C f.kind rel n → E (ks ++ rel) n) :
    Loc W R φ fld ks (Told W C Q E) (Lex.fieldStart I L C rec f) := by
  have hd := Loc.fieldDefault (R := R) (φ := φ) (L := L) (C := C) (rec := rec) h hf.node.1
  have h1 := Loc.kindParse (φ := φ) (L := L) hC hr hf h hi
  have h2 := fun v => Loc.fieldCheck (R := R) (φ := φ) (L := L) (C := C) (rec := rec) h hf.node.1 v
  rw [hf.node.1.fieldStart]
  unfold Lex.fieldCompute
  rw [hf.node.1.fieldParse]
  refine .seq (.seq .exists_ fun _ => .ite (fun _ => Loc.pure) fun _ => .seq .isNull fun _ =>
    .ite (fun _ => Loc.pure) fun _ => LocP.catch (c := fun e => e.isSourceError || e.isValueError)
      (k := fun e => .invalid e.str) h1 (fun _ => rfl) trivial fun k => Loc.here h k) fun v => ?_
  exact .ite (fun _ => hd) fun _ => .ite (fun _ => Loc.pure) fun _ => h2 v

theorem Loc.setParent (v : Val) : Loc W R φ fld ks G (Lex.setParent v : T P Unit) := by
  unfold Lex.setParent
  refine .seq (.ctxGet? _) fun par => ?_
  cases v <;> locs

/-- `with ctx(src=...)` moves to where the field lives. -/
theorem LocP.withResolve {f : Field} (hf : ValueHooks True f) {t : T P α} {post : α → Prop}
    (h : LocP W R φ fld (ks ++ f.srcKeys) G t post) :
    LocP W R φ fld ks G (Lex.withResolve I L C rec f t) post := by
  have hk : f.srcKeys = (if noSrc f.core.src then [] else [f.core.src]) →
      LocP W R φ fld ks G (if noSrc f.core.src = true then t else T.withKey I f.core.src t) post := by
    intro he
    rw [he] at h
    refine .ite (fun hs => ?_) fun hs => ?_
    · rw [if_pos hs, List.append_nil] at h
      exact h
    · rw [if_neg hs] at h
      exact .withKey h
  unfold Lex.withResolve
  rw [hf.resolve]
  unfold Field.srcKeys at hk h
  cases hkind : f.kind with
  | group fs =>
    rw [hkind, List.append_nil] at h
    exact h
  | _ => rw [hkind] at hk; exact hk rfl

theorem Loc.mapFieldF (hC : C.All (Placed R Q)) (hr : RecLoc W C R Q rec) :
    RecLoc W C R Q (Lex.mapFieldF I L C rec) := by
  intro f hf
  refine ⟨fun φ fld ks => ?_, fun hk => Hush.leaf hf.node.1 hk .NONE⟩
  have hfin : ∀ (G : W.Shape → Err → Prop) (w : Val), Loc W R φ fld ks G (do
      if (f.core.attachParent && !w.isIgnore) = true then Lex.setParent w
      T.pure w : T P Val) := by
    intro G w
    exact .ite (fun _ => .seq (.setParent w) fun _ => Loc.pure) fun _ => Loc.pure
  unfold Lex.mapFieldF Lex.fieldMapInner
  refine ⟨.seq (.withEnv (fld' := some f.name) ?_ fun _ _ => rfl) fun w => hfin _ w, fun v hv =>
    .seq (.withEnv (fld' := some f.name) ?_ fun _ _ => rfl) fun w => hfin _ w⟩
  · refine LocP.withResolve hf.node.1 (Loc.fieldStart hC hr hf (here_told ?_) ?_)
    · rintro n h
      cases h
      exact ⟨_, rfl, .self⟩
    · intro rel n hl
      exact ⟨f.srcKeys ++ rel, by rw [List.append_assoc], .part hl⟩
  · rw [if_neg (by rw [hv]; simp)]
    refine Loc.fieldCheck (here_told ?_) hf.node.1 v
    rintro n h
    cases h
    exact ⟨rfl, rfl⟩

/-- Mapping any field whose hooks are functions of the value, with any recursion budget reports errors where the field lives. -/
theorem Loc.mapField (hC : C.All (Placed R Q)) (n : Nat) : RecLoc W C R Q (Lex.mapField I L C n) := by
  induction n with
  | zero => intro f _; exact ⟨fun φ fld ks => ⟨LocP.raise, fun _ _ => LocP.raise⟩, fun _ => Hush.raise⟩
  | succ n ih => exact Loc.mapFieldF hC ih

end

end Pilo
