import Verif.View
import Verif.Keeps

/-!
# Running one hook-free field

Where a field reads from, and what `Field.map` does there.
-/

namespace Pilo

/-- Field classes that do not map other fields. -/
def Kind.leaf : Kind → Bool
  | .base | .string _ | .integer _ | .float _ | .decimal _ | .boolean => true
  | .date _ | .time _ | .datetime _ | .code | .uuid => true
  | _ => false

section
variable {P : Type} {α : Type} (I : PathOps P)

/-- The path a field reads, from the path of the enclosing mapping (`pilo/fields.py:488-494,1445-1446`). -/
def Field.place (f : Field) (p : P) : Except Exc P :=
  match f.kind with
  | .group _ => .ok p
  | _ => if noSrc f.core.src then .ok p else I.append p f.core.src

/-- The path has a value that is not null. -/
structure Present (q : P) : Prop where
  ex : (I.exists_ q).1 = .ok true
  nonnull : (I.isNull (I.exists_ q).2).1 = .ok false

/-- The path after it was asked whether it exists and is null. -/
def asked (q : P) : P := (I.isNull (I.exists_ q).2).2

variable (W : LawfulPath I)

/-- `s` is a context in which `f` reads from the path `q` (whose text is `text`), being asked by a mapping
that collects its errors in `b`. -/
structure Spot (f : Field) (s : St P) (r : Nat) (q : P) (text : String) (b : ErrBuf) : Prop where
  inv : Inv W s
  live : Live s
  place : ∃ p, curPathObj s = some (some (r, p)) ∧ f.place I p = .ok q
  text : I.render q = .ok text
  errs : curErrs s = some b
  collect : b.raising = false

end

/-- The computation returns `v` and adds no error. -/
structure Accepts {P : Type} (m : M P Val) (s : St P) (v : Val) : Prop where
  res : (m s).1 = .ok v
  errs : curErrs (m s).2 = curErrs s

/-- The computation returns `v` and adds the error `e`. -/
structure Adds {P : Type} (m : M P Val) (s : St P) (v : Val) (e : Err) : Prop where
  res : (m s).1 = .ok v
  errs : curErrs (m s).2 = (curErrs s).map fun b => { b with items := b.items ++ [e] }

/-- The computation returns `ERROR` and adds one `Invalid` error. -/
def Rejects {P : Type} (m : M P Val) (s : St P) (f : Field) (text : String) (r : Nat) : Prop :=
  ∃ msg, Adds m s .ERROR { kind := .invalid msg, path := text, field := f.name, pathRef := some r }

section
variable {P : Type} {α : Type} {I : PathOps P} {L : Lib} {W : LawfulPath I}

/-! ## Leaf fields use neither the class table nor the recursion -/

section irrel
variable {C C' : Classes} {rec rec' : Rec P} {f : Field}

theorem HookFree.default_irrel (hf : HookFree f) :
    fieldDefault I L C rec f = fieldDefault I L C' rec' f := by
  unfold fieldDefault
  rcases hf.default with h | ⟨v, h⟩ <;> rw [h]
  cases v with
  | const c => cases c <;> rfl
  | _ => rfl

theorem HookFree.check_irrel (hf : HookFree f) (v : Val) :
    fieldCheck I L C rec f v = fieldCheck I L C' rec' f v := by
  unfold fieldCheck Pilo.mungeStep Pilo.filterStep Pilo.validateStep
  rw [hf.munge, hf.filter, hf.validate, hf.default_irrel (C' := C') (rec' := rec')]

theorem leaf_start_irrel (hf : HookFree f) (hk : f.kind.leaf = true) :
    fieldStart I L C rec f = fieldStart I L C' rec' f := by
  have hp : fieldParse I L C rec f = fieldParse I L C' rec' f := by
    unfold fieldParse kindParse
    rw [hf.parse]
    cases h : f.kind <;> first | (rw [h] at hk; cases hk; done) | rfl
  unfold fieldStart computeStep fieldCompute
  rw [hf.compute, hp]
  simp only [hf.check_irrel (C' := C') (rec' := rec'), hf.default_irrel (C' := C') (rec' := rec')]
  rcases hf.default with h | ⟨v, h⟩ <;> simp only [h]

theorem leaf_irrel (hf : HookFree f) (hk : f.kind.leaf = true) (v : Val) :
    mapFieldF I L C rec f v = mapFieldF I L C' rec' f v := by
  unfold mapFieldF fieldMapInner withResolve
  rw [hf.resolve, hf.check_irrel (C' := C') (rec' := rec'),
    leaf_start_irrel (C' := C') (rec' := rec') hf hk]

end irrel

/-- An empty class table. -/
def noClasses : Classes := fun _ => { fields := [] }

theorem noClasses_all (p : Field → Prop) : noClasses.All p := by
  intro cls f hf; cases hf

theorem leaf_all {p : Field → Prop} {f : Field} (hf : p f) (hk : f.kind.leaf = true) : f.All p := by
  obtain ⟨c, k⟩ := f
  refine .mk hf ?_
  cases k <;> first | (cases hk; done) | constructor

/-- The lexical version of a leaf field. -/
def leafT (I : PathOps P) (L : Lib) (f : Field) (v : Val) : T P Val := Lex.mapFieldF I L noClasses (Lex.mapField I L noClasses 0) f v

theorem leaf_ref {C : Classes} {rec : Rec P} {f : Field} (hf : HookFree f) (hk : f.kind.leaf = true) (v : Val) :
    Ref (mapFieldF I L C rec f v) (leafT I L f v) := by
  rw [leaf_irrel (C' := noClasses) (rec' := mapField I L noClasses 0) hf hk]
  exact Ref.mapFieldF (noClasses_all _) (Ref.mapField (noClasses_all _) 0) f v
    (leaf_all hf.lexNode hk)

/-! ## Lexical runs -/

theorem T.ofExcept_ok_bind {β : Type} (a : α) (g : α → T P β) : (T.ofExcept (.ok a) >>= g) = g a := rfl
theorem T.pure_bind {β : Type} (a : α) (g : α → T P β) : (T.pure a >>= g) = g a := rfl

variable {C : Classes} {trec : TRec P} {f : Field} {env : Env} {τ τ2 : TSt P} {r : Nat} {p q : P}

/-- The environment a field runs in. -/
def Field.innerEnv (f : Field) (env : Env) : Env :=
  let env' : Env := { env with field := some f.name, parent := some .field }
  match f.kind with
  | .group _ => env'
  | _ => if noSrc f.core.src then env' else { env' with src := some (!f.core.src.isNull) }

theorem innerEnv_field (f : Field) (env : Env) : (f.innerEnv env).field = some f.name := by
  unfold Field.innerEnv
  cases f.kind <;> dsimp only <;> split <;> rfl

theorem innerEnv_ignoreMissing (f : Field) (env : Env) :
    (f.innerEnv env).ignoreMissing = env.ignoreMissing := by
  unfold Field.innerEnv
  cases f.kind <;> dsimp only <;> split <;> rfl

theorem innerEnv_ignoreDefault (f : Field) (env : Env) :
    (f.innerEnv env).ignoreDefault = env.ignoreDefault := by
  unfold Field.innerEnv
  cases f.kind <;> dsimp only <;> split <;> rfl

/-- Going to the place of a field and back. -/
theorem lexMap_run (hr : f.core.resolve = none) (ha : f.core.attachParent = false) (hw : W.WF p)
    (hp : τ.path = some (some (r, p))) (hpl : f.place I p = .ok q) {res : Except Exc Val}
    {q2 : P}
    (hrun : Lex.fieldStart I L C trec f (f.innerEnv env) { τ with path := some (some (r, q)) } = (res, τ2))
    (hq : τ2.path = some (some (r, q2))) (hs : Same I W.WF W.shape q q2) :
    ∃ p', Lex.mapFieldF I L C trec f .NONE env τ = (res, { τ2 with path := some (some (r, p')) }) := by
  have main : ∃ p', T.withEnv (fun env => { env with field := some f.name, parent := some .field })
      (Lex.fieldMapInner I L C trec f .NONE) env τ = (res, { τ2 with path := some (some (r, p')) }) := by
    unfold T.withEnv Lex.fieldMapInner
    simp only [Val.isNONE]
    unfold Lex.withResolve
    rw [hr]
    have stay : Lex.fieldStart I L C trec f { env with field := some f.name, parent := some .field } τ
        = (res, τ2) → ∃ p', Lex.fieldStart I L C trec f
          { env with field := some f.name, parent := some .field } τ =
            (res, { τ2 with path := some (some (r, p')) }) := by
      intro h
      exact ⟨q2, by rw [h, ← hq]⟩
    have move : noSrc f.core.src = false → f.innerEnv env =
          { env with field := some f.name, parent := some .field, src := some (!f.core.src.isNull) } →
        f.place I p = I.append p f.core.src →
        ∃ p', T.withKey I f.core.src (Lex.fieldStart I L C trec f)
          { env with field := some f.name, parent := some .field } τ =
            (res, { τ2 with path := some (some (r, p')) }) := by
      intro h1 he h2
      rw [h2] at hpl
      obtain ⟨hk, _⟩ := W.append_keys hw hpl
      obtain ⟨p3, hpop, _⟩ := W.pop_keys (p := q2) (ks := I.keys p) (k := f.core.src) hs.wf
        (by rw [hs.keys, hk])
      exact ⟨p3, T.withKey_run hp hpl (by rw [← hrun, he]) hq hpop⟩
    unfold Field.innerEnv at hrun move
    unfold Field.place at hpl move
    cases hkind : f.kind with
    | group fs =>
      simp only [hkind] at hrun hpl
      cases hpl
      exact stay (by rw [← hrun, ← hp])
    | _ =>
      simp only [hkind] at hrun hpl move
      cases hn : noSrc f.core.src with
      | true =>
        simp only [hn, if_true] at hrun hpl
        cases hpl
        simp only [if_true]
        exact stay (by rw [← hrun, ← hp])
      | false =>
        simp only [hn, Bool.false_eq_true, if_false] at hrun hpl move
        simp only [Bool.false_eq_true, if_false]
        exact move trivial trivial trivial
  obtain ⟨p', h⟩ := main
  refine ⟨p', ?_⟩
  unfold Lex.mapFieldF
  cases res with
  | error e => rw [T.bind_error h]
  | ok v =>
    rw [T.bind_ok h]
    simp only [ha, Bool.false_and, Bool.false_eq_true, if_false]
    rfl

theorem report_run {b : ErrBuf} {text : String} {nm : Option String} (k : ErrKind)
    (hp : τ.path = some (some (r, q))) (ht : I.render q = .ok text) (hb : τ.errs = some b)
    (hc : b.raising = false) (hn : env.field = some nm) :
    T.report I k env τ = (.ok (), { τ with errs := some { b with items := b.items ++
      [{ kind := k, path := text, field := nm, pathRef := some r }] } }) := by
  have h1 : T.errsBound env τ = (.ok (), τ) := by unfold T.errsBound; rw [hb]
  have h2 : T.ctxGet Env.field "field" env τ = (.ok nm, τ) := by unfold T.ctxGet; rw [hn]
  have h3 : T.pathText I env τ = (.ok (text, some r), τ) := by unfold T.pathText; rw [hp]; simp only [ht]
  unfold T.report
  refine (T.bind_ok h1).trans ((T.bind_ok h2).trans ((T.bind_ok h3).trans ?_))
  show T.record _ env τ = _
  unfold T.record
  rw [hb]
  simp only [hc, Bool.false_eq_true, if_false]

theorem rejectWith_run {b : ErrBuf} {text : String} {nm : Option String} (msg : String)
    (hp : τ.path = some (some (r, q))) (ht : I.render q = .ok text) (hb : τ.errs = some b)
    (hc : b.raising = false) (hn : env.field = some nm) :
    Lex.rejectWith I msg env τ = (.ok false, { τ with errs := some { b with items := b.items ++
      [{ kind := .invalid msg, path := text, field := nm, pathRef := some r }] } }) := by
  unfold Lex.rejectWith
  exact (T.bind_ok (report_run _ hp ht hb hc hn)).trans rfl

theorem failWith_run {b : ErrBuf} {text : String} {nm : Option String} (msg : String)
    (hp : τ.path = some (some (r, q))) (ht : I.render q = .ok text) (hb : τ.errs = some b)
    (hc : b.raising = false) (hn : env.field = some nm) :
    Lex.failWith I msg env τ = (.ok .ERROR, { τ with errs := some { b with items := b.items ++
      [{ kind := .invalid msg, path := text, field := nm, pathRef := some r }] } }) := by
  unfold Lex.failWith
  exact (T.bind_ok (report_run _ hp ht hb hc hn)).trans rfl

/-- `_compute` at a present value: parse, reporting source and value errors. -/
theorem fieldCompute_present (hf : HookFree f) (hp : τ.path = some (some (r, q))) (h : Present I q) :
    Lex.fieldCompute I L C trec f env τ =
      T.tryCatch (Lex.kindParse I L C trec f) (fun e =>
        if e.isSourceError || e.isValueError then Lex.failWith I e.str else T.raise e) env
        { τ with path := some (some (r, asked I q)) } := by
  have h1 : T.onPath I.exists_ env τ = (.ok true, { τ with path := some (some (r, (I.exists_ q).2)) }) := by
    rw [T.onPath_run hp, h.ex]
  have h2 : T.onPath I.isNull env { τ with path := some (some (r, (I.exists_ q).2)) } =
      (.ok false, { τ with path := some (some (r, asked I q)) }) := by
    rw [T.onPath_run (r := r) (p := (I.exists_ q).2) rfl, h.nonnull]
    rfl
  unfold Lex.fieldCompute
  rw [hf.fieldParse]
  refine (T.bind_ok h1).trans ?_
  simp only [Bool.not_true, Bool.false_eq_true, if_false]
  exact T.bind_ok h2

/-- `fieldCheck` for a field without translations and a value it does not ignore. -/
theorem fieldCheck_plain (hf : HookFree f) (ht : f.core.translations = []) {v : Val}
    (hv : v.isIgnore = false) (hi : v.inList f.core.ignores = false) :
    Lex.fieldCheck I L C trec f v = (do
      let ok ← Lex.kindValidate I L f v
      T.pure (if ok then v else .ERROR)) := by
  have hm : fieldMunge f v = .ok v := by unfold fieldMunge; rw [ht]; rfl
  have hn : v.isNONE = false := by cases v <;> first | rfl | (cases hv)
  funext env τ
  unfold Lex.fieldCheck
  rw [hf.mungeStep, hm]
  refine (T.bind_ok (show T.ofExcept (Except.ok v) env τ = (.ok v, τ) from rfl)).trans ?_
  simp only [hn, hv, Bool.false_eq_true, if_false]
  rw [hf.filterStep, hf.validateStep]
  have : fieldFilter f v = true := by unfold fieldFilter; rw [hi]; rfl
  rw [this]
  refine (T.bind_ok (show T.pure true env τ = (.ok true, τ) from rfl)).trans ?_
  simp only [Bool.not_true, Bool.false_eq_true, if_false]

/-- `fieldStart` when the compute step gives a usable value. -/
theorem fieldStart_value (hf : HookFree f) {v : Val} {τ1 : TSt P}
    (hc : Lex.fieldCompute I L C trec f env τ = (.ok v, τ1)) (hv : v.isIgnore = false) :
    Lex.fieldStart I L C trec f env τ = Lex.fieldCheck I L C trec f v env τ1 := by
  have hn : v.isNONE = false := by cases v <;> first | rfl | (cases hv)
  rw [hf.fieldStart]
  refine (T.bind_ok hc).trans ?_
  simp only [hn, hv, Bool.false_eq_true, if_false]

theorem fieldStart_ERROR (hf : HookFree f) {τ1 : TSt P}
    (hc : Lex.fieldCompute I L C trec f env τ = (.ok .ERROR, τ1)) :
    Lex.fieldStart I L C trec f env τ = (.ok .ERROR, τ1) := by
  rw [hf.fieldStart]
  refine (T.bind_ok hc).trans ?_
  rfl

/-- What `fieldStart` gives at the place of a field: result, errors added, and the path as it was but for
caches. -/
def StartsWith (W : LawfulPath I) (L : Lib) (C : Classes) (trec : TRec P) (f : Field) (r : Nat) (q : P)
    (env : Env) (b : ErrBuf) (res : Except Exc Val) (es : List Err) : Prop :=
  ∀ τ : TSt P, τ.path = some (some (r, q)) → τ.errs = some b →
    ∃ q2, Lex.fieldStart I L C trec f env τ =
        (res, { τ with path := some (some (r, q2)), errs := some { b with items := b.items ++ es } }) ∧
      Same I W.WF W.shape q q2

theorem Spot.wf {s : St P} {text : String} {b : ErrBuf} (sp : Spot I W f s r q text b) : W.WF q := by
  obtain ⟨p, hp, hpl⟩ := sp.place
  have hwp : W.WF p := by
    unfold curPathObj at hp
    split at hp
    · cases hp
    · cases hp
    · rename_i r' _
      cases hg : s.paths[r']? with
      | none => rw [hg] at hp; cases hp
      | some p' =>
        rw [hg] at hp; cases hp
        exact sp.inv.wf _ (List.mem_of_getElem? hg)
  unfold Field.place at hpl
  have hadd : (if noSrc f.core.src then Except.ok p else I.append p f.core.src) = Except.ok q → W.WF q := by
    intro h
    split at h
    · cases h; exact hwp
    · exact (W.append_keys hwp h).2
  cases hk : f.kind <;> rw [hk] at hpl <;> first | exact hadd hpl | (cases hpl; exact hwp)

theorem curPathObj_wf {s : St P} (hinv : Inv W s) (hp : curPathObj s = some (some (r, p))) : W.WF p := by
  unfold curPathObj at hp
  split at hp
  · cases hp
  · cases hp
  · rename_i r' _
    cases hg : s.paths[r']? with
    | none => rw [hg] at hp; cases hp
    | some p' =>
      rw [hg] at hp; cases hp
      exact hinv.wf _ (List.mem_of_getElem? hg)

/-- From the lexical run of `fieldStart` to `field.map()` in a context. -/
theorem Spot.run {s : St P} {text : String} {b : ErrBuf} (sp : Spot I W f s r q text b) (hr : f.core.resolve = none)
    (ha : f.core.attachParent = false) {m : M P Val} (hm : Ref m (Lex.mapFieldF I L C trec f .NONE))
    {res : Except Exc Val} {es : List Err}
    (h : StartsWith W L C trec f r q (f.innerEnv s.env) b res es) :
    (m s).1 = res ∧ curErrs (m s).2 = some { b with items := b.items ++ es } ∧
      (m s).2.forms = s.forms ∧ (m s).2.stack = s.stack := by
  obtain ⟨p, hp, hpl⟩ := sp.place
  have hwp := curPathObj_wf sp.inv hp
  obtain ⟨q2, hrun, hs⟩ := h { s.view with path := some (some (r, q)) } rfl sp.errs
  obtain ⟨p', hfin⟩ := lexMap_run (W := W) (τ := s.view) hr ha hwp hp hpl hrun rfl hs
  obtain ⟨h1, h2, h3, _, h5⟩ := hm.run sp.live
  rw [hfin] at h1 h2 h3
  exact ⟨h1, h2, h3, h5⟩

/-- `path.exists` and `path.is_null` only fill caches. -/
theorem asked_same (hw : W.WF q) : Same I W.WF W.shape q (asked I q) :=
  Same.trans W (W.exists_keys hw) (W.isNull_keys (W.exists_keys hw).wf)

/-- Only the keys and the source decide the text of a path. -/
theorem Same.render (hs : Same I W.WF W.shape p q) (hw : W.WF p) : I.render q = I.render p := by
  rw [W.render_text hw, W.render_text hs.wf, hs.keys, hs.shape]

/-- Present value, parser returns a usable value, validation passes. -/
theorem starts_accept (hf : HookFree f) (hw : W.WF q) (hpr : Present I q)
    (ht : f.core.translations = []) {v : Val} (hv : v.isIgnore = false)
    (hi : v.inList f.core.ignores = false) {env : Env} {b : ErrBuf} {q2 : P}
    (hs : Same I W.WF W.shape (asked I q) q2)
    (hparse : ∀ τ : TSt P, τ.path = some (some (r, asked I q)) →
      Lex.kindParse I L C trec f env τ = (.ok v, { τ with path := some (some (r, q2)) }))
    (hval : ∀ τ : TSt P, τ.path = some (some (r, q2)) → τ.errs = some b →
      Lex.kindValidate I L f v env τ = (.ok true, τ)) :
    StartsWith W L C trec f r q env b (.ok v) [] := by
  intro τ hp hb
  refine ⟨q2, ?_, Same.trans W (asked_same hw) hs⟩
  have hc : Lex.fieldCompute I L C trec f env τ = (.ok v, { τ with path := some (some (r, q2)) }) := by
    rw [fieldCompute_present hf hp hpr]
    unfold T.tryCatch
    rw [hparse { τ with path := some (some (r, asked I q)) } rfl]
  rw [fieldStart_value hf hc hv, fieldCheck_plain hf ht hv hi]
  refine (T.bind_ok (hval { τ with path := some (some (r, q2)) } rfl hb)).trans ?_
  simp only [if_true, List.append_nil]
  show (Except.ok v, _) = _
  rw [← hb]

/-- Present value, parser returns a usable value, validation reports one error. -/
theorem starts_reject (hf : HookFree f) (hw : W.WF q) (hpr : Present I q)
    (ht : f.core.translations = []) {v : Val} (hv : v.isIgnore = false)
    (hi : v.inList f.core.ignores = false) {env : Env} {b : ErrBuf} {q2 : P} {text msg : String}
    (hs : Same I W.WF W.shape (asked I q) q2) (htx : I.render q = .ok text) (hc : b.raising = false)
    (hn : env.field = some f.name)
    (hparse : ∀ τ : TSt P, τ.path = some (some (r, asked I q)) →
      Lex.kindParse I L C trec f env τ = (.ok v, { τ with path := some (some (r, q2)) }))
    (hval : Lex.kindValidate I L f v = Lex.rejectWith I msg) :
    StartsWith W L C trec f r q env b (.ok .ERROR)
      [{ kind := .invalid msg, path := text, field := f.name, pathRef := some r }] := by
  intro τ hp hb
  have hsq := Same.trans W (asked_same hw) hs
  refine ⟨q2, ?_, hsq⟩
  have hcm : Lex.fieldCompute I L C trec f env τ = (.ok v, { τ with path := some (some (r, q2)) }) := by
    rw [fieldCompute_present hf hp hpr]
    unfold T.tryCatch
    rw [hparse { τ with path := some (some (r, asked I q)) } rfl]
  rw [fieldStart_value hf hcm hv, fieldCheck_plain hf ht hv hi, hval]
  exact (T.bind_ok (rejectWith_run (τ := { τ with path := some (some (r, q2)) }) (q := q2) msg rfl (by rw [hsq.render hw, htx]) hb hc hn)).trans rfl

/-- Present value, parser raises an error that is reported. -/
theorem starts_raise (hf : HookFree f) (hw : W.WF q) (hpr : Present I q)
    {e : Exc} (he : (e.isSourceError || e.isValueError) = true) {env : Env} {b : ErrBuf} {q2 : P}
    {text : String} (hs : Same I W.WF W.shape (asked I q) q2) (htx : I.render q = .ok text)
    (hc : b.raising = false) (hn : env.field = some f.name)
    (hparse : ∀ τ : TSt P, τ.path = some (some (r, asked I q)) →
      Lex.kindParse I L C trec f env τ = (.error e, { τ with path := some (some (r, q2)) })) :
    StartsWith W L C trec f r q env b (.ok .ERROR)
      [{ kind := .invalid e.str, path := text, field := f.name, pathRef := some r }] := by
  intro τ hp hb
  have hsq := Same.trans W (asked_same hw) hs
  refine ⟨q2, ?_, hsq⟩
  refine fieldStart_ERROR hf ?_
  rw [fieldCompute_present hf hp hpr]
  unfold T.tryCatch
  rw [hparse { τ with path := some (some (r, asked I q)) } rfl]
  simp only [he, if_true]
  exact failWith_run (τ := { τ with path := some (some (r, q2)) }) (q := q2) _ rfl (by rw [hsq.render hw, htx]) hb hc hn

/-- Present value, parser reports an error itself. -/
theorem starts_fail (hf : HookFree f) (hw : W.WF q) (hpr : Present I q)
    {env : Env} {b : ErrBuf} {q2 : P} {e : Err}
    (hs : Same I W.WF W.shape (asked I q) q2)
    (hparse : ∀ τ : TSt P, τ.path = some (some (r, asked I q)) → τ.errs = some b →
      Lex.kindParse I L C trec f env τ = (.ok .ERROR, { τ with
        path := some (some (r, q2)), errs := some { b with items := b.items ++ [e] } })) :
    StartsWith W L C trec f r q env b (.ok .ERROR) [e] := by
  intro τ hp hb
  refine ⟨q2, ?_, Same.trans W (asked_same hw) hs⟩
  refine fieldStart_ERROR hf ?_
  rw [fieldCompute_present hf hp hpr]
  unfold T.tryCatch
  rw [hparse { τ with path := some (some (r, asked I q)) } rfl hb]

/-- Present value, parser raises an error that is not reported. -/
theorem starts_escape (hf : HookFree f) (hw : W.WF q) (hpr : Present I q)
    {e : Exc} (he : (e.isSourceError || e.isValueError) = false) {env : Env} {b : ErrBuf} {q2 : P}
    (hs : Same I W.WF W.shape (asked I q) q2)
    (hparse : ∀ τ : TSt P, τ.path = some (some (r, asked I q)) →
      Lex.kindParse I L C trec f env τ = (.error e, { τ with path := some (some (r, q2)) })) :
    StartsWith W L C trec f r q env b (.error e) [] := by
  intro τ hp hb
  refine ⟨q2, ?_, Same.trans W (asked_same hw) hs⟩
  rw [hf.fieldStart]
  refine (T.bind_error (e := e) (τ' := { τ with path := some (some (r, q2)) }) ?_).trans ?_
  · rw [fieldCompute_present hf hp hpr]
    unfold T.tryCatch
    rw [hparse { τ with path := some (some (r, asked I q)) } rfl]
    simp only [he, Bool.false_eq_true, if_false]
    rfl
  · simp only [List.append_nil]; rw [← hb]

end
end Pilo

/-! ## Values that are absent or null: the field class does not matter -/

namespace Pilo
section
variable {P : Type} {α : Type} {I : PathOps P} {L : Lib} {W : LawfulPath I} {C : Classes} {rec : Rec P}
  {f : Field} {s : St P} {r : Nat} {p q : P}

/-- The path has no value. -/
def Absent (I : PathOps P) (q : P) : Prop := (I.exists_ q).1 = .ok false

/-- The path has a null value. -/
structure Null (I : PathOps P) (q : P) : Prop where
  ex : (I.exists_ q).1 = .ok true
  null : (I.isNull (I.exists_ q).2).1 = .ok true

/-- The field reduced to a plain `Field` at the same place. -/
def Field.bare (f : Field) : Field :=
  .mk (match f.kind with | .group _ => { f.core with src := .NONE } | _ => f.core) .base

theorem bare_place (f : Field) (p : P) : f.bare.place I p = f.place I p := by
  unfold Field.bare Field.place
  cases h : f.kind <;> simp only [Field.kind, Field.core] <;> rfl

/-- `bare` changes only `src`. -/
theorem bare_core (f : Field) : ∃ v, f.bare.core = { f.core with src := v } := by
  unfold Field.bare Field.core
  cases f.kind <;> first | exact ⟨_, rfl⟩

theorem HookFree.bare (hf : HookFree f) : HookFree f.bare := by
  obtain ⟨v, h⟩ := bare_core f
  constructor
  · rw [h]; exact hf.default
  · rw [h]; exact hf.resolve
  · rw [h]; exact hf.compute
  · rw [h]; exact hf.parse
  · rw [h]; exact hf.munge
  · rw [h]; exact hf.filter
  · rw [h]; exact hf.validate
  · intro _ _ _ _ _ h; cases h

theorem bare_name (f : Field) : f.bare.name = f.name := by
  obtain ⟨v, h⟩ := bare_core f
  unfold Field.name; rw [h]

theorem M.onPath_run {g : P → Except Exc α × P} (hp : curPathObj s = some (some (r, p))) :
    onPath g s = ((g p).1, { s with paths := s.paths.set r (g p).2 }) := by
  unfold curPathObj at hp
  unfold onPath
  split at hp
  · cases hp
  · cases hp
  · rename_i r' hr'
    rw [hr']
    cases hg : s.paths[r']? with
    | none => rw [hg] at hp; cases hp
    | some p' => rw [hg] at hp; cases hp; simp only [hg]

theorem curPathObj_set (hp : curPathObj s = some (some (r, p))) (p' : P) :
    curPathObj { s with paths := s.paths.set r p' } = some (some (r, p')) := by
  unfold curPathObj at *
  split at hp
  · cases hp
  · cases hp
  · rename_i r' hr'
    cases hg : s.paths[r']? with
    | none => rw [hg] at hp; cases hp
    | some p' =>
      rw [hg] at hp; cases hp
      have := (List.getElem?_eq_some_iff.1 hg).1
      simp [this, hr']

theorem computeStep_missing (hf : HookFree f) (hp : curPathObj s = some (some (r, q)))
    (h : Absent I q ∨ Null I q) :
    ∃ s', computeStep I L C rec f s =
      (.ok (match (I.exists_ q).1 with | .ok true => .none | _ => .NONE), s') ∧
      computeStep I L noClasses (Pilo.mapField I L noClasses 0) f.bare s =
      (.ok (match (I.exists_ q).1 with | .ok true => .none | _ => .NONE), s') := by
  have hfb := hf.bare
  unfold Pilo.computeStep fieldCompute
  rw [hf.compute, hfb.compute]
  dsimp only
  rcases h with h | h
  · have h1 : readPath I.exists_ s = (.ok false, { s with paths := s.paths.set r (I.exists_ q).2 }) := by
      unfold readPath; rw [M.onPath_run hp, h]
    rw [h]
    exact ⟨_, (M.bind_ok h1).trans rfl, (M.bind_ok h1).trans rfl⟩
  · have h1 : readPath I.exists_ s = (.ok true, { s with paths := s.paths.set r (I.exists_ q).2 }) := by
      unfold readPath; rw [M.onPath_run hp, h.ex]
    have h2 := M.onPath_run (g := I.isNull) (curPathObj_set hp (I.exists_ q).2)
    rw [h.null] at h2
    rw [h.ex]
    exact ⟨_, (M.bind_ok h1).trans ((M.bind_ok h2).trans rfl), (M.bind_ok h1).trans ((M.bind_ok h2).trans rfl)⟩

theorem fieldDefault_bare (hf : HookFree f) :
    fieldDefault I L C rec f = fieldDefault I L noClasses (Pilo.mapField I L noClasses 0) f.bare := by
  obtain ⟨v, hv⟩ := bare_core f
  unfold fieldDefault
  rw [hv]
  rcases hf.default with h | ⟨w, h⟩ <;> simp only [h]
  cases w with
  | const c => cases c <;> rfl
  | _ => rfl

theorem fieldCheck_bare (hf : HookFree f) (ht : f.core.translations = []) :
    fieldCheck I L C rec f .none = fieldCheck I L noClasses (Pilo.mapField I L noClasses 0) f.bare .none := by
  obtain ⟨v, hv⟩ := bare_core f
  have hfb := hf.bare
  have h1 : mungeStep I L C rec f .none = M.pure .none := by
    unfold mungeStep fieldMunge; rw [ht, hf.munge]; rfl
  have h2 : mungeStep I L noClasses (Pilo.mapField I L noClasses 0) f.bare .none = M.pure .none := by
    unfold mungeStep fieldMunge; rw [hv, ht, hf.munge]; rfl
  have h3 : filterStep I L C rec f .none =
      filterStep I L noClasses (Pilo.mapField I L noClasses 0) f.bare .none := by
    unfold filterStep fieldFilter; rw [hf.filter, hfb.filter, hv]
  have h4 : kindValidate I L f .none = kindValidate I L f.bare .none := by
    unfold kindValidate baseValidate
    rw [hv]
    rfl
  have h5 : validateStep I L C rec f .none =
      validateStep I L noClasses (Pilo.mapField I L noClasses 0) f.bare .none := by
    unfold validateStep; rw [hf.validate, hfb.validate, h4]
  unfold fieldCheck
  rw [h1, h2]
  funext s
  refine (M.bind_ok (show M.pure Val.none s = _ from rfl)).trans
    (Eq.trans ?_ (M.bind_ok (show M.pure Val.none s = _ from rfl)).symm)
  simp only [h3, h5, fieldDefault_bare hf]

theorem fieldStart_bare (hf : HookFree f) (hp : curPathObj s = some (some (r, q)))
    (h : Absent I q ∨ Null I q) (ht : Null I q → f.core.translations = []) :
    fieldStart I L C rec f s = fieldStart I L noClasses (Pilo.mapField I L noClasses 0) f.bare s := by
  obtain ⟨s', h1, h2⟩ := computeStep_missing (L := L) (C := C) (rec := rec) hf hp h
  obtain ⟨v, hv⟩ := bare_core f
  unfold fieldStart
  refine (M.bind_ok h1).trans (Eq.trans ?_ (M.bind_ok h2).symm)
  rcases h with h | h
  · rw [h]
    simp only [Val.isNONE, hv, fieldDefault_bare (C := C) (rec := rec) hf]
    rcases hf.default with h | ⟨w, h⟩ <;> simp only [h] <;> rfl
  · rw [h.ex]
    exact congrFun (fieldCheck_bare hf (ht h)) s'

theorem withPush_congr {push : M P Unit} {m m' : M P α}
    (h : ∀ s1, push s = (.ok (), s1) → m s1 = m' s1) : withPush I push m s = withPush I push m' s := by
  unfold withPush
  rcases hr : push s with ⟨r, s1⟩
  cases r with
  | error e => exact (M.bind_error hr).trans (M.bind_error hr).symm
  | ok u =>
    refine (M.bind_ok hr).trans (Eq.trans ?_ (M.bind_ok hr).symm)
    unfold M.tryFinally
    rw [h s1 hr]

theorem curPathObj_pushVars (fr : Frame) : curPathObj (pushVars fr s).2 = curPathObj s := by
  have : curPath (pushVars fr s).2.stack = curPath s.stack := by
    simp [pushVars, stackAppend, M.modify, curPath, lookup, FrameSrc.path?]
  unfold curPathObj
  rw [this]
  rfl

theorem pushKey_run {k : Val} {fr : Frame} (hp : curPathObj s = some (some (r, p)))
    (hap : I.append p k = .ok q) {s1 : St P} (h : pushKey I k fr s = (.ok (), s1)) :
    curPathObj s1 = some (some (r, q)) := by
  unfold pushKey at h
  have h1 := M.onPath_run (g := pathAppend I k) hp
  have h2 : pathAppend I k p = (.ok (), q) := by unfold pathAppend; rw [hap]
  rw [h2] at h1
  rw [M.bind_ok h1] at h
  have : curPathObj s1 = curPathObj { s with paths := s.paths.set r q } := by
    cases h
    unfold curPathObj
    have : curPath ({ fr with src := .key k } :: s.stack) = curPath s.stack := by
      simp [curPath, lookup, FrameSrc.path?]
    simp only [this]
  rw [this, curPathObj_set hp]

/-- For an absent or null value a field is as good as a plain one. -/
theorem mapField_bare (hf : HookFree f) (hp : curPathObj s = some (some (r, p)))
    (hpl : f.place I p = .ok q) (h : Absent I q ∨ Null I q) (ht : Null I q → f.core.translations = []) :
    mapFieldF I L C rec f .NONE s =
      mapFieldF I L noClasses (Pilo.mapField I L noClasses 0) f.bare .NONE s := by
  obtain ⟨v, hv⟩ := bare_core f
  have hfb := hf.bare
  have hattach : f.bare.core.attachParent = f.core.attachParent := by rw [hv]
  unfold mapFieldF
  rw [hattach, bare_name]
  have main : withPush I (pushVars { field := some f.name, parent := some .field })
        (fieldMapInner I L C rec f .NONE) s =
      withPush I (pushVars { field := some f.name, parent := some .field })
        (fieldMapInner I L noClasses (Pilo.mapField I L noClasses 0) f.bare .NONE) s := by
    refine withPush_congr fun s1 hs1 => ?_
    have hp1 : curPathObj s1 = some (some (r, p)) := by
      have := curPathObj_pushVars (s := s) { field := some f.name, parent := some .field }
      rw [hs1] at this
      exact this.trans hp
    unfold fieldMapInner withResolve
    rw [hf.resolve, hfb.resolve]
    have stay : p = q → fieldStart I L C rec f s1 =
        fieldStart I L noClasses (Pilo.mapField I L noClasses 0) f.bare s1 := by
      rintro rfl; exact fieldStart_bare hf hp1 h ht
    have move : ∀ k, I.append p k = .ok q → withPush I (pushKey I k) (fieldStart I L C rec f) s1 =
        withPush I (pushKey I k) (fieldStart I L noClasses (Pilo.mapField I L noClasses 0) f.bare) s1 :=
      fun k hk => withPush_congr fun s2 hs2 => fieldStart_bare hf (pushKey_run hp1 hk hs2) h ht
    unfold Field.place at hpl
    have hcore : f.bare.core.src = match f.kind with | .group _ => .NONE | _ => f.core.src := by
      unfold Field.bare; cases f.kind <;> rfl
    have hbk : f.bare.kind = .base := rfl
    cases hk : f.kind with
    | group fs =>
      simp only [hk] at hpl hcore
      cases hpl
      simp only [hcore, hbk]
      exact stay rfl
    | _ =>
      simp only [hk] at hpl hcore
      cases hn : noSrc f.core.src with
      | true =>
        simp only [hn, if_true] at hpl
        cases hpl
        simp only [hcore, hbk, hn, if_true]
        exact stay rfl
      | false =>
        simp only [hn, Bool.false_eq_true, if_false] at hpl
        simp only [hcore, hbk, hn, Bool.false_eq_true, if_false]
        exact move _ hpl
  rcases hr : withPush I (pushVars { field := some f.name, parent := some .field })
        (fieldMapInner I L C rec f .NONE) s with ⟨r', s'⟩
  rw [hr] at main
  cases r' with
  | error e => exact (M.bind_error hr).trans (M.bind_error main.symm).symm
  | ok w => rw [M.bind_ok hr, M.bind_ok main.symm]

end
end Pilo
