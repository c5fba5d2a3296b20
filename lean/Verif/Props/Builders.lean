import Verif.Builders
import Verif.Props.FormsDemo

/-!
# C60 to C62: constants, patterns and captures
-/

namespace Pilo
variable {P : Type} {α : Type} {I : PathOps P} {L : Lib} {W : LawfulPath I} {C : Classes} {rec : Rec P}
  {f : Field} {s : St P} {r : Nat} {q : P} {text : String} {b : ErrBuf}

/-! ## What validation comes to -/

/-- The check passes, rejects with a message, or raises; it does not look at anything but the value. -/
def Checked (I : PathOps P) (m : T P Bool) : Prop :=
  m = T.pure true ∨ (∃ msg, m = Lex.rejectWith I msg) ∨ ∃ e, m = T.raise e

theorem Checked.pure : Checked I (T.pure true) := .inl rfl

theorem Checked.reject (msg : String) : Checked I (Lex.rejectWith I msg) := .inr (.inl ⟨_, rfl⟩)

theorem Checked.ofExcept {x : Except Exc α} {k : α → T P Bool} (h : ∀ a, Checked I (k a)) :
    Checked I (T.ofExcept x >>= k) := by
  cases x with
  | ok a => exact h a
  | error e => exact .inr (.inr ⟨e, rfl⟩)

theorem Checked.ite {c : Prop} [Decidable c] {m m' : T P Bool} (h : Checked I m) (h' : Checked I m') :
    Checked I (if c then m else m') := by
  split
  · exact h
  · exact h'

theorem Checked.range (lo hi : Option Val) (a b : Val → Val → String) (v : Val) :
    Checked I (Lex.rangeValidate I L lo hi a b v) :=
  .ofExcept fun _ => .ite (.reject _) (.ofExcept fun _ => .ite (.reject _) .pure)

theorem Checked.string (c : StrCfg) (v : Val) : Checked I (Lex.stringValidate I L f c v) := by
  unfold Lex.stringValidate
  refine .ofExcept fun _ => .ite (.ofExcept fun _ => .reject _) (.ofExcept fun _ => .ite (.reject _)
    (.ofExcept fun _ => .ite (.reject _) (.ofExcept fun _ => .ite (.reject _) (.ite ?_ .pure))))
  split <;> exact .reject _

theorem rejectWith_bind (msg : String) (k : Bool → T P Bool) (h : k false = T.pure false) :
    (Lex.rejectWith I msg >>= k) = Lex.rejectWith I msg := by
  funext env τ
  unfold Lex.rejectWith
  rcases h1 : Lex.invalid I msg env τ with ⟨r, τ1⟩
  cases r with
  | error e => rw [T.bind_error h1]; exact T.bind_error (T.bind_error h1)
  | ok u => rw [T.bind_ok h1]; refine (T.bind_ok (a := false) (T.bind_ok h1)).trans ?_; rw [h]

theorem checked_validate (hk : f.kind.leaf = true) (v : Val) : Checked I (Lex.kindValidate I L f v) := by
  by_cases hn : v.isNull = true
  · unfold Lex.kindValidate Lex.baseValidate
    rw [hn]
    cases f.core.nullable.truthy with
    | true => exact .pure
    | false =>
      rw [show (true && !false) = true from rfl, if_pos rfl, rejectWith_bind]
      · exact .reject _
      · rfl
  · rw [kindValidate_nonnull (by simpa using hn)]
    cases h : f.kind <;> rw [h] at hk <;> first | (cases hk; done) | exact .pure | exact .range _ _ _ _ _ | exact .string _ _

/-! ## C60 -/

theorem constant_alone (hf : HookFree f) (hk : f.kind.leaf = true) (v : Val) : Alone I L (f.constant v) where
  leaf := hk
  default := hf.default
  resolve := hf.resolve
  compute := by
    intro h e t
    cases e
    exact ⟨trivial, fun _ _ _ _ => rfl⟩
  parse := by intro h e; exact absurd (hf.parse.symm.trans e) (by simp)
  munge := by intro h e; exact absurd (hf.munge.symm.trans e) (by simp)
  filter := hf.filter
  validate := hf.validate

theorem constant_start {trec : TRec P} {v : Val} (hv : v.isIgnore = false) :
    Lex.fieldStart I L C trec (f.constant v) = Lex.fieldCheck I L C trec f v := by
  have hn : v.isNONE = false := by cases v <;> first | rfl | (cases hv)
  have : Lex.fieldStart I L C trec (f.constant v) = (if v.isNONE then (match f.core.default with
      | .hook h => Lex.callHook I L C trec h
      | _ => Lex.fieldDefault I L C trec f)
    else if v.isIgnore then T.pure v else Lex.fieldCheck I L C trec f v) := rfl
  rw [this, hn, hv]
  rfl

/-- C60. A constant field, of a leaf class and without other hooks, translations and ignored values: whatever the
source and the context, it gives its constant and no error; or, if the constant is not valid for the field, always
`ERROR` and the same one error (or always the same exception, where validating it raises one). -/
theorem C60_constant (W : LawfulPath I) (hf : HookFree f) (hk : f.kind.leaf = true) (ha : f.core.attachParent = false)
    (ht : f.core.translations = []) {v : Val} (hv : v.isIgnore = false) (hi : v.inList f.core.ignores = false) :
    (∀ C rec s r q text b, Spot I W (f.constant v) s r q text b →
      Accepts (mapFieldF I L C rec (f.constant v) .NONE) s v) ∨
    (∃ msg, ∀ C rec s r q text b, Spot I W (f.constant v) s r q text b →
      Adds (mapFieldF I L C rec (f.constant v) .NONE) s .ERROR
        { kind := .invalid msg, path := text, field := f.name, pathRef := some r }) ∨
    (∃ e, ∀ C rec s r q text b, Spot I W (f.constant v) s r q text b →
      (mapFieldF I L C rec (f.constant v) .NONE s).1 = .error e) := by
  have hal := constant_alone (I := I) (L := L) hf hk v
  rcases checked_validate (I := I) (L := L) hk v with h | ⟨msg, h⟩ | ⟨e, h⟩
  · refine .inl fun C rec s r q text b sp => hal.accepts sp ha fun τ hp hb => ⟨q, ?_, ⟨rfl, sp.wf, rfl⟩⟩
    rw [constant_start hv, fieldCheck_plain hf ht hv hi, h, List.append_nil, ← hb, ← hp]
    rfl
  · refine .inr (.inl ⟨msg, fun C rec s r q text b sp => hal.adds sp ha fun τ hp hb => ⟨q, ?_, ⟨rfl, sp.wf, rfl⟩⟩⟩)
    rw [constant_start hv, fieldCheck_plain hf ht hv hi, h, ← hp]
    exact (T.bind_ok (rejectWith_run msg hp sp.text hb sp.collect (innerEnv_field _ _))).trans rfl
  · refine .inr (.inr ⟨e, fun C rec s r q text b sp => (hal.raises sp ha fun τ hp hb => ⟨q, ?_, ⟨rfl, sp.wf, rfl⟩⟩).1⟩)
    rw [constant_start hv, fieldCheck_plain hf ht hv hi, h, List.append_nil, ← hb, ← hp]
    rfl

/-- C60, plain fields: any constant but `None` is given, and `None` where the field is nullable. -/
theorem C60_plain (sp : ∀ v, Spot I W (f.constant v) s r q text b) (hf : HookFree f) (hk : f.kind = .base)
    (ha : f.core.attachParent = false) (ht : f.core.translations = []) {v : Val} (hv : v.isIgnore = false)
    (hi : v.inList f.core.ignores = false) (hn : v ≠ .none ∨ f.core.nullable.truthy = true) :
    Accepts (mapFieldF I L C rec (f.constant v) .NONE) s v := by
  have hk' : f.kind.leaf = true := by rw [hk]; rfl
  refine (constant_alone (I := I) (L := L) hf hk' v).accepts (sp v) ha fun τ hp hb => ⟨q, ?_, ⟨rfl, (sp v).wf, rfl⟩⟩
  have h : Lex.kindValidate I L f v = T.pure true := by
    by_cases hz : v.isNull = true
    · have hv0 : v = .none := by cases v <;> first | rfl | (cases hz)
      have := hn.resolve_left (fun h => h hv0)
      unfold Lex.kindValidate Lex.baseValidate
      rw [hz, this]
      rfl
    · rw [kindValidate_nonnull (by simpa using hz), hk]
  rw [constant_start hv, fieldCheck_plain hf ht hv hi, h, List.append_nil, ← hb, ← hp]
  rfl

/-! ## C61 -/

theorem pattern_alone (hf : HookFree f) (hk : f.kind.leaf = true) (re : Regex) : Alone I L (f.pattern L re) where
  leaf := hk
  default := hf.default
  resolve := hf.resolve
  compute := by intro h e; exact absurd (hf.compute.symm.trans e) (by simp)
  parse := by
    intro h e t
    cases e
    refine ⟨⟨trivial, fun v => ?_⟩, fun C C' rec rec' => ?_⟩
    · cases v <;> try trivial
      dsimp only
      split
      · trivial
      · split <;> trivial
    · show M.bind _ _ = M.bind _ _
      congr 1
      funext v
      cases v <;> try rfl
      dsimp only
      split
      · rfl
      · split <;> rfl
  munge := by intro h e; exact absurd (hf.munge.symm.trans e) (by simp)
  filter := hf.filter
  validate := hf.validate

theorem pattern_start {trec : TRec P} (hf : HookFree f) (re : Regex) :
    Lex.fieldStart I L C trec (f.pattern L re) = (do
      let v ← Lex.fieldCompute I L C trec (f.pattern L re)
      if v.isNONE then Lex.fieldDefault I L C trec f
      else if v.isIgnore then T.pure v
      else Lex.fieldCheck I L C trec f v) := by
  have h1 : Lex.fieldStart I L C trec (f.pattern L re) = ((match f.core.compute with
      | some h => Lex.callHook I L C trec h
      | none => Lex.fieldCompute I L C trec (f.pattern L re)) >>= fun v =>
        if v.isNONE then (match f.core.default with
      | .hook h => Lex.callHook I L C trec h
      | _ => Lex.fieldDefault I L C trec f)
        else if v.isIgnore then T.pure v else Lex.fieldCheck I L C trec f v) := rfl
  rw [h1, hf.compute]
  rcases hf.default with h | ⟨w, h⟩ <;> simp only [h]

/-- What the registered function gives for the text `x`. -/
def patternValue (L : Lib) (re : Regex) (x : String) : Except Exc Val :=
  match re.run x with
  | none => .error (.valueError (x ++ " does not match pattern \"" ++ re.text ++ "\""))
  | some m => match L.intOfStr m.whole with
    | some i => .ok (.int i)
    | none => .error (.valueError "invalid literal for int() with base 10")

theorem pattern_compute {trec : TRec P} {env : Env} {id : Nat} (hform : env.form = some id) {re : Regex} {x : String}
    (hpr : Present I q) (hx : (I.primitive .str (asked I q)).1 = .ok (.str x)) {τ : TSt P}
    (hp : τ.path = some (some (r, q))) :
    Lex.fieldCompute I L C trec (f.pattern L re) env τ =
      (match patternValue L re x with
        | .ok v => T.pure v
        | .error e => Lex.failWith I e.str) env { τ with path := some (some (r, (I.primitive .str (asked I q)).2)) } := by
  have h1 : T.onPath I.exists_ env τ = (.ok true, { τ with path := some (some (r, (I.exists_ q).2)) }) := by
    rw [T.onPath_run hp, hpr.ex]
  have h2 : T.onPath I.isNull env { τ with path := some (some (r, (I.exists_ q).2)) } =
      (.ok false, { τ with path := some (some (r, asked I q)) }) := by
    rw [T.onPath_run (r := r) (p := (I.exists_ q).2) rfl, hpr.nonnull]
    rfl
  have h3 : Lex.fieldParse I L C trec (f.pattern L re) env { τ with path := some (some (r, asked I q)) } =
      (patternValue L re x, { τ with path := some (some (r, (I.primitive .str (asked I q)).2)) }) := by
    have ht : Lex.hookTarget (P := P) ({ body := fun _ => patternParse L re } : Hook Prog) env
        { τ with path := some (some (r, asked I q)) } = (.ok (.form id), { τ with path := some (some (r, asked I q)) }) := by
      have : T.ctxGet Env.form "form" env { τ with path := some (some (r, asked I q)) } =
          (.ok id, { τ with path := some (some (r, asked I q)) }) := by unfold T.ctxGet; rw [hform]
      exact T.bind_ok this
    refine (T.bind_ok ht).trans ?_
    refine (T.bind_ok (primitive_parse hx rfl)).trans ?_
    dsimp only
    unfold patternValue
    cases re.run x with
    | none => rfl
    | some m => dsimp only; cases L.intOfStr m.whole <;> rfl
  unfold Lex.fieldCompute
  refine (T.bind_ok h1).trans ?_
  simp only [Bool.not_true, Bool.false_eq_true, if_false]
  refine (T.bind_ok h2).trans ?_
  simp only [Bool.false_eq_true, if_false]
  unfold T.tryCatch
  rw [h3]
  unfold patternValue
  cases re.run x with
  | none => rfl
  | some m => dsimp only; cases L.intOfStr m.whole <;> rfl

theorem innerEnv_form (f : Field) (env : Env) : (f.innerEnv env).form = env.form := by
  unfold Field.innerEnv
  cases f.kind <;> dsimp only <;> split <;> rfl

/-- C61. An `Integer` or `Float` field with `pattern`, with no other hooks, translations and ignored values, mapped as
part of a form, whose source holds the text `x`.  If `x` matches and what is matched is the text of an integer `i`: `i`
is given if it is within the bounds, otherwise there is exactly one error.  If `x` does not match: `ERROR`, and one
error that says so.  If `x` matches, but what is matched is not the text of an integer: `ERROR` and one error, also
for a `Float`. -/
theorem C61_pattern_partial {re : Regex} {c : NumCfg} {ty : PTy} {x : String}
    (sp : Spot I W (f.pattern L re) s r q text b) (hf : HookFree f) (hk : f.kind.number? = some (c, ty))
    (ha : f.core.attachParent = false) (ht : f.core.translations = []) (hig : f.core.ignores = [])
    (hform : ∃ id, s.env.form = some id) (hb : BoundsOK c) (hpr : Present I q)
    (hx : (I.primitive .str (asked I q)).1 = .ok (.str x)) :
    (∀ m i, re.run x = some m → L.intOfStr m.whole = some i →
      (InRange c (.fin i) → Accepts (mapFieldF I L C rec (f.pattern L re) .NONE) s (.int i)) ∧
      (¬ InRange c (.fin i) → Rejects (mapFieldF I L C rec (f.pattern L re) .NONE) s f text r)) ∧
    (re.run x = none → Adds (mapFieldF I L C rec (f.pattern L re) .NONE) s .ERROR
      { kind := .invalid (x ++ " does not match pattern \"" ++ re.text ++ "\""), path := text, field := f.name,
        pathRef := some r }) ∧
    (∀ m, re.run x = some m → L.intOfStr m.whole = none →
      Rejects (mapFieldF I L C rec (f.pattern L re) .NONE) s f text r) := by
  have hleaf : f.kind.leaf = true := by
    cases h : f.kind <;> rw [h] at hk <;> simp [Kind.number?] at hk <;> rfl
  have hal := pattern_alone (I := I) (L := L) hf hleaf re
  obtain ⟨id, hform⟩ := hform
  have hform' : ((f.pattern L re).innerEnv s.env).form = some id := by rw [innerEnv_form]; exact hform
  have hs : Same I W.WF W.shape q (I.primitive .str (asked I q)).2 :=
    Same.trans W (asked_same sp.wf) (W.primitive_keys (asked_same sp.wf).wf)
  have bad : ∀ m, patternValue L re x = .error (.valueError m) →
      Adds (mapFieldF I L C rec (f.pattern L re) .NONE) s .ERROR
        { kind := .invalid (Exc.valueError m).str, path := text, field := f.name, pathRef := some r } := by
    intro m hm
    refine hal.adds sp ha fun τ hp hb' => ⟨_, ?_, hs⟩
    have hc := pattern_compute (L := L) (C := noClasses) (trec := Lex.mapField I L noClasses 0) (f := f) (re := re) hform' hpr hx hp
    rw [hm] at hc
    have hc' := hc.trans (failWith_run (τ := { τ with path := some (some (r, (I.primitive .str (asked I q)).2)) })
      (text := text) _ rfl (by rw [hs.render sp.wf, sp.text]) hb' sp.collect (innerEnv_field _ _))
    rw [pattern_start hf]
    exact (T.bind_ok hc').trans rfl
  refine ⟨fun m i hm hi => ?_, fun hm => ?_, fun m hm hi => ?_⟩
  · have hpv : patternValue L re x = .ok (.int i) := by unfold patternValue; rw [hm]; dsimp only; rw [hi]
    have hval : Lex.kindValidate I L f (.int i) = Lex.numberValidate I L c (.int i) := by
      rw [kindValidate_nonnull rfl]
      cases h : f.kind <;> rw [h] at hk <;> simp [Kind.number?] at hk <;> rw [hk.1]
    have hig' : (Val.int i).inList f.core.ignores = false := by rw [hig]; rfl
    obtain ⟨hok, hbad⟩ := rangeValidate_spec (I := I) (L := L) (v := .int i) (x := .fin i)
      (loMsg := fun v b => "\"" ++ L.fmt v ++ "\" must be >= " ++ L.fmt b)
      (hiMsg := fun v b => "\"" ++ L.fmt v ++ "\" must be <= " ++ L.fmt b) hb rfl (by simp)
    have start : ∀ τ : TSt P, τ.path = some (some (r, q)) →
        Lex.fieldStart I L noClasses (Lex.mapField I L noClasses 0) (f.pattern L re) ((f.pattern L re).innerEnv s.env) τ =
        (Lex.kindValidate I L f (.int i) >>= fun ok => T.pure (if ok then .int i else .ERROR))
          ((f.pattern L re).innerEnv s.env) { τ with path := some (some (r, (I.primitive .str (asked I q)).2)) } := by
      intro τ hp
      have hc := pattern_compute (L := L) (C := noClasses) (trec := Lex.mapField I L noClasses 0) (f := f) (re := re) hform' hpr hx hp
      rw [hpv] at hc
      rw [pattern_start hf, T.bind_ok hc]
      show Lex.fieldCheck I L _ _ f (.int i) _ _ = _
      rw [fieldCheck_plain hf ht rfl hig']
    refine ⟨fun h => hal.accepts sp ha fun τ hp hb' => ⟨_, ?_, hs⟩, fun h => ?_⟩
    · rw [start τ hp, hval]
      unfold Lex.numberValidate
      rw [hok h, List.append_nil, ← hb']
      rfl
    · obtain ⟨msg, hm⟩ := hbad h
      refine ⟨msg, hal.adds sp ha fun τ hp hb' => ⟨_, ?_, hs⟩⟩
      rw [start τ hp, hval]
      unfold Lex.numberValidate
      rw [hm]
      exact (T.bind_ok (rejectWith_run (τ := { τ with path := some (some (r, (I.primitive .str (asked I q)).2)) })
        msg rfl (by rw [hs.render sp.wf, sp.text]) hb' sp.collect (innerEnv_field _ _))).trans rfl
  · exact bad _ (by unfold patternValue; rw [hm])
  · exact ⟨_, bad _ (by unfold patternValue; rw [hm]; dsimp only; rw [hi])⟩

/-! ## C62 -/

/-- `v` is what the match captures: the named group, or, where there is none of that name, the first. -/
def Captures (m : Match) (name : Option String) (v : Val) : Prop :=
  let g := match name with | some n => Val.str n | none => .none
  m.group g = some v ∨ (m.group g = none ∧ m.group (.int 1) = some v)

/-- The match has neither group. -/
def CapturesNothing (m : Match) (name : Option String) : Prop :=
  m.group (match name with | some n => Val.str n | none => .none) = none ∧ m.group (.int 1) = none

/-- The name the captured group should have: the given one, if any, else the field's. -/
def wantedName (f : Field) : Option String → Option String
  | none => f.name
  | some "" => f.name
  | some n => some n

theorem groupName_eq (f : Field) (name : Option String) : groupName name f.core.name = wantedName f name := by
  unfold groupName wantedName
  split
  · split
    · rename_i h; subst h; rfl
    · split
      · rename_i h; cases h
      · rename_i h _ h'; cases h'; exact absurd rfl h
      · rename_i h'; cases h'; rfl
  · rfl

theorem captured_eq {m : Match} {name : Option String} {v : Val} (h : Captures m name v) : captured m name = v := by
  unfold captured
  cases name <;> rcases h with h | ⟨h, h'⟩ <;> simp only [h] <;> rw [h', Option.getD_some]

theorem captured_nothing {m : Match} {name : Option String} (h : CapturesNothing m name) : captured m name = .NONE := by
  unfold captured
  obtain ⟨h, h'⟩ := h
  cases name <;> simp only [h, h', Option.getD_none]

theorem capture_alone (hf : HookFree f) (hk : f.kind.leaf = true) (re : Regex) (name : Option String) :
    Alone I L (f.capture re name) where
  leaf := hk
  default := hf.default
  resolve := hf.resolve
  compute := by intro h e; exact absurd (hf.compute.symm.trans e) (by simp)
  parse := by intro h e; exact absurd (hf.parse.symm.trans e) (by simp)
  munge := by
    intro h e t v
    cases e
    dsimp only
    unfold captureMunge
    split
    · split <;> exact ⟨trivial, fun _ _ _ _ => rfl⟩
    · exact ⟨trivial, fun _ _ _ _ => rfl⟩
  filter := hf.filter
  validate := hf.validate

/-- What the registered function makes of the text. -/
def captureOf (re : Regex) (name : Option String) (x : String) : Val :=
  match re.run x with
  | none => .NONE
  | some m => captured m name

theorem capture_check {trec : TRec P} {env : Env} {τ : TSt P} {re : Regex} {name : Option String} {x : String}
    (hf : HookFree f) (ht : f.core.translations = []) (hig : f.core.ignores = []) :
    Lex.fieldCheck I L C trec (f.capture re name) (.str x) env τ =
      (let v := captureOf re (wantedName f name) x
       if v.isNONE then Lex.fieldDefault I L C trec f
       else if v.isIgnore then T.pure v
       else Lex.kindValidate I L f v >>= fun ok => T.pure (if ok then v else .ERROR)) env τ := by
  have hm : fieldMunge (f.capture re name) (.str x) = .ok (.str x) := by
    have : (f.capture re name).core.translations = [] := ht
    unfold fieldMunge; rw [this]; rfl
  have h1 : Lex.mungeStep I L C trec (f.capture re name) (.str x) env τ =
      (.ok (captureOf re (wantedName f name) x), τ) := by
    unfold Lex.mungeStep
    rw [hm, T.ofExcept_ok_bind]
    show Lex.evalProg I L C trec (captureMunge re (groupName name f.core.name) (.str x)) env τ = _
    rw [groupName_eq]
    unfold captureMunge captureOf
    dsimp only
    cases re.run x <;> rfl
  unfold Lex.fieldCheck
  refine (T.bind_ok h1).trans ?_
  dsimp only
  split
  · rfl
  · split
    · rfl
    · have h2 : ∀ v, Lex.filterStep I L C trec (f.capture re name) v = T.pure true := by
        intro v
        show (if !v.inList f.core.ignores then (match f.core.filter with
          | some h => _ | none => _) else _) = _
        rw [hig, hf.filter]
        rfl
      have h3 : ∀ v, Lex.validateStep I L C trec (f.capture re name) v = Lex.kindValidate I L f v := by
        intro v
        have := hf.validateStep (I := I) (L := L) (C := C) (rec := trec) v
        rw [← this]
        rfl
      rw [h2, h3]
      rfl

theorem capture_starts {re : Regex} {name : Option String} {x : String} {c : StrCfg} {env : Env} {τ : TSt P}
    {trec : TRec P} (hf : HookFree f) (hk : f.kind = .string c) (ht : f.core.translations = []) (hig : f.core.ignores = [])
    (hpr : Present I q) (hx : (I.primitive .str (asked I q)).1 = .ok (.str x)) (hp : τ.path = some (some (r, q))) :
    Lex.fieldStart I L C trec (f.capture re name) env τ =
      (let v := captureOf re (wantedName f name) x
       if v.isNONE then Lex.fieldDefault I L C trec f
       else if v.isIgnore then T.pure v
       else Lex.kindValidate I L f v >>= fun ok => T.pure (if ok then v else .ERROR)) env
        { τ with path := some (some (r, (I.primitive .str (asked I q)).2)) } := by
  have hc : Lex.fieldCompute I L C trec f env τ =
      (.ok (.str x), { τ with path := some (some (r, (I.primitive .str (asked I q)).2)) }) := by
    rw [fieldCompute_present hf hp hpr]
    unfold T.tryCatch Lex.kindParse
    rw [hk]
    dsimp only
    rw [primitive_parse hx rfl]
  have h1 : Lex.fieldStart I L C trec (f.capture re name) env τ = (Lex.computeStep I L C trec f >>= fun v =>
        if v.isNONE then (match f.core.default with
      | .hook h => Lex.callHook I L C trec h
      | _ => Lex.fieldDefault I L C trec f)
        else if v.isIgnore then T.pure v else Lex.fieldCheck I L C trec (f.capture re name) v) env τ := rfl
  rw [h1, hf.computeStep, T.bind_ok hc]
  exact capture_check hf ht hig

theorem capture_same (hw : W.WF q) : Same I W.WF W.shape q (I.primitive .str (asked I q)).2 :=
  Same.trans W (asked_same hw) (W.primitive_keys (asked_same hw).wf)

variable {re : Regex} {name : Option String} {x : String} {c : StrCfg}

/-- C62. A `String` field with `capture`, without other hooks, translations and ignored values, whose source holds a
text that matches.  What is captured, by the given or by the field's name or else by the first group, is returned if
the field's constraints hold *for it*; otherwise there is `ERROR` and exactly one error. -/
theorem C62_capture_partial {m : Match} {y : String} (sp : Spot I W (f.capture re name) s r q text b) (hf : HookFree f)
    (hk : f.kind = .string c) (ha : f.core.attachParent = false) (ht : f.core.translations = [])
    (hig : f.core.ignores = []) (hpr : Present I q) (hx : (I.primitive .str (asked I q)).1 = .ok (.str x))
    (hm : re.run x = some m) (hy : Captures m (wantedName f name) (.str y)) :
    (StringOK c y → Accepts (mapFieldF I L C rec (f.capture re name) .NONE) s (.str y)) ∧
    (¬ StringOK c y → Rejects (mapFieldF I L C rec (f.capture re name) .NONE) s f text r) := by
  have hleaf : f.kind.leaf = true := by rw [hk]; rfl
  have hal := capture_alone (I := I) (L := L) hf hleaf re name
  have hv : captureOf re (wantedName f name) x = .str y := by
    unfold captureOf; rw [hm]; exact captured_eq hy
  have hs := capture_same (I := I) (W := W) sp.wf
  obtain ⟨hok, hbad⟩ := stringValidate_spec (I := I) (L := L) c y ht
  have hval : Lex.kindValidate I L f (.str y) = Lex.stringValidate I L f c (.str y) := by
    rw [kindValidate_nonnull rfl, hk]
  refine ⟨fun h => hal.accepts sp ha fun τ hp hb' => ⟨_, ?_, hs⟩, fun h => ?_⟩
  · rw [capture_starts hf hk ht hig hpr hx hp, hv]
    dsimp only
    rw [hval, hok h, List.append_nil, ← hb']
    rfl
  · obtain ⟨msg, hm⟩ := hbad h
    refine ⟨msg, hal.adds sp ha fun τ hp hb' => ⟨_, ?_, hs⟩⟩
    rw [capture_starts hf hk ht hig hpr hx hp, hv]
    dsimp only
    rw [hval, hm]
    exact (T.bind_ok (rejectWith_run (τ := { τ with path := some (some (r, (I.primitive .str (asked I q)).2)) })
        msg rfl (by rw [hs.render sp.wf, sp.text]) hb' sp.collect (innerEnv_field _ _))).trans rfl

/-- The text does not match, or the match has neither group. -/
def Unmatched (re : Regex) (name : Option String) (x : String) : Prop :=
  re.run x = none ∨ ∃ m, re.run x = some m ∧ CapturesNothing m name

theorem unmatched_eq (h : Unmatched re name x) : captureOf re name x = .NONE := by
  unfold captureOf
  rcases h with h | ⟨m, h, h'⟩ <;> rw [h]
  exact captured_nothing h'

/-- C62. A text that does not match counts as no value: the default is returned, without an error. -/
theorem C62_default {w : Val} (sp : Spot I W (f.capture re name) s r q text b) (hf : HookFree f)
    (hk : f.kind = .string c) (ha : f.core.attachParent = false) (ht : f.core.translations = [])
    (hig : f.core.ignores = []) (hpr : Present I q) (hx : (I.primitive .str (asked I q)).1 = .ok (.str x))
    (hn : Unmatched re (wantedName f name) x) (hd : f.core.default = .value w) (hw : PlainDefault w)
    (hctx : s.env.ignoreDefault = some false) :
    Accepts (mapFieldF I L C rec (f.capture re name) .NONE) s w := by
  have hleaf : f.kind.leaf = true := by rw [hk]; rfl
  refine (capture_alone (I := I) (L := L) hf hleaf re name).accepts sp ha fun τ hp hb => ⟨_, ?_, capture_same sp.wf⟩
  rw [capture_starts hf hk ht hig hpr hx hp, unmatched_eq hn, List.append_nil]
  have h1 : ∀ τ : TSt P, T.ctxGet Env.ignoreDefault "ignore_default" ((f.capture re name).innerEnv s.env) τ = (.ok false, τ) := by
    intro τ
    unfold T.ctxGet; rw [innerEnv_ignoreDefault, hctx]
  show Lex.fieldDefault I L _ _ f _ _ = _
  unfold Lex.fieldDefault
  refine (T.bind_ok (h1 _)).trans ?_
  rw [hd, ← hb]
  obtain ⟨hv1, hv2⟩ := hw
  cases w with
  | const c => cases c <;> first | exact absurd rfl hv1 | rfl
  | func id => exact absurd rfl (hv2 id)
  | _ => rfl

/-- C62. Without a default: `NOT_SET` and exactly one `Missing` error. -/
theorem C62_missing (sp : Spot I W (f.capture re name) s r q text b) (hf : HookFree f)
    (hk : f.kind = .string c) (ha : f.core.attachParent = false) (ht : f.core.translations = [])
    (hig : f.core.ignores = []) (hpr : Present I q) (hx : (I.primitive .str (asked I q)).1 = .ok (.str x))
    (hn : Unmatched re (wantedName f name) x) (hd : NoDefault f s.env) (hctx : s.env.ignoreMissing = some false) :
    Adds (mapFieldF I L C rec (f.capture re name) .NONE) s .NOT_SET
      { kind := .missing, path := text, field := f.name, pathRef := some r } := by
  have hleaf : f.kind.leaf = true := by rw [hk]; rfl
  have hs := capture_same (I := I) (W := W) sp.wf
  refine (capture_alone (I := I) (L := L) hf hleaf re name).adds sp ha fun τ hp hb => ⟨_, ?_, hs⟩
  rw [capture_starts hf hk ht hig hpr hx hp, unmatched_eq hn]
  show Lex.fieldDefault I L _ _ f _ _ = _
  rw [fieldDefault_missing (by unfold NoDefault at hd ⊢; rw [innerEnv_ignoreDefault]; exact hd)
      (by rw [innerEnv_ignoreDefault]; exact sp.live.ignoreDefault)]
  have h1 : ∀ τ : TSt P, T.ctxGet Env.ignoreMissing "ignore_missing" ((f.capture re name).innerEnv s.env) τ = (.ok false, τ) := by
    intro τ
    unfold T.ctxGet; rw [innerEnv_ignoreMissing, hctx]
  unfold Lex.missingNotSet
  refine (T.bind_ok (h1 _)).trans ?_
  simp only [Bool.false_eq_true, if_false]
  exact (T.bind_ok (report_run (τ := { τ with path := some (some (r, (I.primitive .str (asked I q)).2)) }) .missing rfl (by
      rw [hs.render sp.wf, sp.text]) hb sp.collect (innerEnv_field _ _))).trans rfl

/-- C62, the negation for nulls: whatever `nullable` says, a null in the source is passed to `pattern.match`, and the
`TypeError` leaves the mapping; nothing is collected. -/
theorem C62_counterexample_null (sp : Spot I W (f.capture re name) s r q text b) (hf : HookFree f)
    (hk : f.kind = .string c) (ha : f.core.attachParent = false) (ht : f.core.translations = []) (hq : Null I q) :
    (mapFieldF I L C rec (f.capture re name) .NONE s).1 = .error (.typeError "expected string or bytes-like object") ∧
    curErrs (mapFieldF I L C rec (f.capture re name) .NONE s).2 = curErrs s := by
  have hleaf : f.kind.leaf = true := by rw [hk]; rfl
  refine (capture_alone (I := I) (L := L) hf hleaf re name).raises sp ha fun τ hp hb => ⟨_, ?_, asked_same sp.wf⟩
  have h1 : ∀ trec env τ, Lex.fieldStart I L noClasses trec (f.capture re name) env τ = (Lex.computeStep I L noClasses trec f >>= fun v =>
        if v.isNONE then (match f.core.default with
      | .hook h => Lex.callHook I L noClasses trec h
      | _ => Lex.fieldDefault I L noClasses trec f)
        else if v.isIgnore then T.pure v else Lex.fieldCheck I L noClasses trec (f.capture re name) v) env τ := fun _ _ _ => rfl
  rw [h1, hf.computeStep, T.bind_ok (fieldCompute_null hp hq), List.append_nil, ← hb]
  have hm : fieldMunge (f.capture re name) .none = .ok .none := by
    have : (f.capture re name).core.translations = [] := ht
    unfold fieldMunge; rw [this]; rfl
  show Lex.fieldCheck I L _ _ (f.capture re name) .none _ _ = _
  unfold Lex.fieldCheck
  refine T.bind_error ?_
  unfold Lex.mungeStep
  rw [hm, T.ofExcept_ok_bind]
  rfl

end Pilo
