import Verif.Props.Fields

/-!
# Methods of fields that register a hook

`Field.constant` (`pilo/fields.py:442-451`), `Integer.pattern` and `Float.pattern` (`pilo/fields.py:811-822,833-846`),
`String.capture` and `String.format` (`pilo/fields.py:689-725`).
-/

namespace Pilo

/-- A match object: `group(0)`, and `group(g)` for other `g`, where `none` is `IndexError`. -/
structure Match where
  whole : String
  group : Val → Option Val

/-- A compiled regular expression: its text and its `match`. -/
structure Regex where
  text : String
  run : String → Option Match

/-- The field with another core. -/
def Field.with (f : Field) (g : FieldCore → FieldCore) : Field := .mk (g f.core) f.kind

/-- `pilo/fields.py:442-451`: `Field.constant`. The hook is attached to the field; whether the field or a copy of it is
changed is in `Verif.Clone`. -/
def Field.constant (f : Field) (v : Val) : Field :=
  f.with fun c => { c with compute := some { target := some .none, body := fun _ => .ret v } }

/-- `pilo/fields.py:815-820,837-844`: the function both `pattern` methods register: `int(m.group(0))`. -/
def patternParse (L : Lib) (re : Regex) : Prog :=
  .bind (.pathPrimitive .str) fun v => match v with
    | .str s => match re.run s with
      | none => .raise (.valueError (s ++ " does not match pattern \"" ++ re.text ++ "\""))
      | some m => match L.intOfStr m.whole with
        | some i => .ret (.int i)
        | none => .raise (.valueError "invalid literal for int() with base 10")
    | _ => .raise (.typeError "expected string or bytes-like object")

/-- `pilo/fields.py:811-822,833-846`: `Integer.pattern`, `Float.pattern`.  The hook is not attached. -/
def Field.pattern (L : Lib) (f : Field) (re : Regex) : Field :=
  f.with fun c => { c with parse := some { body := fun _ => patternParse L re } }

/-- `pilo/fields.py:716-723`: `for group in [name or self.name, 1]`. -/
def captured (m : Match) (name : Option String) : Val :=
  match m.group (match name with | some n => .str n | none => .none) with
  | some v => v
  | none => (m.group (.int 1)).getD .NONE

/-- `name or self.name`. -/
def groupName (given own : Option String) : Option String :=
  match given with
  | some n => if n = "" then own else some n
  | none => own

/-- `pilo/fields.py:712-723`: the function `String.capture` registers. -/
def captureMunge (re : Regex) (name : Option String) (v : Val) : Prog :=
  match v with
  | .str s => match re.run s with
    | none => .ret .NONE
    | some m => .ret (captured m name)
  | _ => .raise (.typeError "expected string or bytes-like object")

/-- `pilo/fields.py:704-725`: `String.capture`. -/
def Field.capture (f : Field) (re : Regex) (name : Option String := none) : Field :=
  f.with fun c => { c with
    munge := some { target := some .none, body := fun _ => captureMunge re (groupName name c.name) } }

/-- `reduce(getattr, names, v)`. -/
def chain : List String → Val → Prog
  | [], v => .ret v
  | n :: ns, v => .bind (.getattr v n) (chain ns)

/-- The loop of `pilo/fields.py:697-698`: one value for every keyword, in order. -/
def gather (root : Val) : List (String × List String) → List (String × Val) → (List (String × Val) → Prog) → Prog
  | [], acc, k => k acc
  | (n, attrs) :: rest, acc, k => .bind (chain attrs root) fun v => gather root rest (acc ++ [(n, v)]) k

/-- `except AttributeError as ex`. -/
def Exc.isAttributeError : Exc → Bool
  | .attributeError _ => true
  | _ => false

/-- `pilo/fields.py:694-702`: the function `String.format` registers. `render` is `fmt.format(**values)`.  The values
are packed in a dictionary between the two statements. -/
def formatCompute (render : List (Val × Val) → Except Exc String) (kwargs : List (String × List String)) : Prog :=
  .bind (.tryCatch
      (.bind .ctxForm fun form => gather form kwargs [] fun vs => .ret (.tuple [.dict (vs.map fun kv => (.str kv.1, kv.2))]))
      fun ex => if ex.isAttributeError then .bind (.invalid ex.str) fun _ => .ret .ERROR else .raise ex)
    fun r => match r with
      | .tuple [.dict vs] => match render vs with
        | .ok t => .ret (.str t)
        | .error e => .raise e
      | _ => .ret .ERROR

/-- `pilo/fields.py:689-702`: `String.format`; every keyword is given with its attribute names (`field.split('.')`). -/
def Field.format (f : Field) (render : List (Val × Val) → Except Exc String) (kwargs : List (String × List String)) : Field :=
  f.with fun c => { c with compute := some { target := some .none, body := fun _ => formatCompute render kwargs } }

/-! ## Options -/

/-- `pilo/fields.py:453-455`: `Field.ignore`. -/
def Field.ignore (f : Field) (vs : List Val) : Field := f.with fun c => { c with ignores := c.ignores ++ vs }

/-- `pilo/fields.py:457-459`: `Field.translate`. -/
def Field.translate (f : Field) (kvs : List (Val × Val)) : Field :=
  f.with fun c => { c with translations := dictUpdate c.translations kvs }

/-- The arguments of `Field.options`; `none` is the argument left at `NOT_SET`. -/
structure Options where
  nullable : Option Val := none
  default : Option Default := none
  optional : Option Val := none
  ignore : Option Val := none
  translate : Option (List (Val × Val)) := none
  attachParent : Option Bool := none
  tags : Option String := none

/-- `self.default is None`. -/
def Default.isNone : Default → Bool
  | .value .none => true
  | _ => false

/-- `if arg is not NOT_SET: ...`. -/
def whenSet {α : Type} (arg : Option α) (f : Field) (g : α → FieldCore → FieldCore) : Field :=
  match arg with
  | some v => f.with (g v)
  | none => f

/-- `pilo/fields.py:364-399`: `Field.options`, one argument after the other. `ignore` is passed on as one value
(`pilo/fields.py:388`: `self.ignore(ignore)`). -/
def Field.options (f : Field) (o : Options) : Field :=
  let f := whenSet o.nullable f fun v c => { c with nullable := v }
  let f := whenSet o.optional f fun v c => { c with default := if v.truthy then .value .NONE else c.default }
  let f := whenSet o.default f fun d c => { c with
    default := d
    nullable := if d.isNone then .bool true else c.nullable }
  let f := whenSet o.ignore f fun v c => { c with ignores := c.ignores ++ [v] }
  let f := whenSet o.translate f fun t c => { c with translations := dictUpdate c.translations t }
  let f := whenSet o.attachParent f fun a c => { c with attachParent := a }
  whenSet o.tags f fun t c => { c with tags := if c.tags.contains t then c.tags else c.tags ++ [t] }

/-! ## Leaf fields whose hooks map nothing -/

section
variable {P : Type} {α : Type} {I : PathOps P} {L : Lib} {W : LawfulPath I} {C C' : Classes} {rec rec' : Rec P} {f : Field}

/-- The program asks neither for the classes nor for the mapping of fields. -/
def Prog.Alone (I : PathOps P) (L : Lib) (p : Prog) : Prop :=
  p.Lex ∧ ∀ (C C' : Classes) (rec rec' : Rec P), evalProg I L C rec p = evalProg I L C' rec' p

/-- A field that maps no other field, with hooks for computing, parsing and munging that do not, either. -/
structure Alone (I : PathOps P) (L : Lib) (f : Field) : Prop where
  leaf : f.kind.leaf = true
  default : f.core.default = .unset ∨ ∃ v, f.core.default = .value v
  resolve : f.core.resolve = none
  compute : ∀ h, f.core.compute = some h → ∀ t, (h.body t).Alone I L
  parse : ∀ h, f.core.parse = some h → ∀ t, (h.body t).Alone I L
  munge : ∀ h, f.core.munge = some h → ∀ t v, (h.body t v).Alone I L
  filter : f.core.filter = none
  validate : f.core.validate = none

theorem Alone.lexNode (h : Alone I L f) : LexNode f where
  default := by rcases h.default with h | ⟨v, h⟩ <;> rw [h] <;> trivial
  resolve := by intro k hk; rw [h.resolve] at hk; cases hk
  compute := fun k hk t => (h.compute k hk t).1
  parse := fun k hk t => (h.parse k hk t).1
  munge := fun k hk t v => (h.munge k hk t v).1
  filter := by intro k hk; rw [h.filter] at hk; cases hk
  validate := by intro k hk; rw [h.validate] at hk; cases hk
  keyFilter := by
    intro kf vf k r m hk
    have := h.leaf
    rw [hk] at this
    cases this

theorem Alone.irrel (h : Alone I L f) (v : Val) : mapFieldF I L C rec f v = mapFieldF I L C' rec' f v := by
  have hd : fieldDefault I L C rec f = fieldDefault I L C' rec' f := by
    unfold fieldDefault
    rcases h.default with h | ⟨v, h⟩ <;> rw [h]
    cases v with
    | const c => cases c <;> rfl
    | _ => rfl
  have hm : ∀ v, mungeStep I L C rec f v = mungeStep I L C' rec' f v := by
    intro v
    unfold mungeStep
    cases hh : f.core.munge with
    | none => rfl
    | some k =>
      have : ∀ w, callHook1 I L C rec k w = callHook1 I L C' rec' k w := by
        intro w
        unfold callHook1
        congr 1
        funext t
        exact (h.munge k hh t w).2 _ _ _ _
      simp only [this]
  have hc : ∀ v, fieldCheck I L C rec f v = fieldCheck I L C' rec' f v := by
    intro v
    unfold fieldCheck Pilo.filterStep Pilo.validateStep
    rw [h.filter, h.validate, hd, hm]
  have hp : fieldParse I L C rec f = fieldParse I L C' rec' f := by
    unfold fieldParse
    cases hh : f.core.parse with
    | none =>
      have hk := h.leaf
      unfold kindParse
      cases h : f.kind <;> first | (rw [h] at hk; cases hk; done) | rfl
    | some k =>
      dsimp only
      unfold callHook
      congr 1
      funext t
      exact (h.parse k hh t).2 _ _ _ _
  have hcs : computeStep I L C rec f = computeStep I L C' rec' f := by
    unfold computeStep
    cases hh : f.core.compute with
    | none => dsimp only; unfold fieldCompute; rw [hp]
    | some k =>
      dsimp only
      unfold callHook
      congr 1
      funext t
      exact (h.compute k hh t).2 _ _ _ _
  have hs : fieldStart I L C rec f = fieldStart I L C' rec' f := by
    unfold fieldStart
    rw [hcs, hd]
    simp only [hc]
    rcases h.default with h | ⟨v, h⟩ <;> simp only [h]
  unfold mapFieldF fieldMapInner withResolve
  rw [h.resolve, hc, hs]

theorem Alone.ref (h : Alone I L f) (v : Val) : Ref (mapFieldF I L C rec f v) (leafT I L f v) := by
  rw [h.irrel (C' := noClasses) (rec' := mapField I L noClasses 0)]
  exact Ref.mapFieldF (noClasses_all _) (Ref.mapField (noClasses_all _) 0) f v (leaf_all h.lexNode h.leaf)

variable {s : St P} {r : Nat} {q : P} {text : String} {b : ErrBuf}

/-- From the lexical run to the context, for any such field. -/
theorem Alone.accepts (h : Alone I L f) (sp : Spot I W f s r q text b) (ha : f.core.attachParent = false) {v : Val}
    (hs : StartsWith W L noClasses (Lex.mapField I L noClasses 0) f r q (f.innerEnv s.env) b (.ok v) []) :
    Accepts (mapFieldF I L C rec f .NONE) s v := by
  obtain ⟨h1, h2, _⟩ := sp.run h.resolve ha (h.ref (C := C) (rec := rec) .NONE) hs
  exact ⟨h1, by rw [h2, sp.errs]; simp⟩

theorem Alone.adds (h : Alone I L f) (sp : Spot I W f s r q text b) (ha : f.core.attachParent = false) {v : Val} {e : Err}
    (hs : StartsWith W L noClasses (Lex.mapField I L noClasses 0) f r q (f.innerEnv s.env) b (.ok v) [e]) :
    Adds (mapFieldF I L C rec f .NONE) s v e := by
  obtain ⟨h1, h2, _⟩ := sp.run h.resolve ha (h.ref (C := C) (rec := rec) .NONE) hs
  exact ⟨h1, by rw [h2, sp.errs]; simp⟩

theorem Alone.raises (h : Alone I L f) (sp : Spot I W f s r q text b) (ha : f.core.attachParent = false) {e : Exc}
    (hs : StartsWith W L noClasses (Lex.mapField I L noClasses 0) f r q (f.innerEnv s.env) b (.error e) []) :
    (mapFieldF I L C rec f .NONE s).1 = .error e ∧ curErrs (mapFieldF I L C rec f .NONE s).2 = curErrs s := by
  obtain ⟨h1, h2, _⟩ := sp.run h.resolve ha (h.ref (C := C) (rec := rec) .NONE) hs
  exact ⟨h1, by rw [h2, sp.errs]; simp⟩

end
end Pilo
