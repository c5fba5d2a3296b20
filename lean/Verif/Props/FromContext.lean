import Verif.Props.Steps
import Verif.Builders

/-!
# C106: fields from the context

`field.from_context()` (`pilo/fields.py:431-440`) registers a `resolve` hook that makes a source of the context and reads the
key of the field there, so that the field has the value of a context variable.  The hook calls `contextlib.nested`, which
Python 3 does not have: it raises `AttributeError` before it pushes anything.  Only this (Python 3) is modelled.
-/

namespace Pilo
variable {P : Type} {I : PathOps P} {L : Lib} {C : Classes}

/-- What Python 3 says of `contextlib.nested` (`pilo/fields.py:434`). -/
def noNested : Exc := .attributeError "module 'contextlib' has no attribute 'nested'"

/-- `pilo/fields.py:431-440`: `Field.from_context`, on Python 3. The function is attached to the field; it looks
`contextlib.nested` up before it evaluates the arguments, so nothing is pushed. The field itself is changed, not a copy
of it. -/
def Field.fromContext (f : Field) : Field :=
  f.with fun c => { c with resolve := some (.key { target := some .none, body := fun _ => .raise noNested }) }

/-- The value of the context variable `k`: the one in the innermost frame that binds it (`pilo/context.py:109-115`). -/
def St.variable (s : St P) (k : String) : Option Val :=
  s.stack.findSome? fun fr => (fr.vars.find? fun kv => kv.1 == k).map (·.2)

/-- C106, as it should be: where the field's `src` is the name of a context variable, a plain field from the context has
the value of the variable. -/
def FromContext (I : PathOps P) (L : Lib) (C : Classes) (n : Nat) : Prop :=
  ∀ (f : Field) (s : St P) (k : String) (v : Val), f.kind = .base → HookFree f → f.core.src = .str k → s.variable k = some v →
    (mapField I L C (n + 1) f.fromContext .NONE s).1 = .ok v

/-- On Python 3 a field from the context cannot be mapped: it raises `AttributeError`, reports no error, and leaves
everything as it was. -/
theorem C106_raises (f : Field) (n : Nat) (s : St P) :
    mapField I L C (n + 1) f.fromContext .NONE s = (.error noNested, s) := by
  obtain ⟨c, k⟩ := f
  exact C91_raises (f := Field.fromContext (.mk c k)) (.inl rfl) n (σ := s.atField _) rfl rfl

/-- Nor can a form with such a field: whatever its other fields and its data, the mapping of the fields raises, unless a
field declared before raised already. -/
theorem C106_form {n id : Nat} {tags : List String} {pre post : List Field} {f : Field} {s : St P}
    (hs : selected tags f.fromContext = true) :
    ∃ e σ, mapFields (mapField I L C (n + 1)) id tags (pre ++ f.fromContext :: post) s = (.error e, σ) ∧
      (e = noNested ∧ mapFields (mapField I L C (n + 1)) id tags pre s = (.ok (), σ) ∨
        mapFields (mapField I L C (n + 1)) id tags pre s = (.error e, σ)) := by
  induction pre generalizing s with
  | nil =>
    refine ⟨noNested, s, ?_, .inl ⟨rfl, rfl⟩⟩
    refine M.bind_error ?_
    unfold mapOne
    rw [if_pos hs]
    exact M.bind_error (C106_raises f n s)
  | cons g pre ih =>
    rcases hg : mapOne (mapField I L C (n + 1)) id tags g s with ⟨r | r, σ⟩
    · exact ⟨r, σ, M.bind_error hg, .inr (M.bind_error hg)⟩
    · obtain ⟨e, τ, h1, h2⟩ := ih (s := σ)
      refine ⟨e, τ, (M.bind_ok hg).trans h1, ?_⟩
      rcases h2 with ⟨h2, h3⟩ | h2
      · exact .inl ⟨h2, (M.bind_ok hg).trans h3⟩
      · exact .inr ((M.bind_ok hg).trans h2)

/-- A value given to `map` is not read from anywhere: the field from the context treats it like the field. -/
theorem C106_given_partial (f : Field) (n : Nat) {v : Val} (hv : v.isNONE = false) (s : St P) :
    mapField I L C (n + 1) f.fromContext v s = mapField I L C (n + 1) f v s := by
  obtain ⟨c, k⟩ := f
  refine mapField_inner (f := Field.fromContext (.mk c k)) (g := .mk c k) rfl ?_
  show fieldMapInner _ _ _ _ _ _ (s.atField (.mk c k)) = _
  unfold fieldMapInner
  rw [hv]
  rfl

/-- A field of the name `k`. -/
def plainAt (k : String) : Field := .mk { name := some k, src := .str k } .base

/-- A context in which the variable `k` has the value `v`, and nothing else is known. -/
def St.binding (k : String) (v : Val) : St P := { stack := [{ vars := [(k, v)] }, rootFrame], forms := [], errs := [], paths := [] }

theorem binding_variable (k : String) (v : Val) : (St.binding (P := P) k v).variable k = some v := by
  simp [St.variable, St.binding]

/-- C106 fails on Python 3, for every path, library and budget. -/
theorem C106_counterexample (n : Nat) : ¬ FromContext I L C n := by
  intro h
  have := h (plainAt "user") (.binding "user" (.int 7)) "user" (.int 7) rfl
    (hookFree_plain (c := { name := some "user", src := .str "user" }) (by intro _ _ _ _ _ h; cases h)) rfl
    (binding_variable _ _)
  rw [C106_raises] at this
  cases this

namespace Demo

/-- `class F(Form): a = Integer(); user = Field().from_context()`. -/
example : ∃ e σ, mapFields (mapField (SPath.ops lib) lib noClasses 4) 0 []
      ([plainAt "a"] ++ Field.fromContext (plainAt "user") :: []) (here (SPath.ops lib) (.dict [(.str "a", .int 5)])) = (.error e, σ) :=
  let ⟨e, σ, h, _⟩ := C106_form (pre := [plainAt "a"]) (post := []) (f := plainAt "user") rfl
  ⟨e, σ, h⟩

/-- Given the value, the field takes it. -/
example : (mapField (SPath.ops lib) lib noClasses 4 (plainAt "user").fromContext (.int 7) (here (SPath.ops lib) (.dict []))).1.toOption =
    some (.int 7) := by
  rw [C106_given_partial _ 3 rfl]
  decide +kernel

end Demo
end Pilo
