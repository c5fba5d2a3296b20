import Verif.Props.Unparsable
import Verif.ValEq

/-!
# C91: hooks that say where and what to read

A `resolve` hook that returns `ctx(src=key)` puts the field at that key, as `src=key` does; one that returns `ctx(src=data)`
makes the field read the data; one that returns `None` leaves it where it is. What a `compute` hook returns is treated as
a value given to `map`, at the field's place.
-/

namespace Pilo
variable {P : Type} {I : PathOps P} {L : Lib} {C : Classes} {W : LawfulPath I}

/-- The field with another `src`, and no `resolve` hook. -/
def Field.sourced : Field → Val → Field
  | .mk c k, v => .mk { c with src := v, resolve := none } k

/-- The state in which the hooks of `f` that are called first run: in `Field.map`, `with self.ctx(field=self, parent=self)`. -/
def St.atField (s : St P) (f : Field) : St P := { s with stack := { field := some f.name, parent := some .field } :: s.stack }

/-- What is left of a call made in `s.atField f` when the frame of the field is taken off. -/
def St.left (s σ : St P) : St P := { σ with stack := s.stack }

theorem mapField_atField {f : Field} {v : Val} (n : Nat) {s : St P} : mapField I L C (n + 1) f v s =
    ((do
      let w ← (fun s => M.tryFinally (fieldMapInner I L C (mapField I L C n) f v) (restore I) (s.atField f) : M P Val)
      if f.core.attachParent && !w.isIgnore then setParent w
      M.pure w) : M P Val) s := rfl

theorem fieldStart_sourced (rec : Rec P) (f : Field) (k : Val) : fieldStart I L C rec (f.sourced k) = fieldStart I L C rec f := by
  obtain ⟨c, kd⟩ := f
  rfl

theorem inner_none (rec : Rec P) (f : Field) :
    fieldMapInner I L C rec f .NONE = withResolve I L C rec f (fieldStart I L C rec f) := rfl

theorem withResolve_key {α : Type} {rec : Rec P} {f : Field} {h : Hook Prog} (hr : f.core.resolve = some (.key h)) (b : M P α) :
    withResolve I L C rec f b = M.bind (callHook I L C rec h) fun k => if k.isNull then b else withPush I (pushKey I k) b := by
  unfold withResolve
  rw [hr]
  rfl

theorem withResolve_data {α : Type} {rec : Rec P} {f : Field} {h : Hook Prog} (hr : f.core.resolve = some (.data h)) (b : M P α) :
    withResolve I L C rec f b = M.bind (callHook I L C rec h) fun d =>
      if d.isNull then b else withPush I (pushSource (.ok (I.native d none))) b := by
  unfold withResolve
  rw [hr]
  rfl

theorem withResolve_src {α : Type} {rec : Rec P} {f : Field} (hr : f.core.resolve = none) (hg : ∀ fs, f.kind ≠ .group fs)
    (b : M P α) : withResolve I L C rec f b = if noSrc f.core.src then b else withPush I (pushKey I f.core.src) b := by
  unfold withResolve
  rw [hr]
  dsimp only
  cases hf : f.kind <;> first | exact absurd hf (hg _) | rfl

theorem inner_sourced {f : Field} (rec : Rec P) {k : Val} (hg : ∀ fs, f.kind ≠ .group fs) :
    fieldMapInner I L C rec (f.sourced k) .NONE =
      if noSrc k then fieldStart I L C rec f else withPush I (pushKey I k) (fieldStart I L C rec f) := by
  obtain ⟨c, kd⟩ := f
  rw [inner_none, withResolve_src rfl (by exact hg), fieldStart_sourced]
  rfl

theorem bind_from {α β : Type} {m m' : M P α} {k : α → M P β} {s s' : St P} (h : m s = m' s') : M.bind m k s = M.bind m' k s' := by
  unfold M.bind
  rw [h]

theorem finally_from {α : Type} {m m' : M P α} {k : M P Unit} {s s' : St P} (h : m s = m' s') :
    M.tryFinally m k s = M.tryFinally m' k s' := by
  unfold M.tryFinally
  rw [h]

theorem left_atField {s σ : St P} {f : Field} (h : σ.stack = (s.atField f).stack) : (s.left σ).atField f = σ := by
  obtain ⟨a, b, c, d⟩ := σ
  simp only [St.atField] at h
  subst h
  rfl

/-- Two fields of one name that do the same inside `Field.map`, from two states, are mapped alike. -/
theorem mapField_inner {f g : Field} {v w : Val} {n : Nat} {s s' : St P} (ha : g.core.attachParent = f.core.attachParent)
    (h : fieldMapInner I L C (mapField I L C n) f v (s.atField f) = fieldMapInner I L C (mapField I L C n) g w (s'.atField g)) :
    mapField I L C (n + 1) f v s = mapField I L C (n + 1) g w s' := by
  rw [mapField_atField, mapField_atField, ha]
  exact bind_from (finally_from h)

/-- C91, `resolve`. If the hook returns `ctx(src=k)`, the field is mapped as it is with `src=k` and no `resolve` hook: any
key but `None`, and `NONE`. -/
theorem C91_key {f : Field} {h : Hook Prog} (hr : f.core.resolve = some (.key h)) (hg : ∀ fs, f.kind ≠ .group fs) (n : Nat)
    {s σ : St P} {k : Val} (hcall : callHook I L C (mapField I L C n) h (s.atField f) = (.ok k, σ))
    (hst : σ.stack = (s.atField f).stack) (hk : k ≠ .NONE) :
    mapField I L C (n + 1) f .NONE s = mapField I L C (n + 1) (f.sourced k) .NONE (s.left σ) := by
  have hname : (f.sourced k).name = f.name := by obtain ⟨c, kd⟩ := f; rfl
  have hat : (s.left σ).atField (f.sourced k) = σ := by
    rw [← left_atField (s := s) (f := f) hst]
    unfold St.atField
    rw [hname]
    rfl
  refine mapField_inner (by obtain ⟨c, kd⟩ := f; rfl) ?_
  have : noSrc k = k.isNull := by
    unfold noSrc
    cases k with
    | const c => cases c <;> first | rfl | exact absurd rfl hk
    | _ => rfl
  rw [hat, inner_sourced _ hg, inner_none, withResolve_key hr, this]
  exact M.bind_ok hcall

/-- A hook that fails makes the field fail. -/
theorem C91_raises {f : Field} {h : Hook Prog} (hr : f.core.resolve = some (.key h) ∨ f.core.resolve = some (.data h)) (n : Nat)
    {s σ : St P} {x : Exc} (hcall : callHook I L C (mapField I L C n) h (s.atField f) = (.error x, σ))
    (hst : σ.stack = (s.atField f).stack) : mapField I L C (n + 1) f .NONE s = (.error x, s.left σ) := by
  have hin : fieldMapInner I L C (mapField I L C n) f .NONE (s.atField f) = (.error x, σ) := by
    rw [inner_none]
    rcases hr with hr | hr
    · rw [withResolve_key hr]; exact M.bind_error hcall
    · rw [withResolve_data hr]; exact M.bind_error hcall
  rw [mapField_atField]
  refine M.bind_error ?_
  show M.tryFinally _ _ _ = _
  unfold M.tryFinally
  rw [hin]
  dsimp only
  unfold restore
  rw [hst]
  rfl

/-- A hook that returns `v` and does nothing else. -/
def says (v : Val) : Hook Prog := { target := some .none, body := fun _ => .ret v }

theorem says_lex (v : Val) : (says v).Lex := fun _ => trivial

theorem call_says (rec : Rec P) (v : Val) (s : St P) : callHook I L C rec (says v) s = (.ok v, s) := rfl

theorem lex_says (trec : TRec P) (v : Val) : Lex.callHook I L C trec (says v) = T.pure v := rfl

/-- The field with another `resolve` hook. -/
def Field.resolving : Field → Option ResolveHook → Field
  | .mk c k, h => .mk { c with resolve := h } k

/-- The field with another `compute` hook. -/
def Field.computed : Field → Option (Hook Prog) → Field
  | .mk c k, h => .mk { c with compute := h } k

theorem lexNode_resolving {f : Field} {h : Option ResolveHook} (hf : (f.resolving none).All LexNode) (hh : ∀ x, h = some x → x.Lex) :
    (f.resolving h).All LexNode := by
  obtain ⟨c, k⟩ := f
  cases hf with
  | mk h1 h2 => exact .mk ⟨h1.default, hh, h1.compute, h1.parse, h1.munge, h1.filter, h1.validate, h1.keyFilter⟩ h2

theorem lexNode_sourced {f : Field} {v : Val} (hf : (f.resolving none).All LexNode) : (f.sourced v).All LexNode := by
  obtain ⟨c, k⟩ := f
  cases hf with
  | mk h1 h2 => exact .mk ⟨h1.default, h1.resolve, h1.compute, h1.parse, h1.munge, h1.filter, h1.validate, h1.keyFilter⟩ h2

theorem lexNode_computing {f : Field} {h : Option (Hook Prog)} (hf : (f.computed none).All LexNode) (hh : ∀ x, h = some x → x.Lex) :
    (f.computed h).All LexNode := by
  obtain ⟨c, k⟩ := f
  cases hf with
  | mk h1 h2 => exact .mk ⟨h1.default, h1.resolve, hh, h1.parse, h1.munge, h1.filter, h1.validate, h1.keyFilter⟩ h2

theorem lex_inner {f : Field} {v : Val} {n : Nat} (ha : f.core.attachParent = false) : Lex.mapField I L C (n + 1) f v =
    T.withEnv (fun env => { env with field := some f.name, parent := some .field })
      (Lex.fieldMapInner I L C (Lex.mapField I L C n) f v) := by
  funext env τ
  show T.bind _ _ env τ = _
  simp only [ha, Bool.false_and]
  show T.bind _ T.pure env τ = _
  unfold T.bind
  rcases h : T.withEnv (fun env => { env with field := some f.name, parent := some .field })
    (Lex.fieldMapInner I L C (Lex.mapField I L C n) f v) env τ with ⟨_ | _, _⟩ <;> rfl

/-- C91, `resolve`. If the hook returns `ctx(src=d)` for some data `d`, the field is mapped as it is, without `src` and
`resolve` hook, `with ctx(src=d)`. -/
theorem C91_data {f : Field} {h : Hook Prog} (hr : f.core.resolve = some (.data h)) (hC : C.All LexNode)
    (hf : (f.resolving none).All LexNode) (ha : f.core.attachParent = false) (n : Nat) {s σ : St P} {d : Val}
    (hcall : callHook I L C (mapField I L C n) h (s.atField f) = (.ok d, σ)) (hst : σ.stack = (s.atField f).stack)
    (hd : d.isNull = false) (hl : Live (s.left σ)) :
    let A := mapField I L C (n + 1) f .NONE s
    let B := withPush I (pushSource (.ok (I.native d none))) (mapField I L C (n + 1) (f.sourced .none) .NONE) (s.left σ)
    A.1 = B.1 ∧ curErrs A.2 = curErrs B.2 ∧ A.2.forms = B.2.forms := by
  intro A B
  have hA : A = mapField I L C (n + 1) (f.resolving (some (.data (says d)))) .NONE (s.left σ) := by
    have hat : (s.left σ).atField (f.resolving (some (.data (says d)))) = σ := by
      rw [← left_atField (s := s) (f := f) hst]
      obtain ⟨c, kd⟩ := f
      rfl
    refine mapField_inner (by obtain ⟨c, kd⟩ := f; rfl) ?_
    rw [hat, inner_none, inner_none, withResolve_data hr, withResolve_data (h := says d) (by obtain ⟨c, kd⟩ := f; rfl)]
    refine (M.bind_ok hcall).trans ?_
    obtain ⟨c, kd⟩ := f
    rfl
  have h1 := (Ref.mapField (I := I) (L := L) hC (n + 1) (f.resolving (some (.data (says d)))) .NONE
    (lexNode_resolving hf (by intro x hx; cases hx; exact says_lex d))).run hl
  have h2 := (Ref.source (I := I) (mk := .ok (I.native d none))
    (Ref.mapField (I := I) (L := L) hC (n + 1) (f.sourced .none) .NONE (lexNode_sourced hf))).run hl
  have hB : B = withPush I (pushSource (.ok (I.native d none))) (mapField I L C (n + 1) (f.sourced .none) .NONE) (s.left σ) := rfl
  rw [← hA] at h1
  rw [← hB] at h2
  have key : Lex.mapField I L C (n + 1) (f.resolving (some (.data (says d)))) .NONE (s.left σ).env (s.left σ).view =
      T.withSource (.ok (I.native d none)) (Lex.mapField I L C (n + 1) (f.sourced .none) .NONE) (s.left σ).env (s.left σ).view := by
    generalize (s.left σ).env = env
    generalize (s.left σ).view = τ
    obtain ⟨c, kd⟩ := f
    have hs : Lex.fieldMapInner I L C (Lex.mapField I L C n) ((Field.mk c kd).resolving (some (.data (says d)))) .NONE =
        T.withSource (.ok (I.native d none)) (Lex.fieldStart I L C (Lex.mapField I L C n) (.mk c kd)) := by
      show (if d.isNull = true then _ else _) = _
      rw [if_neg (by rw [hd]; simp)]
      rfl
    have hs2 : Lex.fieldMapInner I L C (Lex.mapField I L C n) ((Field.mk c kd).sourced .none) .NONE =
        Lex.fieldStart I L C (Lex.mapField I L C n) (.mk c kd) := by cases kd <;> rfl
    rw [lex_inner (by exact ha), lex_inner (by exact ha), hs, hs2]
    rfl
  rw [key] at h1
  exact ⟨h1.1.trans h2.1.symm, h1.2.1.trans h2.2.1.symm, h1.2.2.1.trans h2.2.2.1.symm⟩

/-- `NONE`, `ERROR` and `NOT_SET` aside, what `compute` returns goes on to the checks. -/
theorem start_says {rec : Rec P} {f : Field} {h : Hook Prog} (hc : f.core.compute = some h) {v : Val} {σ σ' : St P}
    (hcall : callHook I L C rec h σ = (.ok v, σ')) (hv : v.isIgnore = false) :
    fieldStart I L C rec f σ = fieldCheck I L C rec f v σ' := by
  have hn : v.isNONE = false := by
    cases v with
    | const c => cases c <;> first | rfl | cases hv
    | _ => rfl
  unfold fieldStart computeStep
  rw [hc]
  dsimp only
  rw [M.bind_ok hcall, hn, hv]
  rfl

theorem check_computing (rec : Rec P) (f : Field) (h : Option (Hook Prog)) (v : Val) :
    fieldCheck I L C rec (f.computed h) v = fieldCheck I L C rec f v := by
  obtain ⟨c, k⟩ := f
  rfl

theorem map_given {f : Field} {v : Val} (hv : v.isIgnore = false) (n : Nat) (h : Option (Hook Prog)) :
    mapField I L C (n + 1) (f.computed h) v = mapField I L C (n + 1) f v := by
  have hn : v.isNONE = false := by
    cases v with
    | const c => cases c <;> first | rfl | cases hv
    | _ => rfl
  funext s
  refine mapField_inner (by obtain ⟨c, k⟩ := f; rfl) ?_
  have hi : ∀ g : Field, fieldMapInner I L C (mapField I L C n) g v = fieldCheck I L C (mapField I L C n) g v := by
    intro g
    unfold fieldMapInner
    rw [hn]
    rfl
  rw [hi, hi, check_computing]
  obtain ⟨c, k⟩ := f
  rfl

/-- C91, `compute`, for a field without `src`: what the hook returns is mapped as a value given to `map`. -/
theorem C91_compute_bare {f : Field} {h : Hook Prog} (hc : f.core.compute = some h) (hr : f.core.resolve = none)
    (hg : ∀ fs, f.kind ≠ .group fs) (hsrc : noSrc f.core.src = true) (n : Nat) {s σ : St P} {v : Val}
    (hcall : callHook I L C (mapField I L C n) h (s.atField f) = (.ok v, σ)) (hst : σ.stack = (s.atField f).stack)
    (hv : v.isIgnore = false) : mapField I L C (n + 1) f .NONE s = mapField I L C (n + 1) f v (s.left σ) := by
  have hn : v.isNONE = false := by
    cases v with
    | const c => cases c <;> first | rfl | cases hv
    | _ => rfl
  refine mapField_inner rfl ?_
  rw [left_atField hst, inner_none, withResolve_src hr hg, if_pos hsrc, start_says hc hcall hv]
  unfold fieldMapInner
  rw [hn]
  rfl

/-- C91, `compute`, for a field at a key.  The hook is called at the key (`hpush`) and leaves the state that `s'` gives there
(`s' = s` if it does nothing but return).  What it returns is mapped as a value given to `map`, at the key. -/
theorem C91_compute {f : Field} {h : Hook Prog} (hc : f.core.compute = some h) (hr : f.core.resolve = none)
    (hg : ∀ fs, f.kind ≠ .group fs) (hsrc : noSrc f.core.src = false) (hC : C.All LexNode)
    (hf : (f.computed none).All LexNode) (ha : f.core.attachParent = false) (n : Nat) {s s' σ σ' : St P} {v : Val}
    (hpush : pushKey I f.core.src {} (s.atField f) = (.ok (), σ))
    (hcall : callHook I L C (mapField I L C n) h σ = (.ok v, σ')) (hpush' : pushKey I f.core.src {} (s'.atField f) = (.ok (), σ'))
    (hv : v.isIgnore = false) (hl : Live s') :
    let A := mapField I L C (n + 1) f .NONE s
    let B := withPush I (pushKey I f.core.src) (mapField I L C (n + 1) f v) s'
    A.1 = B.1 ∧ curErrs A.2 = curErrs B.2 ∧ A.2.forms = B.2.forms := by
  intro A B
  have hA : A = mapField I L C (n + 1) (f.computed (some (says v))) .NONE s' := by
    refine mapField_inner (by obtain ⟨c, kd⟩ := f; rfl) ?_
    have hat : s'.atField (f.computed (some (says v))) = s'.atField f := by obtain ⟨c, kd⟩ := f; rfl
    rw [hat, inner_none, inner_none, withResolve_src hr hg, withResolve_src (f := f.computed _)
      (by obtain ⟨c, kd⟩ := f; exact hr) (by obtain ⟨c, kd⟩ := f; exact hg)]
    have hsrc' : (f.computed (some (says v))).core.src = f.core.src := by obtain ⟨c, kd⟩ := f; rfl
    rw [hsrc', hsrc]
    show M.bind _ _ _ = M.bind _ _ _
    refine (M.bind_ok hpush).trans ((M.bind_ok hpush').trans ?_).symm
    refine (finally_from ?_).symm
    rw [start_says hc hcall hv, start_says (f := f.computed (some (says v))) (h := says v)
      (by obtain ⟨c, kd⟩ := f; rfl) (call_says _ v σ') hv, check_computing]
  have hB : B = withPush I (pushKey I f.core.src) (mapField I L C (n + 1) (f.computed none) v) s' := by
    rw [map_given hv]
  have h1 := (Ref.mapField (I := I) (L := L) hC (n + 1) (f.computed (some (says v))) .NONE
    (lexNode_computing hf (by intro x hx; cases hx; exact says_lex v))).run hl
  have h2 := (Ref.key (I := I) (k := f.core.src)
    (Ref.mapField (I := I) (L := L) hC (n + 1) (f.computed none) v hf)).run hl
  rw [← hA] at h1
  rw [← hB] at h2
  have key : Lex.mapField I L C (n + 1) (f.computed (some (says v))) .NONE s'.env s'.view =
      T.withKey I f.core.src (Lex.mapField I L C (n + 1) (f.computed none) v) s'.env s'.view := by
    generalize s'.env = env
    generalize s'.view = τ
    obtain ⟨c, kd⟩ := f
    have hn : v.isNONE = false := by
      cases v with
      | const c => cases c <;> first | rfl | cases hv
      | _ => rfl
    have hstart : Lex.fieldStart I L C (Lex.mapField I L C n) ((Field.mk c kd).computed (some (says v))) =
        Lex.fieldCheck I L C (Lex.mapField I L C n) (.mk c kd) v := by
      show (if v.isNONE = true then _ else if v.isIgnore = true then _ else _) = _
      rw [hn, hv]
      rfl
    have hs : Lex.fieldMapInner I L C (Lex.mapField I L C n) ((Field.mk c kd).computed (some (says v))) .NONE =
        T.withKey I c.src (Lex.fieldCheck I L C (Lex.mapField I L C n) (.mk c kd) v) := by
      show Lex.withResolve I L C _ _ _ = _
      rw [hstart]
      have hr' : c.resolve = none := hr
      have hsrc' : noSrc c.src = false := hsrc
      simp only [Lex.withResolve, Field.computed, Field.core, Field.kind, hr', hsrc']
      cases kd <;> first | exact absurd rfl (hg _) | rfl
    have hs2 : Lex.fieldMapInner I L C (Lex.mapField I L C n) ((Field.mk c kd).computed none) v =
        Lex.fieldCheck I L C (Lex.mapField I L C n) (.mk c kd) v := by
      unfold Lex.fieldMapInner
      rw [hn]
      rfl
    rw [lex_inner (by exact ha), lex_inner (by exact ha), hs, hs2]
    rfl
  rw [key] at h1
  exact ⟨h1.1.trans h2.1.symm, h1.2.1.trans h2.2.1.symm, h1.2.2.1.trans h2.2.2.1.symm⟩

/-! ## Examples -/

namespace Demo

def noClasses : Classes := fun _ => { fields := [] }

theorem noClasses_lex : noClasses.All LexNode := by intro cls f hf; cases hf

/-- `@z.resolve def z(self): return self.ctx(src=0)`. -/
def zeroth : Field := .mk { name := some "z", src := .str "z", resolve := some (.key (says (.int 0))) } (.integer {})

/-- `@z.resolve def z(self): return self.ctx(src=9)`, with a source of its own. -/
def apartData : Field := .mk { name := some "z", src := .str "z", resolve := some (.data (says (.str "9"))) } (.integer {})

/-- `@c.compute def c(self): return 11`. -/
def eleven (k : Val) (mx : Int) : Field :=
  .mk { name := some "c", src := k, compute := some (says (.int 11)) } (.integer { max := some (.int mx) })

theorem plain_lex {c : FieldCore} {k : Kind} (hk : Kind.All LexNode k) (h1 : c.default = .unset := by rfl) (h2 : c.resolve = none := by rfl)
    (h3 : c.compute = none := by rfl) (h4 : c.parse = none := by rfl) (h5 : c.munge = none := by rfl)
    (h6 : c.filter = none := by rfl) (h7 : c.validate = none := by rfl)
    (h8 : ∀ kf vf h r m, k ≠ .dict kf vf (some h) r m := by intro _ _ _ _ _ h; cases h) : (Field.mk c k).All LexNode :=
  .mk (hookFree_plain h8 h1 h2 h3 h4 h5 h6 h7).lexNode hk

theorem apartData_lex : (apartData.resolving none).All LexNode :=
  plain_lex (c := { name := some "z", src := .str "z" }) (k := .integer {}) .integer
theorem eleven_lex (k : Val) (mx : Int) : ((eleven k mx).computed none).All LexNode :=
  plain_lex (c := { name := some "c", src := k }) (k := .integer { max := some (.int mx) }) .integer

local macro "doc" : term => `(here (SPath.ops lib) (.list [.int 5, .int 6]))

/-- The field is read at the index `0`. -/
example : mapField (SPath.ops lib) lib noClasses (3 + 1) zeroth .NONE doc =
    mapField (SPath.ops lib) lib noClasses (3 + 1) (zeroth.sourced (.int 0)) .NONE (St.left doc (St.atField doc zeroth)) :=
  C91_key rfl (by intro fs h; cases h) 3 (call_says _ _ _) rfl (by decide)

example : (mapField (SPath.ops lib) lib noClasses (3 + 1) zeroth .NONE doc).1.toOption = some (.int 5) ∧
    (mapField (SPath.ops lib) lib noClasses (3 + 1) apartData .NONE doc).1.toOption = some (.int 9) ∧
    (mapField (SPath.ops lib) lib noClasses (3 + 1) (eleven .NONE 11) .NONE doc).1.toOption = some (.int 11) ∧
    (mapField (SPath.ops lib) lib noClasses (3 + 1) (eleven (.str "c") 10) .NONE doc).1.toOption = some .ERROR := by
  decide +kernel

/-- The data the hook gives is read. -/
example : let A := mapField (SPath.ops lib) lib noClasses (3 + 1) apartData .NONE doc
    let B := withPush (SPath.ops lib) (pushSource (.ok ((SPath.ops lib).native (.str "9") none)))
      (mapField (SPath.ops lib) lib noClasses (3 + 1) (apartData.sourced .none) .NONE) doc
    A.1 = B.1 ∧ curErrs A.2 = curErrs B.2 ∧ A.2.forms = B.2.forms :=
  C91_data (f := apartData) (s := doc) (σ := St.atField doc apartData) rfl noClasses_lex apartData_lex rfl 3 (call_says _ _ _) rfl rfl
    (here_live _)

/-- The computed value is checked like one that is given. -/
example : mapField (SPath.ops lib) lib noClasses (3 + 1) (eleven .NONE 11) .NONE doc =
    mapField (SPath.ops lib) lib noClasses (3 + 1) (eleven .NONE 11) (.int 11) doc :=
  C91_compute_bare (f := eleven .NONE 11) (s := doc) (σ := St.atField doc (eleven .NONE 11)) rfl rfl (by intro fs h; cases h) rfl 3 (call_says _ _ _) rfl rfl

example : let A := mapField (SPath.ops lib) lib noClasses (3 + 1) (eleven (.str "c") 10) .NONE doc
    let B := withPush (SPath.ops lib) (pushKey (SPath.ops lib) (.str "c"))
      (mapField (SPath.ops lib) lib noClasses (3 + 1) (eleven (.str "c") 10) (.int 11)) doc
    A.1 = B.1 ∧ curErrs A.2 = curErrs B.2 ∧ A.2.forms = B.2.forms :=
  C91_compute (f := eleven (.str "c") 10) (s := doc) (s' := doc) rfl rfl (by intro fs h; cases h) rfl noClasses_lex (eleven_lex _ _) rfl 3 rfl
    (call_says _ _ _) rfl rfl (here_live _)

end Demo

end Pilo
