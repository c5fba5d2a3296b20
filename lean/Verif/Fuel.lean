import Verif.Leaf

/-!
# How deep mapping recurses

`Lex.mapField n` follows `n` nested calls of `Field.map` and then gives up.  Here: when the data below the
current place has height `z` and no more than `K` fields of the schema are mapped one inside the other without
following a name, then `(z + 1) * K` nested calls are enough, whatever the schema looks like otherwise.  Classes may
contain themselves.
-/

namespace Pilo

/-! ## The schema -/

/-- The field does not follow a name of `N`: it has no source and reads the place of the field or form around it
(`pilo/fields.py:318-322`, `resolve`; a `Group` has no source at all, `pilo/fields.py:1258-1299`), or its source is
something else.  `N` are the names that lead to something smaller; an index need not: `'a'[0]` is `'a'`. -/
def Field.flat (N : Val → Bool) (f : Field) : Bool :=
  match f.kind with
  | .group _ => true
  | _ => noSrc f.core.src || !N f.core.src

/-- `g` is a field that collects what the directive `u` says about unmapped keys. -/
inductive Collects : Unmapped → Field → Prop where
  | capture (id : Nat) : Collects (.str .capture) (unmappedField id captureKeyField captureValueField)
  | value (id : Nat) (vf : Field) : Collects (.value vf) (unmappedField id captureKeyField vf)
  | pair (id : Nat) (kf vf : Field) : Collects (.pair kf vf) (unmappedField id kf vf)

/-- Mapping `f` maps `g` without following a name. -/
inductive Inline (C : Classes) (N : Val → Bool) : Field → Field → Prop where
  | item {f g : Field} {lo hi : Option Nat} {a : Bool} (h : f.kind = .list g lo hi a) (hg : g.flat N = true) : Inline C N f g
  | slot {f g : Field} {fs : List Field} (h : f.kind = .tuple fs) (hm : g ∈ fs) (hg : g.flat N = true) : Inline C N f g
  | pick {f g : Field} {fs : List (GSrc × Field)} {x : GSrc} (h : f.kind = .group fs) (hm : (x, g) ∈ fs)
      (hg : g.flat N = true) : Inline C N f g
  | val {f g kf : Field} {kfl : Option (Hook (Val → Prog))} {r : Required} {m : Option Nat}
      (h : f.kind = .dict kf g kfl r m) (hg : g.flat N = true) : Inline C N f g
  | key {f g vf : Field} {kfl : Option (Hook (Val → Prog))} {r : Required} {m : Option Nat}
      (h : f.kind = .dict g vf kfl r m) (hg : g.flat N = true) : Inline C N f g
  | member {f g : Field} {cls : Nat} {reset : Bool} {u : Unmapped} (h : f.kind = .subform cls reset u)
      (hm : g ∈ (C cls).fields) (hg : g.flat N = true) : Inline C N f g
  | rest {f g : Field} {cls : Nat} {reset : Bool} {u : Unmapped} (h : f.kind = .subform cls reset u)
      (hu : Collects u g) : Inline C N f g
  | type {f g : Field} {pc : Nat} {ts : List (Val × Nat)} {reset : Bool} {u : Unmapped}
      (h : f.kind = .poly g pc ts reset u) (hg : g.flat N = true) : Inline C N f g
  | probe {f g tf : Field} {pc : Nat} {ts : List (Val × Nat)} {reset : Bool} {u : Unmapped}
      (h : f.kind = .poly tf pc ts reset u) (hm : g ∈ (C pc).fields) (hg : g.flat N = true) : Inline C N f g
  | variant {f g tf : Field} {pc : Nat} {ts : List (Val × Nat)} {reset : Bool} {u : Unmapped} {v : Val} {cls : Nat}
      (h : f.kind = .poly tf pc ts reset u) (ht : (v, cls) ∈ ts) (hm : g ∈ (C cls).fields)
      (hg : g.flat N = true) : Inline C N f g
  | variantRest {f g tf : Field} {pc : Nat} {ts : List (Val × Nat)} {reset : Bool} {u : Unmapped}
      (h : f.kind = .poly tf pc ts reset u) (hu : Collects u g) : Inline C N f g

/-- At most `d` fields, `f` included, are mapped one inside the other before a name is followed. -/
inductive Depth (C : Classes) (N : Val → Bool) : Nat → Field → Prop where
  | mk {d : Nat} {f : Field} (h : ∀ g, Inline C N f g → Depth C N d g) : Depth C N (d + 1) f

theorem Depth.mono {C : Classes} {N : Val → Bool} {d e : Nat} {f : Field} (h : Depth C N d f) (hde : d ≤ e) : Depth C N e f := by
  induction h generalizing e with
  | mk h ih =>
    obtain ⟨e, rfl⟩ : ∃ e', e = e' + 1 := ⟨e - 1, by omega⟩
    exact .mk fun g hg => ih g hg (by omega)

theorem Depth.pos {C : Classes} {N : Val → Bool} {d : Nat} {f : Field} (h : Depth C N d f) : 1 ≤ d := by
  cases h; omega

theorem Depth.inline {C : Classes} {N : Val → Bool} {d : Nat} {f g : Field} (h : Depth C N d f) (hg : Inline C N f g) :
    Depth C N (d - 1) g := by
  cases h with
  | mk h => exact h g hg

/-- A field whose hooks are functions of the value, inside which at most `K` fields are mapped one inside the other before a name is followed. -/
structure Bounded (C : Classes) (N : Val → Bool) (K : Nat) (f : Field) : Prop where
  free : ValueHooks True f
  depth : Depth C N K f

/-! ## The data -/

/-- A dict, list or tuple. -/
def Val.box : Val → Bool
  | .dict _ | .list _ | .tuple _ => true
  | _ => false

/-- A measure of what can be read at a path: it drops with every name, and where it is zero there is nothing. -/
structure Sized {P : Type} {I : PathOps P} (W : LawfulPath I) (N : Val → Bool) where
  size : P → Nat
  same : ∀ {p q}, W.WF p → Same I W.WF W.shape p q → size q = size p
  append : ∀ {p k q}, W.WF p → I.append p k = .ok q → size q ≤ max (size p) 1
  name : ∀ {p k q}, W.WF p → N k = true → I.append p k = .ok q → size q ≤ size p - 1
  blank : ∀ {p}, W.WF p → size p = 0 → (I.exists_ p).1 = .ok true →
    (I.isNull (I.exists_ p).2).1 ≠ .ok false
  value : ∀ {p v al}, W.WF p → v.box = true → (I.value p).1 = .ok v → size (I.native v al) ≤ max (size p) 1
  join : ∀ {p q}, W.WF p → I.joinPath p = some (.ok q) → size q ≤ size p
  empty : size (I.native (.dict []) none) ≤ 1

/-! ## Runs that agree -/

section
variable {P : Type} {I : PathOps P} {W : LawfulPath I} {N : Val → Bool} (S : Sized W N) {L : Lib} {C : Classes} {α β : Type}

/-- No more than `z` can be read at the current path; the form `id` has the class `cls`. -/
structure Sits (z : Nat) (o : Option (Nat × Nat)) (τ : TSt P) : Prop where
  wf : TWF W τ
  size : ∀ r p, τ.path = some (some (r, p)) → S.size p ≤ z
  form : ∀ id cls, o = some (id, cls) → ∃ x, τ.forms[id]? = some x ∧ x.cls = cls

/-- The two computations do the same in every such state. -/
structure Abreast (z : Nat) (o : Option (Nat × Nat)) (t t' : T P α) : Prop where
  keeps : TKeeps W (fun _ => True) t
  eq : ∀ env τ, Sits S z o τ → t env τ = t' env τ

variable {S} {z : Nat} {o : Option (Nat × Nat)}

theorem Sits.keep {τ τ' : TSt P} (h : Sits S z o τ) (hk : TKeep W (fun _ => True) τ τ') : Sits S z o τ' where
  wf := hk.wf h.wf
  size := by
    intro r p hp
    have h1 := hk.path
    rcases ho : τ.path with _ | _ | ⟨r0, p0⟩ <;> simp only [ho, PathKeep] at h1
    · rw [h1] at hp; cases hp
    · rw [h1] at hp; cases hp
    · obtain ⟨q, hq, hs⟩ := h1
      rw [hq] at hp; cases hp
      rw [S.same (h.wf _ _ ho) hs]
      exact h.size _ _ ho
  form := by
    intro id cls ho
    obtain ⟨x, hx, hc⟩ := h.form id cls ho
    obtain ⟨y, hy, hyc⟩ := hk.cls id x hx
    exact ⟨y, hy, hyc.trans hc⟩

theorem Sits.mono {z' : Nat} {τ : TSt P} (h : Sits S z o τ) (hz : z ≤ z') : Sits S z' o τ :=
  ⟨h.wf, fun r p hp => Nat.le_trans (h.size r p hp) hz, h.form⟩

theorem Sits.forget {τ : TSt P} (h : Sits S z o τ) : Sits S z none τ := ⟨h.wf, h.size, by intro _ _ h; cases h⟩

theorem Abreast.forget {t t' : T P α} (h : Abreast S z none t t') : Abreast S z o t t' :=
  ⟨h.keeps, fun env τ hA => h.eq env τ hA.forget⟩

theorem Abreast.mono {z' : Nat} {t t' : T P α} (h : Abreast S z' o t t') (hz : z ≤ z') : Abreast S z o t t' :=
  ⟨h.keeps, fun env τ hA => h.eq env τ (hA.mono hz)⟩

theorem Abreast.of {t : T P α} (h : TKeeps W (fun _ => True) t) : Abreast S z o t t := ⟨h, fun _ _ _ => rfl⟩

theorem Abreast.pure (a : α) : Abreast S z o (T.pure a) (T.pure a) := .of (.pure _)
theorem Abreast.raise (e : Exc) : Abreast S z o (T.raise e : T P α) (T.raise e) := .of (.raise _)

/-- A step whose result is known to satisfy `post`. -/
theorem Abreast.bindR {t t' : T P α} {f f' : α → T P β} {post : α → Prop} (h : Abreast S z o t t')
    (hp : ∀ env τ a, Sits S z o τ → (t env τ).1 = .ok a → post a)
    (hf : ∀ a, post a → Abreast S z o (f a) (f' a)) (hk : ∀ a, TKeeps W (fun _ => True) (f a)) :
    Abreast S z o (t >>= f) (t' >>= f') where
  keeps := .bind h.keeps hk
  eq := by
    intro env τ hA
    have h1 := h.keeps env τ hA.wf
    have h2 := h.eq env τ hA
    have h3 := fun a => hp env τ a hA
    rcases ht : t env τ with ⟨r, τ'⟩
    rw [ht] at h1 h2 h3
    cases r with
    | error e => rw [T.bind_error ht, T.bind_error h2.symm]
    | ok a => rw [T.bind_ok ht, T.bind_ok h2.symm]; exact (hf a (h3 a rfl)).eq env τ' (hA.keep h1)

theorem Abreast.bind {t t' : T P α} {f f' : α → T P β} (h : Abreast S z o t t')
    (hf : ∀ a, Abreast S z o (f a) (f' a)) : Abreast S z o (t >>= f) (t' >>= f') :=
  .bindR (post := fun _ => True) h (fun _ _ _ _ _ => trivial) (fun a _ => hf a) fun a => (hf a).keeps

theorem Abreast.tryCatch {t t' : T P α} {f f' : Exc → T P α} (h : Abreast S z o t t')
    (hf : ∀ e, Abreast S z o (f e) (f' e)) : Abreast S z o (T.tryCatch t f) (T.tryCatch t' f') where
  keeps := .tryCatch h.keeps fun e => (hf e).keeps
  eq := by
    intro env τ hA
    have h1 := h.keeps env τ hA.wf
    have h2 := h.eq env τ hA
    unfold T.tryCatch
    rw [← h2]
    rcases ht : t env τ with ⟨r, τ'⟩
    rw [ht] at h1
    cases r with
    | ok a => rfl
    | error e => exact (hf e).eq env τ' (hA.keep h1)

theorem Abreast.ite {c : Prop} [Decidable c] {t t' u u' : T P α} (h : c → Abreast S z o t t')
    (h' : ¬c → Abreast S z o u u') : Abreast S z o (if c then t else u) (if c then t' else u') := by
  split
  · exact h ‹_›
  · exact h' ‹_›

theorem Abreast.withEnv {g : Env → Env} {t t' : T P α} (h : Abreast S z o t t') :
    Abreast S z o (T.withEnv g t) (T.withEnv g t') :=
  ⟨.withEnv h.keeps, fun env τ hA => h.eq (g env) τ hA⟩

theorem Abreast.withErrs {raising : Bool} {t t' : T P α} (h : Abreast S z o t t') :
    Abreast S z o (T.withErrs raising t) (T.withErrs raising t') :=
  ⟨.withErrs h.keeps, fun env τ hA => by
    unfold T.withErrs
    rw [h.eq env { τ with errs := some { raising := raising, items := [] } } ⟨hA.wf, hA.size, hA.form⟩]⟩

theorem Abreast.withSource {z' : Nat} {mk : Except Exc P} {t t' : T P α}
    (hmk : ∀ p, mk = .ok p → W.WF p ∧ S.size p ≤ z') (h : Abreast S z' o t t') :
    Abreast S z o (T.withSource mk t) (T.withSource mk t') :=
  ⟨.withSource (fun p hp => (hmk p hp).1) h.keeps, fun env τ hA => by
    unfold T.withSource
    cases mk with
    | error e => rfl
    | ok p =>
      dsimp only
      rw [h.eq { env with src := some true } { τ with path := some (some (τ.npaths, p)), npaths := τ.npaths + 1 }
        ⟨by intro r q hq; cases hq; exact (hmk _ rfl).1, by intro r q hq; cases hq; exact (hmk _ rfl).2, hA.form⟩]⟩

theorem Abreast.withKeyAt (k : Val) {z' : Nat} {t t' : T P α}
    (hz : ∀ p q, W.WF p → S.size p ≤ z → I.append p k = .ok q → S.size q ≤ z') (h : Abreast S z' o t t') :
    Abreast S z o (T.withKey I k t) (T.withKey I k t') :=
  ⟨.withKey k h.keeps, fun env τ hA => by
    rcases hp : τ.path with _ | _ | ⟨r, p⟩
    · unfold T.withKey T.onPath; simp only [hp]
    · unfold T.withKey T.onPath; simp only [hp]
    · have hwp := hA.wf r p hp
      unfold T.withKey
      rw [T.onPath_run hp]
      cases hap : I.append p k with
      | error e => simp only [pathAppend, hap]
      | ok q =>
        simp only [pathAppend, hap]
        rw [h.eq { env with src := some (!k.isNull) } { τ with path := some (some (r, q)) } ⟨
          (by intro r' q' hq'; cases hq'; exact (W.append_keys hwp hap).2),
          (by intro r' q' hq'; cases hq'; exact hz p _ hwp (hA.size r p hp) hap),
          hA.form⟩]⟩

theorem Abreast.withKey (hz : 1 ≤ z) (k : Val) {t t' : T P α} (h : Abreast S z o t t') :
    Abreast S z o (T.withKey I k t) (T.withKey I k t') :=
  .withKeyAt k (fun _ _ hw hs ha => Nat.le_trans (S.append hw ha) (by omega)) h

theorem Abreast.withName {k : Val} (hk : N k = true) {t t' : T P α} (h : Abreast S (z - 1) o t t') :
    Abreast S z o (T.withKey I k t) (T.withKey I k t') :=
  .withKeyAt k (fun _ _ hw hs ha => Nat.le_trans (S.name hw hk ha) (Nat.sub_le_sub_right hs 1)) h

theorem Abreast.newForm {cls : Nat} {f f' : Nat → T P α} (h : ∀ id, Abreast S z (some (id, cls)) (f id) (f' id)) :
    Abreast S z o (T.newForm cls >>= f) (T.newForm cls >>= f') :=
  ⟨.newForm fun id => (h id).keeps.mono fun _ _ => .inl trivial, fun env τ hA => by
    have hn : T.newForm cls env τ = (.ok τ.forms.length,
      { τ with forms := τ.forms ++ [{ cls := cls, items := [] }] }) := rfl
    rw [T.bind_ok hn, T.bind_ok hn]
    exact (h _).eq _ _ ⟨hA.wf, hA.size, by
      intro id c hc
      cases hc
      exact ⟨{ cls := cls, items := [] }, by simp, rfl⟩⟩⟩

/-- The class of the form is known. -/
theorem Abreast.formCls {id cls : Nat} {f f' : Nat → T P α} (h : Abreast S z (some (id, cls)) (f cls) (f' cls))
    (hk : ∀ c, TKeeps W (fun _ => True) (f c)) :
    Abreast S z (some (id, cls)) (T.formCls id >>= f) (T.formCls id >>= f') := by
  refine .bindR (post := fun c => c = cls) (.of (.formCls id)) ?_ (fun a ha => by subst ha; exact h) hk
  intro env τ a hA ha
  obtain ⟨x, hx, hc⟩ := hA.form id cls rfl
  unfold T.formCls at ha
  rw [hx] at ha
  cases ha
  exact hc

/-! ## One level of `Field.map` -/

variable {rec rec' : TRec P}

/-- What the nested calls have to do alike for `f` at a place of size `z`. -/
structure Calls (S : Sized W N) (C : Classes) (K z : Nat) (rec rec' : TRec P) (f : Field) : Prop where
  keeps : RecTKeeps W rec
  beside : ∀ g, g.All (Bounded C N K) → g.flat N = false → Abreast S z none (rec g .NONE) (rec' g .NONE)
  same : ∀ g, g.All (Bounded C N K) → Inline C N f g → Abreast S z none (rec g .NONE) (rec' g .NONE)
  given : ∀ g v, g.All (Bounded C N K) → v.isNONE = false → Abreast S z none (rec g v) (rec' g v)

variable {K : Nat} {f : Field}

theorem bounded_free {g : Field} (h : g.All (Bounded C N K)) : g.All (ValueHooks True) := h.imp fun _ h => h.free
theorem classes_free (h : C.All (Bounded C N K)) : C.All (ValueHooks True) := h.imp fun _ h => h.free
theorem unmapped_free {u : Unmapped} (h : u.All (Bounded C N K)) : u.All (ValueHooks True) := h.imp fun _ h => h.free

/-- A field that is mapped at the same place or has a source of its own. -/
theorem Calls.near (h : Calls S C K z rec rec' f) {g : Field} (hg : g.All (Bounded C N K))
    (hi : g.flat N = true → Inline C N f g) : Abreast S z o (rec g .NONE) (rec' g .NONE) := by
  cases hfl : g.flat N with
  | false => exact (h.beside g hg hfl).forget
  | true => exact (h.same g hg (hi hfl)).forget

theorem Calls.atKey (hz : 1 ≤ z) (h : Calls S C K z rec rec' f) {g : Field} (hg : g.All (Bounded C N K))
    (hi : g.flat N = true → Inline C N f g) (k : Val) :
    Abreast S z o (T.withKey I k (rec g .NONE)) (T.withKey I k (rec' g .NONE)) :=
  .withKey hz k (h.near hg hi)

theorem ValueHooks.lexDefault {f : Field} (hf : ValueHooks True f) :
    Lex.fieldDefault I L C rec f = Lex.fieldDefault I L C rec' f := by
  unfold Lex.fieldDefault
  rcases hf.default with h | ⟨v, h⟩ <;> rw [h]
  cases v with
  | const c => cases c <;> rfl
  | _ => rfl

theorem ValueHooks.lexCheck {f : Field} (hf : ValueHooks True f) (v : Val) :
    Lex.fieldCheck I L C rec f v = Lex.fieldCheck I L C rec' f v := by
  have hc : ∀ h : Hook (Val → Prog), h.Pure True → Lex.callHook1 I L C rec h = Lex.callHook1 I L C rec' h := by
    rintro h ⟨-, g, hg⟩
    funext v
    unfold Lex.callHook1
    congr 1
    funext t
    rw [hg]
    induction (g v).1 with
    | nil => cases (g v).2 <;> rfl
    | cons m ms ih =>
      show T.bind _ (fun _ => Lex.evalProg I L C rec (Prog.saying ms (g v).2)) =
        T.bind _ (fun _ => Lex.evalProg I L C rec' (Prog.saying ms (g v).2))
      rw [ih]
      rfl
  have h1 : Lex.mungeStep I L C rec f = Lex.mungeStep I L C rec' f := by
    funext v
    unfold Lex.mungeStep
    cases hm : f.core.munge with
    | none => rfl
    | some h => simp only [hc h (hf.munge h hm)]
  have h2 : Lex.filterStep I L C rec f = Lex.filterStep I L C rec' f := by
    funext v
    unfold Lex.filterStep
    cases hm : f.core.filter with
    | none => rfl
    | some h => simp only [hc h (hf.filter h hm)]
  have h3 : Lex.validateStep I L C rec f = Lex.validateStep I L C rec' f := by
    funext v
    unfold Lex.validateStep
    cases hm : f.core.validate with
    | none => rfl
    | some h => simp only [hc h (hf.validate h hm)]
  unfold Lex.fieldCheck
  rw [h1, h2, h3, hf.lexDefault (rec' := rec')]

theorem Abreast.default (hf : ValueHooks True f) :
    Abreast S z o (Lex.fieldDefault I L C rec f) (Lex.fieldDefault I L C rec' f) := by
  rw [hf.lexDefault (rec' := rec')]; exact .of (.fieldDefault hf)

theorem Abreast.check (hf : ValueHooks True f) (v : Val) :
    Abreast S z o (Lex.fieldCheck I L C rec f v) (Lex.fieldCheck I L C rec' f v) := by
  rw [hf.lexCheck (rec' := rec')]; exact .of (.fieldCheck hf v)

theorem Abreast.keepKey {kfl : Option (Hook (Val → Prog))} (hk : ∀ h, kfl = some h → ∃ id, h = notInForm id)
    (k : Val) : Abreast S z o (Lex.keepKey I L C rec kfl k) (Lex.keepKey I L C rec' kfl k) := by
  have : Lex.keepKey I L C rec kfl k = Lex.keepKey I L C rec' kfl k := by
    cases kfl with
    | none => rfl
    | some h =>
      obtain ⟨id, rfl⟩ := hk h rfl
      rfl
  rw [this]
  exact .of (.keepKey hk k)

/-! ### Forms -/

/-- The fields of a class that are mapped at the place of the form. -/
def Members (C : Classes) (N : Val → Bool) (f : Field) (cls : Nat) : Prop := ∀ g ∈ (C cls).fields, g.flat N = true → Inline C N f g

theorem Abreast.unmappedGo (h : Calls S C K z rec rec' f) {id : Nat} {kf vf : Field}
    (hg : (unmappedField id kf vf).All (Bounded C N K)) (hi : Inline C N f (unmappedField id kf vf)) :
    Abreast S z o (Lex.unmappedGo rec id kf vf) (Lex.unmappedGo rec' id kf vf) := by
  unfold Lex.unmappedGo
  refine .bind (h.same _ hg hi).forget fun v => .of ?_
  have h1 := fun g => TKeeps.formModify (W := W) (ok := fun _ => True) (id := id) trivial g
  tks [h1]

theorem depth_leaf {g : Field} (hk : ∀ h, ¬ Inline C N g h) : Depth C N 1 g := .mk fun h hi => absurd hi (hk h)

theorem inline_leaf {g h : Field} (hk : g.kind.leaf = true) (hi : Inline C N g h) : False := by
  cases hi with
  | item h | slot h | pick h | val h | key h | member h | rest h | type h | probe h | variant h | variantRest h =>
    rw [h] at hk; cases hk

theorem captureKey_bounded (hK : 1 ≤ K) : captureKeyField.All (Bounded C N K) := by
  refine .mk ⟨captureKey_free.node.calm, .mono (depth_leaf ?_) hK⟩ .string
  exact fun _ hi => inline_leaf rfl hi

theorem captureValue_bounded (hK : 1 ≤ K) : captureValueField.All (Bounded C N K) := by
  refine .mk ⟨captureValue_free.node.calm, .mono (depth_leaf ?_) hK⟩ .base
  exact fun _ hi => inline_leaf rfl hi

theorem Abreast.applyUnmapped (h : Calls S C K z rec rec' f) (hf : Depth C N K f) {u : Unmapped}
    (hu : u.All (Bounded C N K)) (hi : ∀ g, Collects u g → Inline C N f g) (id : Nat) :
    Abreast S z o (Lex.applyUnmapped rec id u) (Lex.applyUnmapped rec' id u) := by
  have hK := hf.pos
  have go : ∀ kf vf, kf.All (Bounded C N K) → vf.All (Bounded C N K) → Collects u (unmappedField id kf vf) →
      Abreast S z o (Lex.unmappedGo rec id kf vf) (Lex.unmappedGo rec' id kf vf) := by
    intro kf vf hkf hvf hc
    refine .unmappedGo h (.mk ⟨?_, (hf.inline (hi _ hc)).mono (by omega)⟩ (.dict hkf hvf)) (hi _ hc)
    exact (unmappedField_calm (bounded_free hkf) (bounded_free hvf)).node
  cases hu with
  | value hv => exact go _ _ (captureKey_bounded hK) hv (.value id _)
  | pair hk hv => exact go _ _ hk hv (.pair id _ _)
  | str =>
    rename_i u
    cases u with
    | capture => exact go _ _ (captureKey_bounded hK) (captureValue_bounded hK) (.capture id)
    | none => exact .pure _
    | ignore => exact .pure _
    | bad => exact .raise _

theorem Abreast.mapOne (h : Calls S C K z rec rec' f) {g : Field} (hg : g.All (Bounded C N K))
    (hi : g.flat N = true → Inline C N f g) (id : Nat) (tags : List String) :
    Abreast S z o (Lex.mapOne rec id tags g) (Lex.mapOne rec' id tags g) := by
  unfold Lex.mapOne
  refine .ite (fun _ => .bind (h.near hg hi) fun v => .of ?_) fun _ => .pure _
  have h1 := fun g => TKeeps.formModify (W := W) (ok := fun _ => True) (id := id) trivial g
  tks [h1]

theorem Abreast.mapFields (h : Calls S C K z rec rec' f) (id : Nat) (tags : List String) (fs : List Field)
    (hfs : ∀ g ∈ fs, g.All (Bounded C N K)) (hi : ∀ g ∈ fs, g.flat N = true → Inline C N f g) :
    Abreast S z o (Lex.mapFields rec id tags fs) (Lex.mapFields rec' id tags fs) := by
  induction fs with
  | nil => exact .pure _
  | cons g fs ih =>
    unfold Lex.mapFields
    exact .bind (.mapOne h (hfs g (by simp)) (hi g (by simp)) id tags) fun _ =>
      ih (fun g hg => hfs g (by simp [hg])) fun g hg => hi g (by simp [hg])

theorem Abreast.formMapBody (hC : C.All (Bounded C N K)) (h : Calls S C K z rec rec' f) (hf : Depth C N K f)
    {id cls : Nat} (hm : Members C N f cls) (tags : List String) {u : Unmapped} (hu : u.All (Bounded C N K))
    (hi : ∀ g, Collects u g → Inline C N f g) :
    Abreast S z (some (id, cls)) (Lex.formMapBody I C rec id tags u) (Lex.formMapBody I C rec' id tags u) := by
  have hC' := classes_free hC
  unfold Lex.formMapBody
  refine .bind (.of .mapping) fun _ => .formCls ?_ ?_
  · exact .bind (.withEnv (.mapFields h id tags _ (hC cls) hm)) fun _ => .applyUnmapped h hf hu hi id
  · intro c
    exact .bind (.withEnv (.mapFields h.keeps trivial tags _ (hC' c))) fun _ =>
      .applyUnmapped h.keeps trivial (unmapped_free hu)

theorem Abreast.nestedMap (hC : C.All (Bounded C N K)) (h : Calls S C K z rec rec' f) (hf : Depth C N K f)
    {id cls : Nat} (hm : Members C N f cls) (tags : List String) {u : Unmapped} (hu : u.All (Bounded C N K))
    (hi : ∀ g, Collects u g → Inline C N f g) (raising : Bool) :
    Abreast S z (some (id, cls)) (Lex.nestedMap I C rec id tags u raising)
      (Lex.nestedMap I C rec' id tags u raising) := by
  unfold Lex.nestedMap
  exact .bind (.withErrs (.formMapBody hC h hf hm tags hu hi)) fun _ =>
    .of (.bind (.extend _) fun _ => .pure _)

variable (S) in
/-- The source has at most size `z`.  Only dicts, lists and tuples are made into sources. -/
def SrcSize (z : Nat) : SrcArg P → Prop
  | .none => True
  | .source (.ok p) => W.WF p ∧ S.size p ≤ z
  | .source (.error _) => True
  | .data v => v.box = true → ∀ al, S.size (I.native v al) ≤ z

theorem SrcSize.ok {src : SrcArg P} (h : SrcSize S z src) : SrcOK W src := by
  cases src with
  | none => trivial
  | data v => trivial
  | source mk => cases mk with
    | error e => trivial
    | ok p => exact h.1

theorem Abreast.rootMap (hz : 1 ≤ z) (hC : C.All (Bounded C N K)) (h : Calls S C K z rec rec' f)
    (hf : Depth C N K f) {id cls : Nat} (hm : Members C N f cls) {src : SrcArg P} (hs : SrcSize S z src)
    (tags : List String) {u : Unmapped} (hu : u.All (Bounded C N K)) (hi : ∀ g, Collects u g → Inline C N f g)
    (raising : Bool) {z' : Nat} :
    Abreast S z' (some (id, cls)) (Lex.rootMap I C rec id src tags u raising)
      (Lex.rootMap I C rec' id src tags u raising) := by
  have hC' := classes_free hC
  have go : ∀ mk : Except Exc P, (∀ p, mk = .ok p → W.WF p ∧ S.size p ≤ z) →
      Abreast S z' (some (id, cls))
        (T.withErrs raising (T.withSource mk (Lex.formMapBody I C rec id tags u)) >>= fun x => T.pure x.2)
        (T.withErrs raising (T.withSource mk (Lex.formMapBody I C rec' id tags u)) >>= fun x => T.pure x.2) :=
    fun mk hmk => .bind (.withErrs (.withSource hmk (.formMapBody hC h hf hm tags hu hi))) fun _ => .pure _
  have kp : ∀ mk : Except Exc P, (∀ p, mk = .ok p → W.WF p ∧ S.size p ≤ z) → TKeeps W (fun _ => True)
      (T.withErrs raising (T.withSource mk (Lex.formMapBody I C rec id tags u)) >>= fun x => T.pure x.2) :=
    fun mk hmk => (go mk hmk).keeps
  unfold Lex.rootMap Lex.rootSource
  cases src with
  | none => exact go _ fun p hp => by cases hp; exact ⟨W.native_wf, Nat.le_trans S.empty hz⟩
  | source mk =>
    exact go mk fun p hp => by subst hp; exact hs
  | data v =>
    have hn : v.box = true → ∀ al p, (Except.ok (I.native v al) : Except Exc P) = .ok p → W.WF p ∧ S.size p ≤ z := by
      intro hb al p hp; cases hp; exact ⟨W.native_wf, hs hb al⟩
    have seq : v.box = true → ∀ g : Nat → Option (List (Val × Val)),
        Abreast S z' (some (id, cls))
          ((T.formCls id >>= fun c => T.pure (Except.ok (I.native v (g c)))) >>= fun mk =>
            T.withErrs raising (T.withSource mk (Lex.formMapBody I C rec id tags u)) >>= fun x => T.pure x.2)
          ((T.formCls id >>= fun c => T.pure (Except.ok (I.native v (g c)))) >>= fun mk =>
            T.withErrs raising (T.withSource mk (Lex.formMapBody I C rec' id tags u)) >>= fun x => T.pure x.2) := by
      intro hb g
      have hn := hn hb
      refine ⟨?_, ?_⟩
      · refine .bindR (post := fun mk => ∀ p, mk = .ok p → W.WF p ∧ S.size p ≤ z) ?_ kp
        exact .bind (.formCls _) fun _ => .pure (hn _)
      · intro env τ hA
        obtain ⟨x, hx, hc⟩ := hA.form id cls rfl
        have e : (T.formCls id >>= fun c => T.pure (Except.ok (I.native v (g c)) : Except Exc P)) env τ
            = (.ok (.ok (I.native v (g x.cls))), τ) := by
          rw [T.bind_ok (show T.formCls id env τ = (.ok x.cls, τ) by unfold T.formCls; rw [hx])]
          rfl
        rw [T.bind_ok e, T.bind_ok e]
        exact (go _ (hn _)).eq env τ hA
    cases v with
    | dict kvs => exact go _ (hn rfl none)
    | list xs => exact seq rfl fun c => some (seqAliases (C c).fields)
    | tuple xs => exact seq rfl fun c => some (seqAliases (C c).fields)
    | _ => exact .raise _

theorem Abreast.formMap (hz : 1 ≤ z) (hC : C.All (Bounded C N K)) (h : Calls S C K z rec rec' f)
    (hf : Depth C N K f) {id cls : Nat} (hm : Members C N f cls) {src : SrcArg P} (hs : SrcSize S z src)
    (tags : List String) (reset : Bool) {u : Unmapped} (hu : u.All (Bounded C N K))
    (hi : ∀ g, Collects u g → Inline C N f g) (raising : Bool) :
    Abreast S z (some (id, cls)) (Lex.formMap I C rec id src tags reset u raising)
      (Lex.formMap I C rec' id src tags reset u raising) := by
  unfold Lex.formMap
  refine .bind (.of (.ctxGet? _)) fun ct => .bind (.of ?_) fun _ => .bind (.of (.ctxGet _ _)) fun cs =>
    .bind ?_ fun es => .of ?_
  · unfold Lex.formResetIf
    have h := fun tags fs => TKeeps.formReset (W := W) (ok := fun _ => True) (id := id) trivial tags fs
    tks [h]
  · unfold Lex.formMapAt
    refine .ite (fun _ => .ite (fun _ => ?_) fun _ => ?_) fun _ => ?_
    · exact .nestedMap hC h hf hm _ hu hi raising
    · exact .rootMap hz hC h hf hm (by trivial) _ hu hi raising
    · exact .rootMap hz hC h hf hm hs _ hu hi raising
  · unfold Lex.formFinish
    tks

/-! ### Kinds -/

theorem Abreast.fieldGet (hz : 1 ≤ z) (h : Calls S C K z rec rec' f) {g : Field} (hg : g.All (Bounded C N K))
    (hi : g.flat N = true → Inline C N f g) (id : Nat) :
    Abreast S z o (Lex.fieldGet I rec g id) (Lex.fieldGet I rec' g id) := by
  have h2 : ∀ v, Abreast S z o (Lex.getFinish g id v : T P Val) (Lex.getFinish g id v) := by
    intro v
    have h1 := fun g => TKeeps.formModify (W := W) (ok := fun _ => True) (id := id) trivial g
    refine .of ?_
    unfold Lex.getFinish
    tks [h1]
  have h3 : Abreast S z o (Lex.getEmpty I rec g id) (Lex.getEmpty I rec' g id) := by
    unfold Lex.getEmpty
    exact .withSource (by intro p hp; cases hp; exact ⟨W.native_wf, Nat.le_trans S.empty hz⟩)
      (.withEnv (h.near hg hi))
  unfold Lex.fieldGet
  refine .bind (.of (.formItems _)) fun items => ?_
  split
  · exact .pure _
  · refine .bind (.of (.ctxGet? _)) fun o => ?_
    split
    · exact .bind (.withErrs h3) fun _ => h2 _
    · exact .bind (.of (.ctxGet? _)) fun par => .ite (fun _ => .bind (h.near hg hi) h2) fun _ => .bind h3 h2

theorem Abreast.tupleLoop (hz : 1 ≤ z) (h : Calls S C K z rec rec' f) (fs : List Field) (hfs : ∀ g ∈ fs, g.All (Bounded C N K))
    (hi : ∀ g ∈ fs, g.flat N = true → Inline C N f g) : ∀ i, Abreast S z o (Lex.tupleLoop I rec i fs) (Lex.tupleLoop I rec' i fs) := by
  induction fs with
  | nil => intro i; exact .pure _
  | cons g fs ih =>
    intro i
    unfold Lex.tupleLoop
    exact .bind (h.atKey hz (hfs g (by simp)) (hi g (by simp)) _) fun _ =>
      .bind (ih (fun g hg => hfs g (by simp [hg])) (fun g hg => hi g (by simp [hg])) (i + 1)) fun _ => .pure _

theorem Abreast.listLoop (hz : 1 ≤ z) (h : Calls S C K z rec rec' f) {g : Field} (hg : g.All (Bounded C N K))
    (hi : g.flat N = true → Inline C N f g) (n : Nat) : ∀ i, Abreast S z o (Lex.listLoop I rec g i n) (Lex.listLoop I rec' g i n) := by
  induction n with
  | zero => intro i; exact .pure _
  | succ n ih =>
    intro i
    unfold Lex.listLoop
    exact .bind (h.atKey hz hg hi _) fun _ => .bind (ih (i + 1)) fun _ => .pure _

theorem Abreast.dictLoop (hz : 1 ≤ z) (h : Calls S C K z rec rec' f) {kf vf : Field} (hkf : kf.All (Bounded C N K))
    (hvf : vf.All (Bounded C N K)) (hi : kf.flat N = true → Inline C N f kf) (hv : vf.flat N = true → Inline C N f vf) {kfl : Option (Hook (Val → Prog))}
    (hk : ∀ h, kfl = some h → ∃ id, h = notInForm id) (ks : List Val) :
    ∀ acc, Abreast S z o (Lex.dictLoop I L C rec kf vf kfl ks acc) (Lex.dictLoop I L C rec' kf vf kfl ks acc) := by
  induction ks with
  | nil => intro acc; exact .pure _
  | cons k ks ih =>
    intro acc
    have hkey : Abreast S z o (rec kf k) (rec' kf k) := by
      cases hn : k.isNONE with
      | false => exact (h.given kf k hkf hn).forget
      | true =>
        have : k = .NONE := by
          cases k with
          | const c => cases c <;> first | rfl | cases hn
          | _ => cases hn
        rw [this]
        exact h.near hkf hi
    unfold Lex.dictLoop
    refine .bind (.keepKey hk k) fun b => .ite (fun _ => ih _) fun _ => .bind (h.atKey hz hvf hv k) fun v => ?_
    refine .ite (fun _ => ih _) fun _ => .bind hkey fun k' => .ite (fun _ => ih _) fun _ => ?_
    exact .ite (fun _ => .raise _) fun _ => ih _

theorem Abreast.groupLoop (hz : 1 ≤ z) (h : Calls S C K z rec rec' f) {fs : List (GSrc × Field)}
    (hfs : ∀ x ∈ fs, x.2.All (Bounded C N K)) (hi : ∀ x ∈ fs, x.2.flat N = true → Inline C N f x.2) (ks : List Val) :
    ∀ m acc, Abreast S z o (Lex.groupLoop I rec fs ks m acc) (Lex.groupLoop I rec' fs ks m acc) := by
  induction ks with
  | nil => intro m acc; exact .pure _
  | cons k ks ih =>
    intro m acc
    unfold Lex.groupLoop
    cases hg : groupMatch fs k with
    | error e => exact .of (.raise e)
    | ok r =>
      rcases r with _ | ⟨g, cap⟩
      · exact ih _ _
      · obtain ⟨_, hmem⟩ := groupMatch_mem hg
        rw [T.ofExcept_ok_bind, T.ofExcept_ok_bind]
        refine Abreast.bind (h.atKey hz (hfs _ hmem) (hi _ hmem) k) fun v => .ite (fun _ => ih _ _) fun _ => ih _ _

theorem Abreast.subParse (hz : 1 ≤ z) (hC : C.All (Bounded C N K)) (h : Calls S C K z rec rec' f)
    (hf : Depth C N K f) {cls : Nat} (hm : Members C N f cls) (reset : Bool) {u : Unmapped}
    (hu : u.All (Bounded C N K)) (hi : ∀ g, Collects u g → Inline C N f g) :
    Abreast S z o (Lex.subParse I C rec cls reset u) (Lex.subParse I C rec' cls reset u) := by
  unfold Lex.subParse
  exact .newForm fun id => .bind (.formMap hz hC h hf hm (by trivial) _ _ hu hi _) fun _ => .pure _

theorem Abreast.probe (hz : 1 ≤ z) (hC : C.All (Bounded C N K)) (h : Calls S C K z rec rec' f)
    (hf : Depth C N K f) {tf : Field} (ht : tf.All (Bounded C N K)) (hti : tf.flat N = true → Inline C N f tf)
    {pc : Nat} (hm : Members C N f pc) {src : SrcArg P} (hs : SrcSize S z src) :
    Abreast S z o (Lex.probe I C rec tf pc src) (Lex.probe I C rec' tf pc src) := by
  unfold Lex.probe
  refine .newForm fun id => .bind (.formMap hz hC h hf hm hs _ _ .str (fun g hg => by cases hg) _) fun es => ?_
  cases es with
  | nil => exact .fieldGet hz h ht hti id
  | cons e es => exact .raise _

/-- What the probe reads is no larger than what is at the place. -/
theorem probeSrc_size (hz : 1 ≤ z) : ∀ env τ src, Sits S z o τ → (Lex.probeSrc I env τ).1 = .ok src →
    SrcSize S z src := by
  intro env τ src hA hs
  unfold Lex.probeSrc at hs
  rcases hp : τ.path with _ | _ | ⟨r, p⟩
  · rw [T.bind_error (show T.onPath I.value env τ = _ by unfold T.onPath; rw [hp])] at hs; cases hs
  · rw [T.bind_error (show T.onPath I.value env τ = _ by unfold T.onPath; rw [hp])] at hs; cases hs
  · have hw := hA.wf r p hp
    have hsz := hA.size r p hp
    have h1 := T.onPath_run (f := I.value) (env := env) hp
    cases hv : (I.value p).1 with
    | error e => rw [hv] at h1; rw [T.bind_error h1] at hs; cases hs
    | ok v =>
      rw [hv] at h1
      rw [T.bind_ok h1, T.onPath_run rfl] at hs
      have hk := W.value_keys hw
      cases hj : I.joinPath (I.value p).2 with
      | none =>
        rw [hj] at hs
        cases hs
        intro hb al
        have := S.value (al := al) hw hb hv
        omega
      | some mk =>
        rw [hj] at hs
        cases hs
        cases mk with
        | error e => trivial
        | ok q =>
          refine ⟨W.joinPath_wf hk.wf hj, Nat.le_trans (S.join hk.wf hj) ?_⟩
          rw [S.same hw hk]
          exact hsz

theorem Abreast.polyType (hz : 1 ≤ z) (hC : C.All (Bounded C N K)) (h : Calls S C K z rec rec' f)
    (hf : Depth C N K f) {tf : Field} (ht : tf.All (Bounded C N K)) (hti : tf.flat N = true → Inline C N f tf)
    {pc : Nat} (hm : Members C N f pc) (types : List (Val × Nat)) :
    Abreast S z o (Lex.polyType I L C rec tf pc types) (Lex.polyType I L C rec' tf pc types) := by
  have hC' := classes_free hC
  unfold Lex.polyType
  refine .bind (.tryCatch ⟨?_, ?_⟩ fun e => .of ?_) fun r => .of ?_
  · exact .bindR probeSrc_wf fun src hsrc => .bind (.probe hC' h.keeps (bounded_free ht) pc hsrc) fun v => .pure _
  · intro env τ hA
    have h1 := (probeSrc_wf (I := I) (W := W) (ok := fun _ => True) env τ hA.wf).1
    have h2 := fun src => probeSrc_size hz env τ src hA
    rcases hr : Lex.probeSrc I env τ with ⟨r, τ'⟩
    rw [hr] at h1 h2
    cases r with
    | error e => rw [T.bind_error hr, T.bind_error hr]
    | ok src =>
      rw [T.bind_ok hr, T.bind_ok hr]
      exact (Abreast.bind (.probe hz hC h hf ht hti hm (h2 src rfl)) fun v => .pure _).eq env τ' (hA.keep h1)
  · tks
  · tks

theorem polyType_mem {tf : Field} {pc : Nat} {types : List (Val × Nat)} {env : Env} {τ : TSt P} {cls : Nat}
    (h : (Lex.polyType I L C rec tf pc types env τ).1 = .ok (some (some cls))) : ∃ v, (v, cls) ∈ types := by
  unfold Lex.polyType at h
  generalize (T.tryCatch _ _ : T P (Option Val)) = t at h
  rcases ht : t env τ with ⟨r, τ'⟩
  cases r with
  | error e => rw [T.bind_error ht] at h; cases h
  | ok w =>
    rw [T.bind_ok ht] at h
    have aux : ∀ v : Val, ((if (!v.hashable) = true then T.raise (.typeError "unhashable type")
        else match types.find? (fun p => v.pyEq p.1) with
          | some p => T.pure (some (some p.2))
          | none => do
            Lex.invalid I ("invalid identity " ++ L.fmt v)
            T.pure (some none) : T P (Option (Option Nat))) env τ').1 = .ok (some (some cls)) →
        ∃ v, (v, cls) ∈ types := by
      intro v h
      split at h
      · cases h
      · cases hp : types.find? (fun p => v.pyEq p.1) with
        | some p =>
          rw [hp] at h
          cases h
          exact ⟨p.1, List.mem_of_find?_eq_some hp⟩
        | none =>
          rw [hp] at h
          change ((Lex.invalid I ("invalid identity " ++ L.fmt v) >>= fun _ => T.pure (some none)) env τ').1 = _ at h
          rcases hi : Lex.invalid I ("invalid identity " ++ L.fmt v) env τ' with ⟨x, τ2⟩
          cases x with
          | error e => rw [T.bind_error hi] at h; cases h
          | ok _ => rw [T.bind_ok hi] at h; cases h
    cases w with
    | none => cases h
    | some v =>
      cases v with
      | none => cases h
      | _ => exact aux _ h

theorem Abreast.polyParse (hz : 1 ≤ z) (hC : C.All (Bounded C N K)) (h : Calls S C K z rec rec' f)
    (hf : Depth C N K f) {tf : Field} (ht : tf.All (Bounded C N K)) (hti : tf.flat N = true → Inline C N f tf)
    {pc : Nat} (hm : Members C N f pc) {types : List (Val × Nat)}
    (hts : ∀ v cls, (v, cls) ∈ types → Members C N f cls) (reset : Bool) {u : Unmapped}
    (hu : u.All (Bounded C N K)) (hi : ∀ g, Collects u g → Inline C N f g) :
    Abreast S z o (Lex.polyParse I L C rec tf pc types reset u) (Lex.polyParse I L C rec' tf pc types reset u) := by
  have hC' := classes_free hC
  unfold Lex.polyParse
  refine .bindR (post := fun r => ∀ cls, r = some (some cls) → ∃ v, (v, cls) ∈ types)
    (.polyType hz hC h hf ht hti hm types) ?_ ?_ ?_
  · intro env τ a _ ha cls hc
    subst hc
    exact polyType_mem ha
  · intro r hr
    rcases r with _ | _ | cls
    · exact .pure _
    · exact .pure _
    · obtain ⟨v, hv⟩ := hr cls rfl
      exact .subParse hz hC h hf (hts v cls hv) reset hu hi
  · intro r
    rcases r with _ | _ | cls
    · exact .pure _
    · exact .pure _
    · exact .subParse hC' h.keeps cls reset (unmapped_free hu)

theorem Abreast.kindParse (hz : 1 ≤ z) (hC : C.All (Bounded C N K)) (h : Calls S C K z rec rec' f)
    (hf : f.All (Bounded C N K)) : Abreast S z o (Lex.kindParse I L C rec f) (Lex.kindParse I L C rec' f) := by
  have hn := hf.node
  have hk := hf.kind
  have hd := fun z o => Abreast.default (S := S) (L := L) (C := C) (rec := rec) (rec' := rec') (z := z) (o := o) hn.free
  unfold Lex.kindParse
  cases hkind : f.kind with
  | decimal c => exact .of .decimalParse
  | date c => exact .of (.dateParse c)
  | time c => exact .of (.timeParse c)
  | datetime c => exact .of (.datetimeParse c)
  | tuple fs =>
    rw [hkind] at hk
    cases hk with
    | tuple hfs =>
      unfold Lex.tupleParse
      exact .bind (.of .sequence) fun n => .ite (fun _ => .of (.failWith _)) fun _ =>
        .bind (.tupleLoop hz h fs hfs (fun g hg hfl => .slot hkind hg hfl) 0) fun _ => .pure _
  | list g lo hi a =>
    rw [hkind] at hk
    cases hk with
    | list hg =>
      unfold Lex.listParse
      refine .bind (.of .seqTry) fun r => ?_
      cases r with
      | ok n => exact .bind (.listLoop hz h hg (fun hfl => .item hkind hfl) n 0) fun _ => .pure _
      | error e =>
        dsimp only
        cases a with
        | false => exact .raise _
        | true => exact .bind (h.near hg fun hfl => .item hkind hfl) fun _ => .pure _
  | dict kf vf kfl r m =>
    rw [hkind] at hk
    cases hk with
    | dict hkf hvf =>
      unfold Lex.dictParse
      refine .bind (.of .mapping) fun kv => ?_
      cases kv with
      | none => exact hd _ _
      | some kv =>
        exact .bind (.of (.iterKeys kv)) fun ks => .bind (.dictLoop hz h hkf hvf (fun hfl => .key hkind hfl) (fun hfl => .val hkind hfl)
          (fun h e => hn.free.keyFilter kf vf h r m (by rw [hkind, e])) ks []) fun _ => .pure _
  | code => exact .of .codeParse
  | uuid => exact .of .uuidParse
  | subform cls reset u =>
    rw [hkind] at hk
    cases hk with
    | subform hu =>
      exact .subParse hz hC h hn.depth (fun g hg hfl => .member hkind hg hfl) reset hu fun g hg => .rest hkind hg
  | poly tf pc ts reset u =>
    rw [hkind] at hk
    cases hk with
    | poly ht hu =>
      exact .polyParse hz hC h hn.depth ht (fun hfl => .type hkind hfl) (fun g hg hfl => .probe hkind hg hfl)
        (fun v cls hv g hg hfl => .variant hkind hv hg hfl) reset hu fun g hg => .variantRest hkind hg
  | group fs =>
    rw [hkind] at hk
    cases hk with
    | group hfs =>
      unfold Lex.groupParse
      refine .bind (.of .mapping) fun kv => ?_
      cases kv with
      | none => exact hd _ _
      | some kv =>
        refine .bind (.of (.iterKeys kv)) fun ks => .bind (.groupLoop hz h hfs (fun x hx hfl => .pick (x := x.1) hkind hx hfl) ks false []) fun r => ?_
        cases r <;> exact .pure _
  | _ => exact .of (.primitive _)

/-! ### `Field.map` -/

/-- Where there is nothing, nothing is parsed. -/
theorem fieldCompute_blank {env : Env} {τ : TSt P} (hA : Sits S 0 o τ) :
    Lex.fieldCompute I L C rec f env τ = Lex.fieldCompute I L C rec' f env τ := by
  unfold Lex.fieldCompute
  rcases hp : τ.path with _ | _ | ⟨r, p⟩
  · have e : T.onPath I.exists_ env τ = (.error (noCtxAttr "src_path"), τ) := by unfold T.onPath; rw [hp]
    rw [T.bind_error e, T.bind_error e]
  · have e : T.onPath I.exists_ env τ = (.error (.attributeError "'NoneType' object has no attribute"), τ) := by
      unfold T.onPath; rw [hp]
    rw [T.bind_error e, T.bind_error e]
  · have hw := hA.wf r p hp
    have hb := S.blank hw (Nat.le_zero.1 (hA.size r p hp))
    have e := T.onPath_run (f := I.exists_) (env := env) hp
    cases hx : (I.exists_ p).1 with
    | error x => rw [hx] at e; rw [T.bind_error e, T.bind_error e]
    | ok b =>
      rw [hx] at e
      rw [T.bind_ok e, T.bind_ok e]
      cases b with
      | false => rfl
      | true =>
        have e2 := T.onPath_run (f := I.isNull) (env := env) (τ := { τ with path := some (some (r, (I.exists_ p).2)) }) rfl
        simp only [Bool.not_true, Bool.false_eq_true, if_false]
        cases hy : (I.isNull (I.exists_ p).2).1 with
        | error x => rw [hy] at e2; rw [T.bind_error e2, T.bind_error e2]
        | ok b =>
          cases b with
          | false => exact absurd hy (hb hx)
          | true => rw [hy] at e2; rw [T.bind_ok e2, T.bind_ok e2]; rfl

theorem Abreast.fieldStart (hC : C.All (Bounded C N K)) (hk : RecTKeeps W rec)
    (h : 1 ≤ z → Calls S C K z rec rec' f) (hf : f.All (Bounded C N K)) :
    Abreast S z o (Lex.fieldStart I L C rec f) (Lex.fieldStart I L C rec' f) := by
  have hn := hf.node.free
  have hc : Abreast S z o (Lex.fieldCompute I L C rec f) (Lex.fieldCompute I L C rec' f) := by
    rcases Nat.eq_zero_or_pos z with h0 | hz
    · subst h0
      exact ⟨.fieldCompute (classes_free hC) hk (bounded_free hf), fun env τ hA => fieldCompute_blank hA⟩
    · unfold Lex.fieldCompute
      rw [hn.fieldParse, hn.fieldParse]
      refine .bind (.of .exists_) fun _ => .ite (fun _ => .pure _) fun _ => .bind (.of .isNull) fun _ =>
        .ite (fun _ => .pure _) fun _ => .tryCatch (.kindParse hz hC (h hz) hf) fun e => .of ?_
      tks
  rw [hn.fieldStart, hn.fieldStart]
  exact .bind hc fun v => .ite (fun _ => .default hn) fun _ => .ite (fun _ => .pure _) fun _ => .check hn v

theorem Abreast.mapFieldF (hz : 1 ≤ z) (hC : C.All (Bounded C N K)) (hk : RecTKeeps W rec)
    (h : let z' := if f.flat N then z else z - 1
      1 ≤ z' → Calls S C K z' rec rec' f) (hf : f.All (Bounded C N K)) :
    Abreast S z o (Lex.mapFieldF I L C rec f .NONE) (Lex.mapFieldF I L C rec' f .NONE) := by
  have hn := hf.node.free
  have hs : Abreast S z o (Lex.withResolve I L C rec f (Lex.fieldStart I L C rec f))
      (Lex.withResolve I L C rec' f (Lex.fieldStart I L C rec' f)) := by
    have h1 := Abreast.fieldStart (o := o) (L := L) hC hk h hf
    unfold Lex.withResolve
    rw [hn.resolve]
    unfold Field.flat at h1
    cases hkind : f.kind <;> rw [hkind] at h1 <;> dsimp only at h1 ⊢
    case group => exact h1
    all_goals
      cases hsrc : noSrc f.core.src
      · rw [hsrc] at h1
        cases hx : N f.core.src with
        | true => rw [hx] at h1; exact .withName hx h1
        | false => rw [hx] at h1; exact .withKey hz _ h1
      · rw [hsrc] at h1; exact h1
  unfold Lex.mapFieldF Lex.fieldMapInner
  refine .bind (.withEnv hs) fun w => ?_
  dsimp only
  exact .of (.ite (fun _ => .bind (.setParent w) fun _ => .pure _) fun _ => .pure _)

theorem Abreast.mapGiven {v : Val} (hn : ValueHooks True f) (hv : v.isNONE = false) :
    Abreast S z o (Lex.mapFieldF I L C rec f v) (Lex.mapFieldF I L C rec' f v) := by
  unfold Lex.mapFieldF Lex.fieldMapInner
  rw [hv]
  refine .bind (.withEnv (.check hn v)) fun w => ?_
  dsimp only
  exact .of (.ite (fun _ => .bind (.setParent w) fun _ => .pure _) fun _ => .pure _)

end

/-! ## Enough recursion -/

section
variable {P : Type} (I : PathOps P) (L : Lib) (C : Classes)

/-- `field.map(value)` where the call that exceeds the recursion budget raises `e`. -/
def Lex.mapFieldOr (e : Exc) : Nat → TRec P
  | 0 => fun _ _ => T.raise e
  | n + 1 => Lex.mapFieldF I L C (Lex.mapFieldOr e n)

variable {I L C} {W : LawfulPath I} {N : Val → Bool} {S : Sized W N} {K : Nat} {o : Option (Nat × Nat)}

theorem mapFieldOr_keeps (hC : C.All (ValueHooks True)) (e : Exc) (n : Nat) : RecTKeeps W (Lex.mapFieldOr I L C e n) := by
  induction n with
  | zero => intro f v _; exact .raise _
  | succ n ih => exact TKeeps.mapFieldF hC ih

/-- The budget is large enough for a field at a place of size `z`. -/
def Suffices (N : Val → Bool) (K z d n : Nat) (f : Field) : Prop := (if f.flat N then z else z - 1) * K + d ≤ n

theorem mapFieldOr_abreast (hC : C.All (Bounded C N K)) (e e' : Exc) : ∀ (n m z d : Nat) (f : Field),
    1 ≤ z → f.All (Bounded C N K) → Depth C N d f → Suffices N K z d n f → Suffices N K z d m f →
    Abreast S z none (Lex.mapFieldOr I L C e n f .NONE) (Lex.mapFieldOr I L C e' m f .NONE) := by
  intro n
  induction n with
  | zero =>
    intro m z d f _ _ hd hn _
    have := hd.pos
    unfold Suffices at hn
    omega
  | succ n ih =>
    intro m z d f hz hf hd hn hm
    have hd1 := hd.pos
    unfold Suffices at hn hm
    obtain ⟨m, rfl⟩ : ∃ m', m = m' + 1 := ⟨m - 1, by omega⟩
    have hC' := classes_free hC
    refine Abreast.mapFieldF hz hC (mapFieldOr_keeps hC' e n) ?_ hf
    intro z' hz'
    have hK := hf.node.depth.pos
    have hmul : z' * K = (z' - 1) * K + K := by
      obtain ⟨y, hy⟩ : ∃ y, z' = y + 1 := ⟨z' - 1, by omega⟩
      rw [hy]; simp [Nat.add_mul]
    have hn' : z' * K + d ≤ n + 1 := hn
    have hm' : z' * K + d ≤ m + 1 := hm
    have hle : ∀ y, (y - 1) * K ≤ y * K := fun y => Nat.mul_le_mul_right K (by omega)
    refine ⟨mapFieldOr_keeps hC' e n, ?_, ?_, ?_⟩
    · intro g hg hfl
      refine ih m z' K g hz' hg hg.node.depth ?_ ?_ <;>
      · unfold Suffices
        rw [hfl]
        simp only [Bool.false_eq_true, if_false]
        omega
    · intro g hg hi
      refine ih m z' (d - 1) g hz' hg (hd.inline hi) ?_ ?_ <;>
      · unfold Suffices
        have := hle z'
        split <;> omega
    · intro g v hg hv
      obtain ⟨n, rfl⟩ : ∃ n', n = n' + 1 := ⟨n - 1, by omega⟩
      obtain ⟨m, rfl⟩ : ∃ m', m = m' + 1 := ⟨m - 1, by omega⟩
      exact Abreast.mapGiven hg.node.free hv

end
end Pilo
