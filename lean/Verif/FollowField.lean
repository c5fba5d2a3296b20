import Verif.Follow

/-!
# Fields that follow the rules of reading

`Tread` are four relations between the paths of two sources: what was just reached by a key (`Key`), what is known to be
there (`Fresh`), what was read as a mapping or sequence so that keys can be appended (`Open`), and what can only be left
again (`Loose`).  Fields whose hooks are functions of the value
that read in this order end alike at both sources (`Tread.body`).
-/

namespace Pilo

/-- Not a date, time, UUID. -/
def Val.plainData : Val → Bool
  | .ext _ _ => false
  | _ => true

/-- Two sources read step by step.  Positions are sequences of keys. -/
structure Tread {P : Type} (I : PathOps P) where
  Open : List Val → P → P → Prop
  Key : List Val → P → P → Prop
  Fresh : List Val → P → P → Prop
  Loose : List Val → P → P → Prop
  /-- a mapping -/
  Named : List Val → Prop
  /-- a key that can be appended -/
  IsKey : List Val → Val → Prop
  key_null : ∀ {l k}, IsKey l k → k.isNull = false ∧ k.isNONE = false
  named_key : ∀ {l s}, Named l → hasDot s = false → IsKey l (.str s)
  fresh_key : ∀ {l p q}, Fresh l p q → Key l p q
  key_loose : ∀ {l p q}, Key l p q → Loose l p q
  open_loose : ∀ {l p q}, Open l p q → Loose l p q
  exists_ : ∀ {l p q a}, Key l p q → (I.exists_ p).1 = .ok a →
    (I.exists_ q).1 = .ok a ∧ Key l (I.exists_ p).2 (I.exists_ q).2 ∧
      (a = true → Fresh l (I.exists_ p).2 (I.exists_ q).2)
  isNull : ∀ {l p q a}, Fresh l p q → (I.isNull p).1 = .ok a →
    (I.isNull q).1 = .ok a ∧ Fresh l (I.isNull p).2 (I.isNull q).2
  value : ∀ {l p q a}, Fresh l p q → (I.value p).1 = .ok a →
    ∃ b, (I.value q).1 = .ok b ∧ (a.plainData = true ∧ b.plainData = true) ∧ Fresh l (I.value p).2 (I.value q).2
  primitive : ∀ {l p q ty a}, ty ≠ .auto → Fresh l p q → (I.primitive ty p).1 = .ok a →
    (I.primitive ty q).1 = .ok a ∧ Loose l (I.primitive ty p).2 (I.primitive ty q).2
  mapping : ∀ {l p q a}, Fresh l p q → (I.mapping p).1 = .ok a →
    (I.mapping q).1 = .ok a ∧ (Named l ∧ ∀ kv, a = some kv → ∀ k ∈ kv.ks, IsKey l k) ∧
      Open l (I.mapping p).2 (I.mapping q).2
  sequence : ∀ {l p q n}, Fresh l p q → (I.sequence p).1 = .ok n →
    (I.sequence q).1 = .ok n ∧ (∀ i : Nat, i < n → IsKey l (.int i)) ∧ Open l (I.sequence p).2 (I.sequence q).2
  noSequence : ∀ {l p q e}, Fresh l p q → (I.sequence p).1 = .error e →
    ∃ e', (I.sequence q).1 = .error e' ∧ e'.isSourceError = true ∧ Fresh l (I.sequence p).2 (I.sequence q).2
  hasSrc : ∀ {l p q}, Fresh l p q → I.hasSrc q = true
  append : ∀ {l p q k p'}, IsKey l k → Open l p q → I.append p k = .ok p' →
    ∃ q', I.append q k = .ok q' ∧ Key (l ++ [k]) p' q'
  pop : ∀ {l p q k p'}, Loose (l ++ [k]) p q → I.pop p = .ok p' → ∃ q', I.pop q = .ok q' ∧ Open l p' q'

/-- The same with neither source before the other: what can be read at one can be read at the other one. -/
structure Pace {P : Type} (I : PathOps P) where
  Open : List Val → P → P → Prop
  Key : List Val → P → P → Prop
  Fresh : List Val → P → P → Prop
  Loose : List Val → P → P → Prop
  Named : List Val → Prop
  IsKey : List Val → Val → Prop
  key_null : ∀ {l k}, IsKey l k → k.isNull = false ∧ k.isNONE = false
  named_key : ∀ {l s}, Named l → hasDot s = false → IsKey l (.str s)
  fresh_key : ∀ {l p q}, Fresh l p q → Key l p q
  key_loose : ∀ {l p q}, Key l p q → Loose l p q
  open_loose : ∀ {l p q}, Open l p q → Loose l p q
  exists_ : ∀ {l p q}, Key l p q → ∃ a, (I.exists_ p).1 = .ok a ∧ (I.exists_ q).1 = .ok a ∧
    Key l (I.exists_ p).2 (I.exists_ q).2 ∧ (a = true → Fresh l (I.exists_ p).2 (I.exists_ q).2)
  isNull : ∀ {l p q}, Fresh l p q → ∃ a, (I.isNull p).1 = .ok a ∧ (I.isNull q).1 = .ok a ∧
    Fresh l (I.isNull p).2 (I.isNull q).2
  value : ∀ {l p q}, Fresh l p q → ∃ a b, (I.value p).1 = .ok a ∧ (I.value q).1 = .ok b ∧
    (a.plainData = true ∧ b.plainData = true) ∧ Fresh l (I.value p).2 (I.value q).2
  primitive : ∀ {l p q ty}, ty ≠ .auto → Fresh l p q →
    (∃ a, (I.primitive ty p).1 = .ok a ∧ (I.primitive ty q).1 = .ok a ∧
      Loose l (I.primitive ty p).2 (I.primitive ty q).2) ∨
    ∃ e e', (I.primitive ty p).1 = .error e ∧ (I.primitive ty q).1 = .error e'
  mapping : ∀ {l p q}, Fresh l p q →
    (∃ a, (I.mapping p).1 = .ok a ∧ (I.mapping q).1 = .ok a ∧
      (Named l ∧ ∀ kv, a = some kv → ∀ k ∈ kv.ks, IsKey l k) ∧ Open l (I.mapping p).2 (I.mapping q).2) ∨
    ∃ e e', (I.mapping p).1 = .error e ∧ (I.mapping q).1 = .error e'
  sequence : ∀ {l p q}, Fresh l p q →
    (∃ n, (I.sequence p).1 = .ok n ∧ (I.sequence q).1 = .ok n ∧ (∀ i : Nat, i < n → IsKey l (.int i)) ∧
      Open l (I.sequence p).2 (I.sequence q).2) ∨
    ∃ e e', (I.sequence p).1 = .error e ∧ (I.sequence q).1 = .error e' ∧
      (e.isSourceError = true ∧ e'.isSourceError = true) ∧ Fresh l (I.sequence p).2 (I.sequence q).2
  hasSrc : ∀ {l p q}, Fresh l p q → I.hasSrc p = true ∧ I.hasSrc q = true
  append : ∀ {l p q k}, IsKey l k → Open l p q →
    ∃ p' q', I.append p k = .ok p' ∧ I.append q k = .ok q' ∧ Key (l ++ [k]) p' q'
  pop : ∀ {l p q k}, Loose (l ++ [k]) p q → ∃ p' q', I.pop p = .ok p' ∧ I.pop q = .ok q' ∧ Open l p' q'

/-- From the first source to the second one. -/
def Pace.fwd {P : Type} {I : PathOps P} (Y : Pace I) : Tread I where
  Open := Y.Open
  Key := Y.Key
  Fresh := Y.Fresh
  Loose := Y.Loose
  Named := Y.Named
  IsKey := Y.IsKey
  key_null := Y.key_null
  named_key := Y.named_key
  fresh_key := Y.fresh_key
  key_loose := Y.key_loose
  open_loose := Y.open_loose
  exists_ h ha := by
    obtain ⟨a, h1, h2, h3⟩ := Y.exists_ h
    rw [h1] at ha; cases ha
    exact ⟨h2, h3⟩
  isNull h ha := by
    obtain ⟨a, h1, h2, h3⟩ := Y.isNull h
    rw [h1] at ha; cases ha
    exact ⟨h2, h3⟩
  value h ha := by
    obtain ⟨a, b, h1, h2, h3, h4⟩ := Y.value h
    rw [h1] at ha; cases ha
    exact ⟨b, h2, h3, h4⟩
  primitive ht h ha := by
    obtain ⟨a, h1, h2, h3⟩ | ⟨e, e', h1, h2⟩ := Y.primitive ht h
    · rw [h1] at ha; cases ha
      exact ⟨h2, h3⟩
    · rw [h1] at ha; cases ha
  mapping h ha := by
    obtain ⟨a, h1, h2, h3⟩ | ⟨e, e', h1, h2⟩ := Y.mapping h
    · rw [h1] at ha; cases ha
      exact ⟨h2, h3⟩
    · rw [h1] at ha; cases ha
  sequence h ha := by
    obtain ⟨a, h1, h2, h3⟩ | ⟨e, e', h1, h2, -⟩ := Y.sequence h
    · rw [h1] at ha; cases ha
      exact ⟨h2, h3⟩
    · rw [h1] at ha; cases ha
  noSequence h ha := by
    obtain ⟨a, h1, h2, h3⟩ | ⟨e, e', h1, h2, h3, h4⟩ := Y.sequence h
    · rw [h1] at ha; cases ha
    · exact ⟨e', h2, h3.2, h4⟩
  hasSrc h := (Y.hasSrc h).2
  append hk h ha := by
    obtain ⟨p', q', h1, h2, h3⟩ := Y.append hk h
    rw [h1] at ha; cases ha
    exact ⟨q', h2, h3⟩
  pop h ha := by
    obtain ⟨p', q', h1, h2, h3⟩ := Y.pop h
    rw [h1] at ha; cases ha
    exact ⟨q', h2, h3⟩

/-- From the second source to the first one. -/
def Pace.back {P : Type} {I : PathOps P} (Y : Pace I) : Tread I where
  Open l p q := Y.Open l q p
  Key l p q := Y.Key l q p
  Fresh l p q := Y.Fresh l q p
  Loose l p q := Y.Loose l q p
  Named := Y.Named
  IsKey := Y.IsKey
  key_null := Y.key_null
  named_key := Y.named_key
  fresh_key h := Y.fresh_key h
  key_loose h := Y.key_loose h
  open_loose h := Y.open_loose h
  exists_ h ha := by
    obtain ⟨a, h1, h2, h3⟩ := Y.exists_ h
    rw [h2] at ha; cases ha
    exact ⟨h1, h3⟩
  isNull h ha := by
    obtain ⟨a, h1, h2, h3⟩ := Y.isNull h
    rw [h2] at ha; cases ha
    exact ⟨h1, h3⟩
  value h ha := by
    obtain ⟨a, b, h1, h2, h3, h4⟩ := Y.value h
    rw [h2] at ha; cases ha
    exact ⟨a, h1, h3.symm, h4⟩
  primitive ht h ha := by
    obtain ⟨a, h1, h2, h3⟩ | ⟨e, e', h1, h2⟩ := Y.primitive ht h
    · rw [h2] at ha; cases ha
      exact ⟨h1, h3⟩
    · rw [h2] at ha; cases ha
  mapping h ha := by
    obtain ⟨a, h1, h2, h3⟩ | ⟨e, e', h1, h2⟩ := Y.mapping h
    · rw [h2] at ha; cases ha
      exact ⟨h1, h3⟩
    · rw [h2] at ha; cases ha
  sequence h ha := by
    obtain ⟨a, h1, h2, h3⟩ | ⟨e, e', h1, h2, -⟩ := Y.sequence h
    · rw [h2] at ha; cases ha
      exact ⟨h1, h3⟩
    · rw [h2] at ha; cases ha
  noSequence h ha := by
    obtain ⟨a, h1, h2, h3⟩ | ⟨e, e', h1, h2, h3, h4⟩ := Y.sequence h
    · rw [h2] at ha; cases ha
    · exact ⟨e, h1, h3.1, h4⟩
  hasSrc h := (Y.hasSrc h).1
  append hk h ha := by
    obtain ⟨p', q', h1, h2, h3⟩ := Y.append hk h
    rw [h2] at ha; cases ha
    exact ⟨p', h1, h3⟩
  pop h ha := by
    obtain ⟨p', q', h1, h2, h3⟩ := Y.pop h
    rw [h2] at ha; cases ha
    exact ⟨p', h1, h3⟩

/-- The kinds of field that read a source in this order: everything but `Field` itself, `Decimal`, `Code`, `UUID`,
`PolymorphicSubForm` and `Group`; items without a `src` of their own; nothing that captures the keys left. -/
def Kind.Stepwise : Kind → Prop
  | .string _ => True
  | .integer _ => True
  | .float _ => True
  | .boolean => True
  | .date _ => True
  | .time _ => True
  | .datetime _ => True
  | .list g _ _ _ => noSrc g.core.src = true
  | .tuple fs => ∀ g ∈ fs, noSrc g.core.src = true
  | .dict _ vf kfl _ _ => kfl = none ∧ noSrc vf.core.src = true
  | .subform _ _ u => u = .str .ignore ∨ u = .str .none
  | _ => False

/-- A field that reads in this order and whose hooks are functions of the value. -/
def Field.Stepwise (f : Field) : Prop := ValueHooks True f ∧ f.kind.Stepwise

/-- The `src` of a field of a form: a name without dots. -/
def Field.PlainSrc (f : Field) : Prop := ∃ s, f.core.src = .str s ∧ hasDot s = false

namespace Follow
open Lax
variable {P : Type} {I : PathOps P} {W : LawfulPath I} {X : Tread I} {L : Lib} {C : Classes} {rec : TRec P}
  {A B : P → P → Prop}

/-- What is there can be read. -/
theorem Run.exists_ {α : Type} {R : α → α → Prop} {l : List Val} {f g : Bool → T P α}
    (h0 : Run (X.Key l) B R (f false) (g false)) (h1 : Run (X.Fresh l) B R (f true) (g true)) :
    Run (X.Key l) B R (T.onPath I.exists_ >>= f) (T.onPath I.exists_ >>= g) := by
  intro env τ σ hv hr c hc
  rcases hr.path with ⟨hp, -⟩ | ⟨r, p, r', q, hp, hp', hq⟩
  · obtain ⟨e, he⟩ := onPath_nowhere (f := I.exists_) (env := env) hp
    rw [T.bind_error he] at hc
    cases hc.1
  have e1 := T.onPath_run (f := I.exists_) (env := env) hp
  have e2 := T.onPath_run (f := I.exists_) (env := env) hp'
  cases ha : (I.exists_ p).1 with
  | error e =>
    rw [ha] at e1
    rw [T.bind_error e1] at hc
    cases hc.1
  | ok a =>
    obtain ⟨h2, h3, h4⟩ := X.exists_ hq ha
    rw [ha] at e1
    rw [h2] at e2
    rw [T.bind_ok e1] at hc ⊢
    rw [T.bind_ok e2]
    cases a with
    | false => exact h0 env _ _ hv (hr.setPath h3) c hc
    | true => exact h1 env _ _ hv (hr.setPath (h4 rfl)) c hc

theorem Run.isNull {l : List Val} : Run (X.Fresh l) (X.Fresh l) Eq (T.onPath I.isNull) (T.onPath I.isNull) :=
  .read fun h ha => ⟨_, (X.isNull h ha).1, rfl, (X.isNull h ha).2⟩

theorem Run.value {l : List Val} : Run (X.Fresh l) (X.Fresh l) (fun a b => a.plainData = true ∧ b.plainData = true)
    (T.onPath I.value) (T.onPath I.value) := .read fun h ha => X.value h ha

theorem Run.primitive {l : List Val} {ty : PTy} (ht : ty ≠ .auto) :
    Run (X.Fresh l) (X.Loose l) Eq (T.onPath (I.primitive ty)) (T.onPath (I.primitive ty)) :=
  .read fun h ha => ⟨_, (X.primitive ht h ha).1, rfl, (X.primitive ht h ha).2⟩

theorem Run.mapping {l : List Val} : Run (X.Fresh l) (X.Open l)
    (fun a b => a = b ∧ X.Named l ∧ ∀ kv, a = some kv → ∀ k ∈ kv.ks, X.IsKey l k)
    (T.onPath I.mapping) (T.onPath I.mapping) :=
  .read fun h ha => ⟨_, (X.mapping h ha).1, ⟨rfl, (X.mapping h ha).2.1⟩, (X.mapping h ha).2.2⟩

theorem Run.sequence {l : List Val} : Run (X.Fresh l) (X.Open l) (fun n m => n = m ∧ ∀ i : Nat, i < n → X.IsKey l (.int i))
    (T.onPath I.sequence) (T.onPath I.sequence) :=
  .read fun h ha => ⟨_, (X.sequence h ha).1, ⟨rfl, (X.sequence h ha).2.1⟩, (X.sequence h ha).2.2⟩

/-- Below a key. -/
theorem Run.atKey {α : Type} {R : α → α → Prop} {l : List Val} {k : Val} (hk : X.IsKey l k) {t u : T P α}
    (h : Run (X.Key (l ++ [k])) (X.Loose (l ++ [k])) R t u) :
    Run (X.Open l) (X.Open l) R (T.withKey I k t) (T.withKey I k u) :=
  .withKey (X.key_null hk).1 (fun h hp => X.append hk h hp) (fun h hp => X.pop h hp) h

/-- The list or, when there is none, the same place again. -/
theorem Run.seqTry {α : Type} {R : α → α → Prop} {l : List Val} {f g : Except Exc Nat → T P α}
    (hok : ∀ n, (∀ i : Nat, i < n → X.IsKey l (.int i)) → Run (X.Open l) B R (f (.ok n)) (g (.ok n)))
    (herr : ∀ e e', Run (X.Fresh l) B R (f (.error e)) (g (.error e'))) :
    Run (X.Fresh l) B R (Lex.seqTry I >>= f) (Lex.seqTry I >>= g) := by
  intro env τ σ hv hr c hc
  rcases hr.path with ⟨h1, -⟩ | ⟨r, p, r', q, h1, h2, hq⟩
  · have : ∃ e, Lex.seqTry I env τ = (.error e, τ) := by
      unfold Lex.seqTry T.tryCatch
      obtain ⟨e, he⟩ := onPath_nowhere (f := I.sequence) (env := env) h1
      rw [T.bind_error he]
      dsimp only
      obtain ⟨e', he'⟩ := onPath_nowhere (f := fun p => (.ok (I.hasSrc p), p)) (env := env) h1
      unfold Lex.pathHasSrc
      exact ⟨_, T.bind_error he'⟩
    obtain ⟨e, he⟩ := this
    rw [T.bind_error he] at hc
    cases hc.1
  have e1 := T.onPath_run (f := I.sequence) (env := env) h1
  have e2 := T.onPath_run (f := I.sequence) (env := env) h2
  cases hs : (I.sequence p).1 with
  | ok n =>
    obtain ⟨g1, g2, g3⟩ := X.sequence hq hs
    have t1 : Lex.seqTry I env τ = (.ok (.ok n), { τ with path := some (some (r, (I.sequence p).2)) }) := by
      unfold Lex.seqTry T.tryCatch
      rw [hs] at e1
      rw [T.bind_ok e1]; rfl
    have t2 : Lex.seqTry I env σ = (.ok (.ok n), { σ with path := some (some (r', (I.sequence q).2)) }) := by
      unfold Lex.seqTry T.tryCatch
      rw [g1] at e2
      rw [T.bind_ok e2]; rfl
    rw [T.bind_ok t1] at hc ⊢
    rw [T.bind_ok t2]
    exact hok n g2 env _ _ hv (hr.setPath g3) c hc
  | error e =>
    obtain ⟨e', g1, g2, g3⟩ := X.noSequence hq hs
    have t1 : ∃ τ', Lex.seqTry I env τ = (.ok (.error e), { τ with path := some (some (r, (I.sequence p).2)) }) ∨
        ∃ x, Lex.seqTry I env τ = (.error x, τ') := by
      unfold Lex.seqTry T.tryCatch
      rw [hs] at e1
      rw [T.bind_error e1]
      dsimp only
      unfold Lex.pathHasSrc
      have e3 := T.onPath_run (τ := { τ with path := some (some (r, (I.sequence p).2)) })
        (f := fun p => (Except.ok (I.hasSrc p), p)) (env := env) rfl
      rw [T.bind_ok e3]
      split
      · exact ⟨_, .inr ⟨_, rfl⟩⟩
      · split
        · exact ⟨τ, .inl rfl⟩
        · exact ⟨_, .inr ⟨_, rfl⟩⟩
    have t2 : Lex.seqTry I env σ = (.ok (.error e'), { σ with path := some (some (r', (I.sequence q).2)) }) := by
      unfold Lex.seqTry T.tryCatch
      rw [g1] at e2
      rw [T.bind_error e2]
      dsimp only
      unfold Lex.pathHasSrc
      have e3 := T.onPath_run (τ := { σ with path := some (some (r', (I.sequence q).2)) })
        (f := fun p => (Except.ok (I.hasSrc p), p)) (env := env) rfl
      rw [T.bind_ok e3, X.hasSrc g3, g2]
      rfl
    obtain ⟨τ', t1 | ⟨x, t1⟩⟩ := t1
    · rw [T.bind_ok t1] at hc ⊢
      rw [T.bind_ok t2]
      exact herr e e' env _ _ hv (hr.setPath g3) c hc
    · rw [T.bind_error t1] at hc
      cases hc.1

/-! ### `_parse` -/

section
variable (W)

/-- The fields of all classes. -/
structure Fitting (C : Classes) : Prop where
  all : C.All Field.Stepwise
  src : ∀ cls, ∀ f ∈ (C cls).fields, f.PlainSrc

theorem fit (f : Field) (h : f.Stepwise) : (Lax.closed W L C).Fit f := ⟨h.1, .inl ⟨trivial, fun h => h.elim⟩⟩

theorem Fitting.fit (h : Fitting C) : C.All (Lax.closed W L C).Fit := h.all.imp (Follow.fit W)

end

/-- The recursive call follows at fresh places, and at any place when the value is given. -/
structure RecRun (X : Tread I) (L : Lib) (C : Classes) (rec : TRec P) : Prop where
  lex : ∃ n, rec = Lex.mapField I L C n
  item : ∀ f, f.All Field.Stepwise → noSrc f.core.src = true → ∀ l,
    Run (X.Key l) (X.Loose l) Eq (rec f .NONE) (rec f .NONE)
  field : ∀ f, f.All Field.Stepwise → f.PlainSrc → ∀ l, X.Named l →
    Run (X.Open l) (X.Open l) Eq (rec f .NONE) (rec f .NONE)
  given : ∀ f, f.All Field.Stepwise → ∀ v, v.isNONE = false → ∀ A, Run A A Eq (rec f v) (rec f v)

section
variable (hr : RecRun X L C rec) (hC : Fitting C)
include hr

theorem RecRun.recU (W : LawfulPath I) (hC : Fitting C) : (Lax.closed W L C).RecU rec := by
  obtain ⟨n, rfl⟩ := hr.lex
  exact Closed.mapField (K := Lax.closed W L C) (hC.fit W) n

include hC

theorem RecRun.adding (W : LawfulPath I) {f : Field} (hf : f.All Field.Stepwise) (v : Val) : Adding (rec f v) :=
  ((hr.recU W hC).2 f v (hf.imp (fit W))).2.1

theorem Run.listLoop (W : LawfulPath I) {f : Field} (hf : f.All Field.Stepwise) (hs : noSrc f.core.src = true) {l : List Val} :
    ∀ n i, (∀ j : Nat, j < i + n → X.IsKey l (.int j)) →
      Run (X.Open l) (X.Open l) Eq (Lex.listLoop I rec f i n) (Lex.listLoop I rec f i n)
  | 0, i, _ => .pure rfl
  | n + 1, i, hk => by
    have hA : ∀ i, Adding (Lex.listLoop I rec f i n) := fun i =>
      (Closed.listLoop (hr.recU W hC) (hf.imp (fit W)) n i).2.1
    unfold Lex.listLoop
    refine .bind (.withKey (hr.adding hC W hf _)) (.atKey (hk i (by omega)) (hr.item f hf hs _))
      (fun _ => .bind (hA _) fun _ => .pure _) fun a _ h => ?_
    subst h
    refine .bind (hA _) (Run.listLoop W hf hs n (i + 1) fun j hj => hk j (by omega)) (fun _ => .pure _) fun b _ h => ?_
    subst h
    exact .pure rfl

theorem Run.tupleLoop (W : LawfulPath I) {l : List Val} : ∀ (fs : List Field) i, (∀ f ∈ fs, f.All Field.Stepwise) →
    (∀ f ∈ fs, noSrc f.core.src = true) → (∀ j : Nat, j < i + fs.length → X.IsKey l (.int j)) →
      Run (X.Open l) (X.Open l) Eq (Lex.tupleLoop I rec i fs) (Lex.tupleLoop I rec i fs)
  | [], i, _, _, _ => .pure rfl
  | f :: fs, i, hf, hs, hk => by
    rw [List.length_cons] at hk
    have hA : ∀ i, Adding (Lex.tupleLoop I rec i fs) := fun i =>
      (Closed.tupleLoop (hr.recU W hC) fs (fun g hg => (hf g (by simp [hg])).imp (fit W)) i).2.1
    unfold Lex.tupleLoop
    refine .bind (.withKey (hr.adding hC W (hf f (by simp)) _)) (.atKey (hk i (by omega)) (hr.item f (hf f (by simp))
      (hs f (by simp)) _)) (fun _ => .bind (hA _) fun _ => .pure _) fun a _ h => ?_
    subst h
    refine .bind (hA _) (Run.tupleLoop W fs (i + 1) (fun g hg => hf g (by simp [hg])) (fun g hg => hs g (by simp [hg]))
      fun j hj => hk j (by omega)) (fun _ => .pure _) fun b _ h => ?_
    subst h
    exact .pure rfl

theorem Run.dictLoop (W : LawfulPath I) {kf vf : Field} (hkf : kf.All Field.Stepwise) (hvf : vf.All Field.Stepwise)
    (hs : noSrc vf.core.src = true) {l : List Val} : ∀ (ks : List Val) acc, (∀ k ∈ ks, X.IsKey l k) →
      Run (X.Open l) (X.Open l) Eq (Lex.dictLoop I L C rec kf vf none ks acc) (Lex.dictLoop I L C rec kf vf none ks acc)
  | [], acc, _ => .pure rfl
  | k :: ks, acc, hk => by
    have hA : ∀ acc, Adding (Lex.dictLoop I L C rec kf vf none ks acc) := fun acc =>
      (Closed.dictLoop (hr.recU W hC) (hkf.imp (fit W)) (hvf.imp (fit W)) (fun h e => by cases e) ks acc).2.1
    have ih := fun acc => Run.dictLoop W hkf hvf hs ks acc (fun k hk' => hk k (by simp [hk']))
    have hA1 : ∀ v k' : Val, Adding (if k'.isIgnore then Lex.dictLoop I L C rec kf vf none ks acc
        else if !k'.hashable then T.raise (.typeError "unhashable type")
        else Lex.dictLoop I L C rec kf vf none ks (dictSet acc k' v)) := fun v k' =>
      .ite (hA _) (.ite (.raise _) (hA _))
    have hA2 : ∀ v : Val, Adding (if v.isIgnore then Lex.dictLoop I L C rec kf vf none ks acc else (do
        let k' ← rec kf k
        if k'.isIgnore then Lex.dictLoop I L C rec kf vf none ks acc
        else if !k'.hashable then T.raise (.typeError "unhashable type")
        else Lex.dictLoop I L C rec kf vf none ks (dictSet acc k' v))) := fun v =>
      .ite (hA _) (.bind (hr.adding hC W hkf _) fun _ => hA1 _ _)
    unfold Lex.dictLoop
    show Run (X.Open l) (X.Open l) Eq (T.withKey I k (rec vf .NONE) >>= _) (T.withKey I k (rec vf .NONE) >>= _)
    refine .bind (.withKey (hr.adding hC W hvf _)) (.atKey (hk k (by simp)) (hr.item vf hvf hs _)) (fun v => hA2 v)
      fun v _ h => ?_
    subst h
    refine .ite (fun _ => ih _) fun _ => ?_
    refine .bind (hr.adding hC W hkf _) (hr.given kf hkf k (X.key_null (hk k (by simp))).2 _) (fun _ => hA1 _ _) fun k' _ h => ?_
    subst h
    exact .ite (fun _ => ih _) fun _ => .ite (fun _ => .raise _ _) fun _ => ih _

/-! ### Forms -/

theorem Run.mapFields (W : LawfulPath I) {l : List Val} (hl : X.Named l) (id : Nat) (tags : List String) :
    ∀ fs : List Field, (∀ f ∈ fs, f.All Field.Stepwise) → (∀ f ∈ fs, f.PlainSrc) →
      Run (X.Open l) (X.Open l) Eq (Lex.mapFields rec id tags fs) (Lex.mapFields rec id tags fs)
  | [], _, _ => .pure rfl
  | f :: fs, hf, hs => by
    have hA : Adding (Lex.mapFields rec id tags fs) :=
      (Closed.mapFields (hr.recU W hC) tags fs (fun g hg => (hf g (by simp [hg])).imp (fit W))).2.1
    have hA1 : Adding (Lex.mapOne rec id tags f) := (Closed.mapOne (hr.recU W hC) tags ((hf f (by simp)).imp (fit W))).2.1
    unfold Lex.mapFields
    refine .bind (R := Eq) hA1 ?_ (fun _ => hA) fun _ _ _ =>
      Run.mapFields W hl id tags fs (fun g hg => hf g (by simp [hg])) (fun g hg => hs g (by simp [hg]))
    unfold Lex.mapOne
    refine .ite (fun _ => ?_) fun _ => .pure rfl
    refine .bind (hr.adding hC W (hf f (by simp)) _) (hr.field f (hf f (by simp)) (hs f (by simp)) l hl)
      (fun _ => .ite (.pure _) (.formModify _ _)) fun v _ h => ?_
    subst h
    exact .ite (fun _ => .pure rfl) fun _ => .formModify _ _

/-- The mapping of a form, from where `mapping()` can be called. -/
theorem Run.formMapBody (W : LawfulPath I) {l : List Val} {A : P → P → Prop}
    (hm : Run A (X.Open l) (fun _ _ => X.Named l) (T.onPath I.mapping) (T.onPath I.mapping)) (id : Nat) (tags : List String)
    {u : Unmapped} (hu : u = .str .ignore ∨ u = .str .none) :
    Run A (X.Open l) Eq (Lex.formMapBody I C rec id tags u) (Lex.formMapBody I C rec id tags u) := by
  have hA : ∀ fs : List Field, (∀ f ∈ fs, f.All Field.Stepwise) → Adding (Lex.mapFields rec id tags fs) := fun fs hf =>
    (Closed.mapFields (hr.recU W hC) tags fs (fun g hg => (hf g hg).imp (fit W))).2.1
  have hAu : Adding (Lex.applyUnmapped rec id u) := by rcases hu with rfl | rfl <;> exact .pure _
  have hA1 : ∀ cls, Adding (do
      T.withEnv (fun env => { env with form := some id, parent := some (.form id) })
        (Lex.mapFields rec id tags (C cls).fields)
      Lex.applyUnmapped rec id u) := fun cls => .bind (.withEnv _ (hA _ (hC.all cls))) fun _ => hAu
  unfold Lex.formMapBody
  refine .bind (.onPath _) hm (fun _ => .bind (.formCls _) fun cls => hA1 cls) fun _ _ hl => ?_
  refine .bind (.formCls _) (.formCls _) (fun cls => hA1 cls) fun cls _ h => ?_
  subst h
  refine .bind (.withEnv _ (hA _ (hC.all cls))) (.withEnv (fun env => { env with form := some id, parent := some (.form id) })
    (fun _ => rfl) (Run.mapFields hr hC W hl id tags _ (hC.all cls) (hC.src cls))) (fun _ => hAu) fun _ _ _ => ?_
  rcases hu with rfl | rfl <;> exact .pure rfl

omit hr hC in
theorem Run.formResetIf (I : PathOps P) (id : Nat) (tags : List String) (reset : Bool) (A : P → P → Prop) :
    Run A A Eq (Lex.formResetIf C id tags reset : T P Unit) (Lex.formResetIf C id tags reset) :=
  .ofShut (.formResetIf (Y := shutLax I A) _ _ _)

/-- `SubForm._parse`. -/
theorem Run.subParse (W : LawfulPath I) {l : List Val} (cls : Nat) (reset : Bool) {u : Unmapped}
    (hu : u = .str .ignore ∨ u = .str .none) :
    Run (X.Fresh l) (X.Loose l) Eq (Lex.subParse I C rec cls reset u) (Lex.subParse I C rec cls reset u) := by
  have hAu : ∀ id tags, Adding (Lex.formMapBody I C rec id tags u) := fun id tags =>
    (Closed.formMapBody (K := Lax.closed W L C) trivial (hC.fit W) (hr.recU W hC) (id := id) trivial tags
      (by rcases hu with rfl | rfl <;> exact .str)).2.1
  have hbody : ∀ id tags, Run (X.Fresh l) (X.Open l) Eq (Lex.formMapBody I C rec id tags u)
      (Lex.formMapBody I C rec id tags u) := fun id tags =>
    Run.formMapBody hr hC W (Run.mapping.weaken (fun _ _ h => h) (fun _ _ h => h) fun _ _ h => h.2.1) id tags hu
  have hA2 : ∀ id tags, Adding (Lex.formMap I C rec id .none tags reset u false) := by
    obtain ⟨n, rfl⟩ := hr.lex
    exact fun id tags => .formMap id _ tags reset u false
  unfold Lex.subParse
  refine .bind (.state fun _ _ => ⟨_, _, rfl⟩) (.newForm cls) (fun id => .bind (hA2 _ _) fun _ => .pure _) fun id _ h => ?_
  subst h
  have hp : ∀ {β : Type} (es : List Err) (f : List Err → T P β), (T.pure es >>= f) = f es := fun _ _ => rfl
  have hsh : ∀ ct, (Lex.formMapAt I C rec id .none (pickTags [] ct) u false true >>= fun es =>
      Lex.formFinish false es >>= fun es => T.pure (if es.isEmpty then Val.form id else .ERROR)) =
      (T.withErrs false (Lex.formMapBody I C rec id (pickTags [] ct) u) >>= fun x => T.extend x.2 >>= fun _ =>
        T.pure (if x.2.isEmpty then Val.form id else .ERROR)) := by
    intro ct
    have hfin : ∀ es : List Err, (Lex.formFinish false es : T P _) = T.pure es := fun _ => rfl
    have e : Lex.formMapAt I C rec id .none (pickTags [] ct) u false true =
        Lex.nestedMap I C rec id (pickTags [] ct) u false := rfl
    rw [e]
    unfold Lex.nestedMap
    simp only [T.bind_assoc, hfin, hp]
  have hA3 : ∀ ct, Adding (Lex.formMapAt I C rec id .none (pickTags [] ct) u false true >>= fun es =>
      Lex.formFinish false es >>= fun es => T.pure (if es.isEmpty then Val.form id else .ERROR)) := fun ct => by
    rw [hsh]
    exact .bind (.withErrs _ _) fun _ => .bind (.extend _) fun _ => .pure _
  have hA4 : ∀ ct cs, Adding (Lex.formMapAt I C rec id .none (pickTags [] ct) u false cs >>= fun es =>
      Lex.formFinish false es >>= fun es => T.pure (if es.isEmpty then Val.form id else .ERROR)) := fun ct cs => by
    cases cs with
    | true => exact hA3 ct
    | false =>
      refine .bind (.bind (.rootSource _ _) fun _ => .bind (.withErrs _ _) fun _ => .pure _) fun es => ?_
      exact .bind (.pure _) fun _ => .pure _
  unfold Lex.formMap
  simp only [T.bind_assoc]
  refine .bind (.same fun _ _ => rfl) (.ctxGet? _) (fun ct => .bind (.formResetIf _ _ _) fun _ => .bind (.ctxGet _ _) fun cs =>
    hA4 ct cs) fun ct _ h => ?_
  subst h
  refine .bind (.formResetIf _ _ _) (Run.formResetIf I id _ reset _) (fun _ => .bind (.ctxGet _ _) fun cs => hA4 ct cs)
    fun _ _ _ => ?_
  refine .bind (.ctxGet _ _) .ctxSrc (fun cs => hA4 ct cs) fun a b h => ?_
  obtain ⟨rfl, rfl⟩ := h
  rw [hsh]
  exact Run.nested (k := fun b => T.pure (if b then Val.form id else .ERROR))
    (k' := fun b => T.pure (if b then Val.form id else .ERROR)) (hAu _ _) (hbody _ _) (fun _ => .pure _)
    (Run.post (.pure rfl) fun _ _ h => X.open_loose h)

/-! ### `_parse` -/

omit hr hC in
/-- After `path.value`, which is not a date, the text is read. -/
theorem Run.textParse {l : List Val} {f : Val → T P Val} (hA : ∀ v, Adding (f v))
    (hf : ∀ v, v.plainData = true → f v = f .none) {z : Val → T P Val} (hz : f .none = T.onPath (I.primitive .str) >>= z)
    (hzA : ∀ p, Adding (z p)) (hr : ∀ p, Run (X.Loose l) (X.Loose l) Eq (z p) (z p)) :
    Run (X.Fresh l) (X.Loose l) Eq (T.onPath I.value >>= f) (T.onPath I.value >>= f) := by
  refine .bind (.onPath _) .value (fun v => hA v) fun a b h => ?_
  rw [hf a h.1, hf b h.2, hz]
  refine .bind (.onPath _) (.primitive (by decide)) (fun _ => hzA _) fun p _ h => ?_
  subst h
  exact hr p

omit hr hC in
theorem Run.dateParse {l : List Val} (c : DateCfg) :
    Run (X.Fresh l) (X.Loose l) Eq (Lex.dateParse I L c) (Lex.dateParse I L c) := by
  have hA : ∀ p, Adding (if c.format.isEmpty then Lex.failWith I ("Unknown format for value \"" ++ L.fmt p ++ "\"")
      else match p with
        | .str s => T.pure (dateLoop L s c.format)
        | _ => T.raise (.typeError "expected string")) := by
    intro p
    refine .ite (.failWith _) ?_
    split
    · exact .pure _
    · exact .raise _
  refine .textParse (fun v => ?_) (fun v hv => ?_) rfl hA fun p => ?_
  · split
    · exact .pure _
    · exact .pure _
    · exact .bind (.onPath _) hA
  · cases v <;> first | rfl | cases hv
  · refine .ite (fun _ => .failWith _) fun _ => ?_
    split
    · exact .pure rfl
    · exact .raise _ _

omit hr hC in
theorem Run.timeParse {l : List Val} (c : DateCfg) :
    Run (X.Fresh l) (X.Loose l) Eq (Lex.timeParse I L c) (Lex.timeParse I L c) := by
  have hA : ∀ p, Adding (match c.format with
      | [] => Lex.failWith I ("Unknown format for value \"" ++ L.fmt p ++ "\"")
      | spec :: _ => match p with
        | .str s => match L.strptimeTime spec s with
          | some d => T.pure (.ext .structTime d)
          | none => T.raise (.valueError "time data does not match format")
        | _ => T.raise (.typeError "strptime() argument 0 must be str")) := by
    intro p
    split
    · exact .failWith _
    · split
      · split
        · exact .pure _
        · exact .raise _
      · exact .raise _
  refine .textParse (fun v => ?_) (fun v hv => ?_) rfl hA fun p => ?_
  · split
    · exact .pure _
    · exact .pure _
    · exact .bind (.onPath _) hA
  · cases v <;> first | rfl | cases hv
  · split
    · exact .failWith _
    · split
      · split
        · exact .pure rfl
        · exact .raise _ _
      · exact .raise _ _

omit hr hC in
theorem Run.datetimeParse {l : List Val} (c : DateCfg) :
    Run (X.Fresh l) (X.Loose l) Eq (Lex.datetimeParse I L c) (Lex.datetimeParse I L c) := by
  have hA : ∀ p, Adding (match c.format with
      | [] => Lex.failWith I ("Unknown format for value \"" ++ L.fmt p ++ "\"")
      | spec :: _ => match p with
        | .str s =>
          if spec = "iso8601" then
            match L.iso8601 s with
            | some d => T.pure (.ext .datetime d)
            | none => Lex.failWith I "Unable to parse date string"
          else match L.strptimeDatetime spec s with
            | some d => T.pure (.ext .datetime d)
            | none => T.raise (.valueError "time data does not match format")
        | _ => T.raise (.typeError "expected string")) := by
    intro p
    split
    · exact .failWith _
    · split
      · refine .ite ?_ ?_ <;> split <;> first | exact .pure _ | exact .raise _ | exact .failWith _
      · exact .raise _
  refine .textParse (fun v => ?_) (fun v hv => ?_) rfl hA fun p => ?_
  · split
    · exact .pure _
    · exact .bind (.onPath _) hA
  · cases v <;> first | rfl | cases hv
  · split
    · exact .failWith _
    · split
      · refine .ite (fun _ => ?_) fun _ => ?_ <;> split <;> first | exact .pure rfl | exact .raise _ _ | exact .failWith _
      · exact .raise _ _

theorem Run.tupleParse (W : LawfulPath I) {l : List Val} {fs : List Field} (hf : ∀ f ∈ fs, f.All Field.Stepwise)
    (hs : ∀ f ∈ fs, noSrc f.core.src = true) :
    Run (X.Fresh l) (X.Loose l) Eq (Lex.tupleParse I rec fs) (Lex.tupleParse I rec fs) := by
  have hA : Adding (Lex.tupleLoop I rec 0 fs) :=
    (Closed.tupleLoop (hr.recU W hC) fs (fun g hg => (hf g hg).imp (fit W)) 0).2.1
  unfold Lex.tupleParse
  refine .bind (.onPath _) .sequence (fun _ => .ite (.failWith _) (.bind hA fun _ => .pure _)) fun n _ h => ?_
  obtain ⟨rfl, hk⟩ := h
  refine .ite (fun _ => .failWith _) fun hn => ?_
  refine .bind hA (Run.tupleLoop hr hC W fs 0 hf hs fun j hj => hk j (by omega)) (fun _ => .pure _) fun a _ h => ?_
  subst h
  exact Run.post (.pure rfl) fun _ _ h => X.open_loose h

theorem Run.listParse (W : LawfulPath I) {l : List Val} {f : Field} (hf : f.All Field.Stepwise)
    (hs : noSrc f.core.src = true) (allow : Bool) :
    Run (X.Fresh l) (X.Loose l) Eq (Lex.listParse I rec f allow) (Lex.listParse I rec f allow) := by
  have hA : ∀ n, Adding (Lex.listLoop I rec f 0 n) := fun n =>
    (Closed.listLoop (hr.recU W hC) (hf.imp (fit W)) n 0).2.1
  unfold Lex.listParse
  refine .seqTry (fun n hk => ?_) fun e e' => ?_
  · refine .bind (hA n) (Run.listLoop hr hC W hf hs n 0 fun j hj => hk j (by omega)) (fun _ => .pure _) fun a _ h => ?_
    subst h
    exact Run.post (.pure rfl) fun _ _ h => X.open_loose h
  · show Run _ _ _ (if !allow then _ else _) (if !allow then _ else _)
    refine .ite (fun _ => .raise _ _) fun _ => ?_
    refine .bind (hr.adding hC W hf _) ((hr.item f hf hs l).pre fun _ _ h => X.fresh_key h) (fun _ => .pure _) fun a _ h => ?_
    subst h
    exact .pure rfl

theorem Run.dictParse (W : LawfulPath I) {l : List Val} {f kf vf : Field} (hn : ValueHooks True f) (hkf : kf.All Field.Stepwise)
    (hvf : vf.All Field.Stepwise) (hs : noSrc vf.core.src = true) :
    Run (X.Fresh l) (X.Loose l) Eq (Lex.dictParse I L C rec f kf vf none) (Lex.dictParse I L C rec f kf vf none) := by
  have hA : ∀ ks, Adding (Lex.dictLoop I L C rec kf vf none ks []) := fun ks =>
    (Closed.dictLoop (hr.recU W hC) (hkf.imp (fit W)) (hvf.imp (fit W)) (fun h e => by cases e) ks []).2.1
  have hA1 : ∀ kv : KeysView, Adding (Lex.iterKeys kv : T P _) := fun kv => (Closed.iterKeys (K := Lax.closed W L C) kv).2.1
  have hA2 : ∀ kv : KeysView, Adding (do
      let ks ← Lex.iterKeys kv
      let m ← Lex.dictLoop I L C rec kf vf none ks []
      T.pure (Val.dict m)) := fun kv => .bind (hA1 _) fun _ => .bind (hA _) fun _ => .pure _
  unfold Lex.dictParse
  refine .bind (.onPath _) .mapping (fun o => ?_) fun o _ h => ?_
  · cases o with
    | none => exact (Closed.fieldDefault (K := Lax.closed W L C) hn).2.1
    | some kv => exact hA2 kv
  obtain ⟨rfl, -, hk⟩ := h
  cases o with
  | none => exact Run.post (.fieldDefault hn) fun _ _ h => X.open_loose h
  | some kv =>
    have hi : Run (X.Open l) (X.Open l) (fun a b => a = b ∧ a = kv.ks) (Lex.iterKeys kv : T P _) (Lex.iterKeys kv) := by
      unfold Lex.iterKeys
      split
      · exact .pure ⟨rfl, rfl⟩
      · exact .raise _ _
    refine .bind (hA1 kv) hi (fun _ => .bind (hA _) fun _ => .pure _) fun ks _ h => ?_
    obtain ⟨rfl, rfl⟩ := h
    refine .bind (hA _) (Run.dictLoop hr hC W hkf hvf hs _ [] (hk kv rfl)) (fun _ => .pure _) fun a _ h => ?_
    subst h
    exact Run.post (.pure rfl) fun _ _ h => X.open_loose h

theorem Run.kindParse (W : LawfulPath I) {l : List Val} {f : Field} (hf : f.All Field.Stepwise) :
    Run (X.Fresh l) (X.Loose l) Eq (Lex.kindParse I L C rec f) (Lex.kindParse I L C rec f) := by
  have hn := hf.node.1
  have hs := hf.node.2
  have hk := hf.kind
  unfold Lex.kindParse
  cases hkind : f.kind with
  | string c => exact .primitive (by decide)
  | integer c => exact .primitive (by decide)
  | float c => exact .primitive (by decide)
  | boolean => exact .primitive (by decide)
  | date c => exact .dateParse c
  | time c => exact .timeParse c
  | datetime c => exact .datetimeParse c
  | tuple fs =>
    rw [hkind] at hs hk
    cases hk with
    | tuple h => exact Run.tupleParse hr hC W h hs
  | list g lo hi a =>
    rw [hkind] at hs hk
    cases hk with
    | list h => exact Run.listParse hr hC W h hs a
  | dict kf vf kfl r m =>
    rw [hkind] at hs hk
    obtain ⟨rfl, hs⟩ := hs
    cases hk with
    | dict h1 h2 => exact Run.dictParse hr hC W hn h1 h2 hs
  | subform cls reset u =>
    rw [hkind] at hs
    exact Run.subParse hr hC W cls reset hs
  | base => rw [hkind] at hs; exact hs.elim
  | decimal c => rw [hkind] at hs; exact hs.elim
  | code => rw [hkind] at hs; exact hs.elim
  | uuid => rw [hkind] at hs; exact hs.elim
  | poly tf pc ts reset u => rw [hkind] at hs; exact hs.elim
  | group fs => rw [hkind] at hs; exact hs.elim

/-! ### `Field.map` -/

theorem Run.fieldStart (W : LawfulPath I) {l : List Val} {f : Field} (hf : f.All Field.Stepwise) :
    Run (X.Key l) (X.Loose l) Eq (Lex.fieldStart I L C rec f) (Lex.fieldStart I L C rec f) := by
  have hn := hf.node.1
  have hA1 : Adding (Lex.fieldCompute I L C rec f) := (Closed.fieldCompute (hC.fit W) (hr.recU W hC) (hf.imp (fit W))).2.1
  have hA2 : Adding (Lex.fieldDefault I L C rec f) := (Closed.fieldDefault (K := Lax.closed W L C) hn).2.1
  have hA3 : ∀ v, Adding (Lex.fieldCheck I L C rec f v) := fun v => (Closed.fieldCheck (K := Lax.closed W L C) hn v).2.1
  have hAk : Adding (Lex.kindParse I L C rec f) := (Closed.kindParse (hC.fit W) (hr.recU W hC) (hf.imp (fit W))
    (fun tf pc ts reset u h => by have := hf.node.2; rw [h] at this; exact this)).2.1
  rw [hn.fieldStart]
  refine .bind (B := X.Loose l) (R := Eq) hA1 ?_ (fun v => .ite hA2 (.ite (.pure _) (hA3 v))) fun v _ h => ?_
  · unfold Lex.fieldCompute
    rw [hn.fieldParse]
    refine .exists_ (Run.post (.pure rfl) fun _ _ h => X.key_loose h) ?_
    show Run _ _ _ (T.onPath I.isNull >>= _) (T.onPath I.isNull >>= _)
    refine .bind (.onPath _) .isNull (fun _ => .ite (.pure _) (.compute hAk)) fun a _ h => ?_
    subst h
    exact .ite (fun _ => Run.post (.pure rfl) fun _ _ h => X.key_loose (X.fresh_key h)) fun _ =>
      .compute hAk (Run.kindParse hr hC W hf)
  · subst h
    exact .ite (fun _ => .fieldDefault hn) fun _ => .ite (fun _ => .pure rfl) fun _ => .fieldCheck hn v

theorem Adding.fieldStart (W : LawfulPath I) {f : Field} (hf : f.All Field.Stepwise) :
    Adding (Lex.fieldStart I L C rec f) := (Closed.fieldStart (hC.fit W) (hr.recU W hC) (hf.imp (fit W))).2.1

omit hr hC in
theorem Run.setParent (v : Val) (A : P → P → Prop) : Run A A Eq (Lex.setParent v : T P Unit) (Lex.setParent v) := by
  unfold Lex.setParent
  refine .bind (.same fun _ _ => rfl) (.ctxGet? _) (fun par => ?_) fun par _ h => ?_
  · cases v <;> first | exact .pure _ | exact .raise _ | exact .state fun _ _ => ⟨_, _, rfl⟩
  · subst h
    cases v <;> first | exact .pure rfl | exact .raise _ _ | exact .formParent _ _

/-- `Field.map` around its inner part. -/
theorem Run.mapFieldF (W : LawfulPath I) {f : Field} (hf : f.All Field.Stepwise) (v : Val) {A B : P → P → Prop}
    (h : Run A B Eq (Lex.fieldMapInner I L C rec f v) (Lex.fieldMapInner I L C rec f v)) :
    Run A B Eq (Lex.mapFieldF I L C rec f v) (Lex.mapFieldF I L C rec f v) := by
  have hA : Adding (Lex.fieldMapInner I L C rec f v) := by
    unfold Lex.fieldMapInner
    refine .ite (Closed.withResolve (K := Lax.closed W L C) (hr.recU W hC) hf.node.1
      (Closed.fieldStart (hC.fit W) (hr.recU W hC) (hf.imp (fit W)))).2.1
      (Closed.fieldCheck (K := Lax.closed W L C) hf.node.1 v).2.1
  have hAp : ∀ v : Val, Adding (Lex.setParent v : T P Unit) := fun v => (Closed.setParent (K := Lax.closed W L C) v).2.1
  unfold Lex.mapFieldF
  refine .bind (.withEnv _ hA) (.withEnv (fun env => { env with field := some f.name, parent := some .field })
    (fun _ => rfl) h) (fun v => ?_) fun w _ h => ?_
  · dsimp only
    exact .ite (.bind (hAp _) fun _ => .pure _) (.pure _)
  · subst h
    dsimp only
    exact .ite (fun _ => .bind (hAp _) (.setParent _ _) (fun _ => .pure _) fun _ _ _ => .pure rfl) fun _ => .pure rfl

theorem RecRun.step (W : LawfulPath I) : RecRun X L C (Lex.mapFieldF I L C rec) where
  lex := by
    obtain ⟨n, rfl⟩ := hr.lex
    exact ⟨n + 1, rfl⟩
  item f hf hs l := by
    refine Run.mapFieldF hr hC W hf _ ?_
    have e : Lex.fieldMapInner I L C rec f .NONE = Lex.fieldStart I L C rec f := by
      unfold Lex.fieldMapInner Lex.withResolve
      simp only [Val.isNONE, if_true, hf.node.1.resolve, hs]
      split <;> rfl
    rw [e]
    exact Run.fieldStart hr hC W hf
  field f hf hs l hl := by
    refine Run.mapFieldF hr hC W hf _ ?_
    obtain ⟨s, hs, hd⟩ := hs
    have e : Lex.fieldMapInner I L C rec f .NONE = T.withKey I f.core.src (Lex.fieldStart I L C rec f) := by
      unfold Lex.fieldMapInner Lex.withResolve
      have hn : noSrc f.core.src = false := by rw [hs]; rfl
      simp only [Val.isNONE, if_true, hf.node.1.resolve, hn]
      split
      · rename_i fs h
        have := hf.node.2
        rw [h] at this
        exact this.elim
      · rfl
    rw [e, hs]
    exact .atKey (X.named_key hl hd) (Run.fieldStart hr hC W hf)
  given f hf v hv A := by
    refine Run.mapFieldF hr hC W hf _ ?_
    unfold Lex.fieldMapInner
    rw [if_neg (by rw [hv]; decide)]
    exact .fieldCheck hf.node.1 v

end

theorem RecRun.all (X : Tread I) (W : LawfulPath I) (hC : Fitting C) : ∀ n, RecRun X L C (Lex.mapField I L C n)
  | 0 => ⟨⟨0, rfl⟩, fun _ _ _ _ => .raise _ _, fun _ _ _ _ _ => .raise _ _, fun _ _ _ _ _ => .raise _ _⟩
  | n + 1 => (RecRun.all X W hC n).step hC W

end Follow
end Pilo
