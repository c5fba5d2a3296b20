import Verif.Lax
import Verif.Says

/-!
# Two form classes, the second of which asks for less

`Go t u`: whenever `t` ends normally without adding an error then `u` does exactly the same.  `Looser f g`: the field
`g` is `f` with weaker constraints.  Mapping `g` after `f` is `Go`.  Used for C97.
-/

namespace Pilo
variable {P : Type} {I : PathOps P} {α β : Type}

namespace Loose
variable {S : Sane I}

/-- The current path stays one over plain data. -/
def Keep (S : Sane I) (t : T P α) : Prop := ∀ env τ, QT S τ → QT S (t env τ).2

theorem Keep.same {t : T P α} (h : ∀ env τ, (t env τ).2.path = τ.path) : Keep S t := by
  intro env τ hq r p hp
  rw [h] at hp
  exact hq r p hp

theorem Keep.pure (a : α) : Keep S (T.pure a : T P α) := .same fun _ _ => rfl
theorem Keep.raise (e : Exc) : Keep S (T.raise e : T P α) := .same fun _ _ => rfl

theorem Keep.bind {t : T P α} {f : α → T P β} (h : Keep S t) (hf : ∀ a, Keep S (f a)) : Keep S (t >>= f) := by
  intro env τ hq
  have h1 := h env τ hq
  rcases ht : t env τ with ⟨x, τ'⟩
  rw [ht] at h1
  cases x with
  | error e => rw [T.bind_error ht]; exact h1
  | ok a => rw [T.bind_ok ht]; exact hf a env τ' h1

theorem Keep.ite {c : Prop} [Decidable c] {t u : T P α} (ht : Keep S t) (hu : Keep S u) : Keep S (if c then t else u) := by
  split
  · exact ht
  · exact hu

theorem Keep.onPath {f : P → Except Exc α × P} (h : ∀ p, S.Q p → S.Q (f p).2) : Keep S (T.onPath f) := by
  intro env τ hq
  unfold T.onPath
  rcases hp : τ.path with _ | _ | ⟨r, p⟩
  · exact hq
  · exact hq
  · intro r' q' h'; cases h'; exact h p (hq r p hp)

theorem Keep.tryCatch {t : T P α} {g : Exc → T P α} (h : Keep S t) (hg : ∀ e, Keep S (g e)) : Keep S (T.tryCatch t g) := by
  intro env τ hq
  have h1 := h env τ hq
  unfold T.tryCatch
  rcases ht : t env τ with ⟨x, τ'⟩
  rw [ht] at h1
  cases x with
  | ok a => exact h1
  | error e => exact hg e env τ' h1

theorem Keep.withEnv (g : Env → Env) {t : T P α} (h : Keep S t) : Keep S (T.withEnv g t) := fun env τ => h (g env) τ

theorem Keep.withKey {k : Val} {t : T P α} (h : Keep S t) : Keep S (T.withKey I k t) := by
  have h0 : Keep S (T.onPath (pathAppend I k)) := .onPath fun p hp => by
    unfold pathAppend
    cases ha : I.append p k with
    | error e => exact hp
    | ok q => exact S.append hp ha
  have h9 : Keep S (T.onPath (pathPop I)) := .onPath fun p hp => by
    unfold pathPop
    cases ha : I.pop p with
    | error e => exact hp
    | ok q => exact S.pop hp ha
  intro env τ hq
  have a1 := h0 env τ hq
  unfold T.withKey
  rcases h0r : T.onPath (pathAppend I k) env τ with ⟨r0, τ0⟩
  rw [h0r] at a1
  cases r0 with
  | error e => exact a1
  | ok _ =>
    dsimp only
    have a2 := h { env with src := some (!k.isNull) } τ0 a1
    rcases hr : t { env with src := some (!k.isNull) } τ0 with ⟨r, τ1⟩
    rw [hr] at a2
    have a3 := h9 env τ1 a2
    dsimp only
    rcases h9r : T.onPath (pathPop I) env τ1 with ⟨r9, τ9⟩
    rw [h9r] at a3
    cases r9 <;> exact a3

theorem Keep.withErrs (b : Bool) {t : T P α} (h : Keep S t) : Keep S (T.withErrs b t) := by
  intro env τ hq
  have h1 := h env { τ with errs := some { raising := b, items := [] } } hq
  unfold T.withErrs
  rcases hr : t env { τ with errs := some { raising := b, items := [] } } with ⟨r, τ'⟩
  rw [hr] at h1
  cases r <;> exact h1

theorem Keep.withSource {mk : Except Exc P} {t : T P α} : Keep S (T.withSource mk t) :=
  .same fun env τ => by
    unfold T.withSource
    cases mk <;> rfl

theorem Keep.extend (es : List Err) : Keep S (T.extend es : T P Unit) :=
  .same fun env τ => by unfold T.extend; split <;> rfl

theorem Keep.ctxGet (proj : Env → Option α) (n : String) : Keep S (T.ctxGet proj n : T P α) :=
  .same fun env τ => by unfold T.ctxGet; split <;> rfl

theorem Keep.formCls (id : Nat) : Keep S (T.formCls id : T P Nat) :=
  .same fun env τ => by unfold T.formCls; split <;> rfl

theorem Keep.record (e : Err) : Keep S (T.record e : T P Unit) :=
  .same fun env τ => by unfold T.record; split <;> rfl

theorem Keep.report (k : ErrKind) : Keep S (T.report I k) :=
  .bind (.same fun env τ => by unfold T.errsBound; split <;> rfl) fun _ => .bind (.ctxGet _ _) fun _ =>
    .bind (.same fun env τ => by
      unfold T.pathText
      split
      · rfl
      · rfl
      · split <;> rfl) fun _ => .record _

theorem Keep.compute {t : T P Val} (h : Keep S t) : Keep S (T.tryCatch t fun e =>
    if e.isSourceError || e.isValueError then Lex.failWith I e.str else T.raise e) :=
  .tryCatch h fun _ => .ite (.bind (.report _) fun _ => .pure _) (.raise _)

/-- Only adds errors and keeps to plain data. -/
def Mild (S : Sane I) (t : T P α) : Prop := Lax.Adding t ∧ Keep S t

section
variable {L : Lib} {C : Classes} {n : Nat}

theorem Keep.formResetIf (id : Nat) (tags : List String) (reset : Bool) : Keep S (Lex.formResetIf C id tags reset : T P Unit) := by
  unfold Lex.formResetIf
  refine .ite (.bind (.formCls _) fun cls => ?_) (.pure _)
  induction (C cls).fields with
  | nil => exact .pure _
  | cons f fs ih =>
    unfold Lex.formReset
    exact .bind (.ite (.same fun _ _ => rfl) (.pure _)) fun _ => ih

theorem Keep.rootSource (id : Nat) (src : SrcArg P) : Keep S (Lex.rootSource I C id src) := by
  unfold Lex.rootSource
  split <;> first
    | exact .pure _
    | exact .raise _
    | exact .bind (.formCls _) fun _ => .pure _

theorem Keep.formMap {rec : TRec P} {u : Unmapped} {id : Nat} (h : ∀ tags, Keep S (Lex.formMapBody I C rec id tags u))
    (src : SrcArg P) (tags : List String) (reset b : Bool) :
    Keep S (Lex.formMap I C rec id src tags reset u b) := by
  have hroot : ∀ src tags, Keep S (Lex.rootMap I C rec id src tags u b) := fun src tags =>
    .bind (.rootSource id src) fun _ => .bind (.withErrs _ .withSource) fun _ => .pure _
  unfold Lex.formMap
  refine .bind (.same fun _ _ => rfl) fun _ => .bind (.formResetIf _ _ _) fun _ => .bind (.ctxGet _ _) fun c =>
    .bind ?_ fun es => ?_
  · unfold Lex.formMapAt
    exact .ite (.ite (.bind (.withErrs _ (h _)) fun _ => .bind (.extend _) fun _ => .pure _) (hroot _ _)) (hroot _ _)
  · unfold Lex.formFinish
    exact .ite (.ite (.pure _) (.raise _)) (.pure _)

theorem Keep.polyType {rec : TRec P} {tf : Field} (hr : ∀ v, Keep S (rec tf v))
    (hb : ∀ id tags, Keep S (Lex.formMapBody I C rec id tags (.str .ignore))) (pc : Nat) (types : List (Val × Nat)) :
    Keep S (Lex.polyType I L C rec tf pc types) := by
  have hfin : ∀ id v, Keep S (Lex.getFinish tf id v : T P Val) := fun id v =>
    .ite (.raise _) (.bind (.same fun _ _ => rfl) fun _ => .pure _)
  have hget : ∀ id, Keep S (Lex.fieldGet I rec tf id) := by
    intro id
    unfold Lex.fieldGet
    refine .bind (.same fun _ _ => rfl) fun items => ?_
    split
    · exact .pure _
    · refine .bind (.same fun _ _ => rfl) fun fm => ?_
      split
      · exact .bind (.withErrs _ .withSource) fun _ => hfin _ _
      · exact .bind (.same fun _ _ => rfl) fun _ => .ite (.bind (hr _) fun _ => hfin _ _)
          (.bind .withSource fun _ => hfin _ _)
  unfold Lex.polyType
  refine .bind (.tryCatch (.bind (.bind (.onPath fun _ h => S.value h) fun _ => .onPath fun _ h => h) fun src =>
    .bind ?_ fun _ => .pure _) fun e => .ite (.bind (.report _) fun _ => .pure _) (.raise _)) fun r => ?_
  · unfold Lex.probe
    refine .bind (.same fun _ _ => rfl) fun id => .bind (.formMap (hb id) _ _ _ _) fun es => ?_
    split
    · exact hget id
    · exact .raise _
  · split
    · exact .pure _
    · exact .pure _
    · refine .ite (.raise _) ?_
      split
      · exact .pure _
      · exact .bind (.report _) fun _ => .pure _

theorem Mild.polyType {tf : Field} (hr : ∀ v, Mild S (Lex.mapField I L C n tf v))
    (hb : ∀ id tags, Mild S (Lex.formMapBody I C (Lex.mapField I L C n) id tags (.str .ignore))) (pc : Nat)
    (types : List (Val × Nat)) : Mild S (Lex.polyType I L C (Lex.mapField I L C n) tf pc types) :=
  ⟨.polyType (fun v => (hr v).1) pc types, .polyType (fun v => (hr v).2) (fun id tags => (hb id tags).2) pc types⟩

/-- Mapping fields whose hooks are functions of the value is mild. -/
def closed (S : Sane I) (L : Lib) (C : Classes) : Closed I L C where
  U t := Mild S t
  ok _ := True
  fok _ := True
  okString := trivial
  okBase := trivial
  okDict _ _ _ _ := trivial
  okFilter _ _ _ _ _ _ := trivial
  asks := True
  form _ := ⟨.ctxGet _ _, .ctxGet _ _⟩
  pure a := ⟨.pure a, .pure a⟩
  raise e := ⟨.raise e, .raise e⟩
  bind h hf := ⟨.bind h.1 fun a => (hf a).1, .bind h.2 fun a => (hf a).2⟩
  ctxGet proj n _ := ⟨.ctxGet _ _, .ctxGet _ _⟩
  ctxGet? proj _ := ⟨.same fun _ _ => rfl, .same fun _ _ => rfl⟩
  value := ⟨.onPath _, .onPath fun _ h => S.value h⟩
  exists_ := ⟨.onPath _, .onPath fun _ h => S.exists_ h⟩
  isNull := ⟨.onPath _, .onPath fun _ h => S.isNull h⟩
  mapping := ⟨.onPath _, .onPath fun _ h => S.mapping h⟩
  sequence := ⟨.onPath _, .onPath fun _ h => S.sequence h⟩
  primitive ty := ⟨.onPath _, .onPath fun _ h => S.primitive h⟩
  hasSrc := ⟨.onPath _, .onPath fun _ h => h⟩
  report k := ⟨.report k, .report k⟩
  seqTry := ⟨.tryCatch (.bind (.onPath _) fun _ => .pure _) fun _ =>
      .bind (.onPath _) fun _ => .ite (.raise _) (.ite (.pure _) (.raise _)),
    .tryCatch (.bind (.onPath fun _ h => S.sequence h) fun _ => .pure _) fun _ =>
      .bind (.onPath fun _ h => h) fun _ => .ite (.raise _) (.ite (.pure _) (.raise _))⟩
  compute h := ⟨.compute h.1, .compute h.2⟩
  withEnv g _ _ _ h := ⟨.withEnv g h.1, .withEnv g h.2⟩
  withKey _ h := ⟨.withKey h.1, .withKey h.2⟩
  rawKey _ _ h := ⟨.withKey h.1, .withKey h.2⟩
  rawStart _ _ h := ⟨.withKey h.1, .withKey h.2⟩
  nested _ h hk := ⟨.bind (.withErrs _ _) fun _ => .bind (.extend _) fun _ => (hk _).1,
    .bind (.withErrs _ h.2) fun _ => .bind (.extend _) fun _ => (hk _).2⟩
  root _ h hk := ⟨.bind (.withErrs _ _) fun _ => (hk _).1, .bind (.withErrs _ .withSource) fun _ => (hk _).2⟩
  formItems id _ := ⟨.same fun _ _ => rfl, .same fun _ _ => rfl⟩
  formCls id _ := ⟨.formCls _, .formCls _⟩
  formModify id g _ := ⟨.formModify _ _, .same fun _ _ => rfl⟩
  formParent id par := ⟨.state fun _ _ => ⟨_, _, rfl⟩, .same fun _ _ => rfl⟩
  newForm cls _ _ h := ⟨.bind (.state fun _ _ => ⟨_, _, rfl⟩) fun id => (h id trivial).1,
    .bind (.same fun _ _ => rfl) fun id => (h id trivial).2⟩
  poly := by
    intro tf pc types reset u n hok hr hb hC htf k hk
    have hp := Mild.polyType (S := S) (fun v => hr tf v htf) (fun id tags => hb id tags _ trivial .str) pc types
    exact guarded_of (U := fun t => Mild S t) (fun a => ⟨.pure a, .pure a⟩)
      (fun h hf => ⟨.bind h.1 fun a => (hf a).1, .bind h.2 fun a => (hf a).2⟩)
      ⟨.onPath _, .onPath fun _ h => S.exists_ h⟩ ⟨.onPath _, .onPath fun _ h => S.isNull h⟩
      (fun h => ⟨.compute h.1, .compute h.2⟩)
      ⟨.bind hp.1 fun r => (hk r).1, .bind hp.2 fun r => (hk r).2⟩

end

/-! ### What the second class may change -/

/-- A lower bound on a length that is not above the other one. -/
def LessMin (a b : Option Nat) : Prop := b = none ∨ ∃ x y, a = some x ∧ b = some y ∧ y ≤ x

/-- An upper bound on a length that is not below the other one. -/
def MoreMax (a b : Option Nat) : Prop := b = none ∨ ∃ x y, a = some x ∧ b = some y ∧ x ≤ y

/-- A lower bound on values: what is not below the first is not below the second. -/
def LessLow (L : Lib) (a b : Option Val) : Prop :=
  b = none ∨ ∃ x y, a = some x ∧ b = some y ∧ ∀ v, pyLt L v x = .ok false → pyLt L v y = .ok false

/-- An upper bound on values: what is not above the first is not above the second. -/
def MoreHigh (L : Lib) (a b : Option Val) : Prop :=
  b = none ∨ ∃ x y, a = some x ∧ b = some y ∧ ∀ v, pyLt L x v = .ok false → pyLt L y v = .ok false

/-- Everything allowed by the first list is allowed by the second one; the empty list allows everything. -/
def MoreOf {α : Type} (a b : List α) : Prop := b = [] ∨ a ≠ [] ∧ ∀ x ∈ a, x ∈ b

/-- `String` options that accept more. -/
structure LooserStr (c d : StrCfg) : Prop where
  minLength : LessMin c.minLength d.minLength
  maxLength : MoreMax c.maxLength d.maxLength
  pattern : d.pattern = none ∨ ∃ m t m' t', c.pattern = some (m, t) ∧ d.pattern = some (m', t') ∧
    ∀ s, m s = true → m' s = true
  alphabet : MoreOf c.alphabet d.alphabet
  choices : MoreOf c.choices d.choices

/-- `Number` options that accept more. -/
structure LooserNum (L : Lib) (c d : NumCfg) : Prop where
  min : LessLow L c.min d.min
  max : MoreHigh L c.max d.max

/-- Date options that accept more, in the same formats. -/
structure LooserDate (L : Lib) (c d : DateCfg) : Prop where
  after : LessLow L c.after d.after
  before : MoreHigh L c.before d.before
  format : d.format = c.format

/-- Fewer required keys. -/
inductive LooserReq : Required → Required → Prop
  | same (r : Required) : LooserReq r r
  | no (r : Required) : LooserReq r (.list [])
  | fewer {ks ks' : List Val} (h : ∀ k ∈ ks', k ∈ ks) : LooserReq (.set ks) (.set ks')

/-- A larger number of keys, or no limit (`0` is none). -/
def MoreKeys (a b : Option Nat) : Prop := b = none ∨ b = some 0 ∨ ∃ x y, a = some x ∧ b = some y ∧ 0 < x ∧ x ≤ y

/-- Options common to all fields: nullable if the first is; the same default, or (`o`) a default where there was
none; all else alike. -/
structure LooserCore (o : Prop) (c d : FieldCore) : Prop where
  name : d.name = c.name
  src : d.src = c.src
  nullable : c.nullable.truthy = true → d.nullable.truthy = true
  default : d.default = c.default ∨ o ∧ c.default = .unset
  ignores : d.ignores = c.ignores
  translations : d.translations = c.translations
  tags : d.tags = c.tags
  attachParent : d.attachParent = c.attachParent

/-- A field with no fields in it. -/
def Leaf (f : Field) : Prop :=
  match f.kind with
  | .tuple _ | .list .. | .dict .. | .subform .. | .poly .. | .group _ => False
  | _ => True

mutual
/-- The second field asks for less. -/
inductive Looser (o : Prop) (L : Lib) (C D : Classes) : Field → Field → Prop
  | mk {c d : FieldCore} {k l : Kind} (hc : LooserCore o c d) (hk : LooserKind o L C D k l) :
    Looser o L C D (.mk c k) (.mk d l)
/-- The options of the class of the field ask for less. -/
inductive LooserKind (o : Prop) (L : Lib) (C D : Classes) : Kind → Kind → Prop
  | base : LooserKind o L C D .base .base
  | string {c d : StrCfg} (h : LooserStr c d) : LooserKind o L C D (.string c) (.string d)
  | integer {c d : NumCfg} (h : LooserNum L c d) : LooserKind o L C D (.integer c) (.integer d)
  | float {c d : NumCfg} (h : LooserNum L c d) : LooserKind o L C D (.float c) (.float d)
  | decimal {c d : NumCfg} (h : LooserNum L c d) : LooserKind o L C D (.decimal c) (.decimal d)
  | boolean : LooserKind o L C D .boolean .boolean
  | date {c d : DateCfg} (h : LooserDate L c d) : LooserKind o L C D (.date c) (.date d)
  | time {c d : DateCfg} (h : LooserDate L c d) : LooserKind o L C D (.time c) (.time d)
  | datetime {c d : DateCfg} (h : LooserDate L c d) : LooserKind o L C D (.datetime c) (.datetime d)
  | tuple {fs gs : List Field} (h : LooserFields o L C D fs gs) : LooserKind o L C D (.tuple fs) (.tuple gs)
  | list {f g : Field} {lo hi lo' hi' : Option Nat} {a a' : Bool} (h : Looser o L C D f g) (hlo : LessMin lo lo')
      (hhi : MoreMax hi hi') (ha : a = true → a' = true) : LooserKind o L C D (.list f lo hi a) (.list g lo' hi' a')
  | dict {kf vf kg vg : Field} {kfl : Option (Hook (Val → Prog))} {r r' : Required} {m m' : Option Nat}
      (hk : Looser o L C D kf kg) (hv : Looser o L C D vf vg) (hr : LooserReq r r') (hm : MoreKeys m m') :
      LooserKind o L C D (.dict kf vf kfl r m) (.dict kg vg kfl r' m')
  | code : LooserKind o L C D .code .code
  | uuid : LooserKind o L C D .uuid .uuid
  | subform {cls : Nat} {reset : Bool} {u v : Unmapped} (h : LooserUnmapped o L C D u v) :
      LooserKind o L C D (.subform cls reset u) (.subform cls reset v)
  | poly {tf : Field} {pc : Nat} {types : List (Val × Nat)} {reset : Bool} {u v : Unmapped} (ht : Leaf tf)
      (hp : (D pc).fields = (C pc).fields) (hl : ∀ f ∈ (C pc).fields, Leaf f) (h : LooserUnmapped o L C D u v) :
      LooserKind o L C D (.poly tf pc types reset u) (.poly tf pc types reset v)
  | group {fs gs : List (GSrc × Field)} (h : LooserGroup o L C D fs gs) :
      LooserKind o L C D (.group fs) (.group gs)
/-- What is not among the fields is asked less of. -/
inductive LooserUnmapped (o : Prop) (L : Lib) (C D : Classes) : Unmapped → Unmapped → Prop
  | str {u : UnmappedStr} : LooserUnmapped o L C D (.str u) (.str u)
  | value {f g : Field} (h : Looser o L C D f g) : LooserUnmapped o L C D (.value f) (.value g)
  | pair {kf vf kg vg : Field} (hk : Looser o L C D kf kg) (hv : Looser o L C D vf vg) :
      LooserUnmapped o L C D (.pair kf vf) (.pair kg vg)
/-- One by one. -/
inductive LooserFields (o : Prop) (L : Lib) (C D : Classes) : List Field → List Field → Prop
  | nil : LooserFields o L C D [] []
  | cons {f g : Field} {fs gs : List Field} (h : Looser o L C D f g) (hs : LooserFields o L C D fs gs) :
      LooserFields o L C D (f :: fs) (g :: gs)
/-- One by one, for the same keys. -/
inductive LooserGroup (o : Prop) (L : Lib) (C D : Classes) : List (GSrc × Field) → List (GSrc × Field) → Prop
  | nil : LooserGroup o L C D [] []
  | cons {s : GSrc} {f g : Field} {fs gs : List (GSrc × Field)} (h : Looser o L C D f g)
      (hs : LooserGroup o L C D fs gs) : LooserGroup o L C D ((s, f) :: fs) ((s, g) :: gs)
end

/-- The fields of the classes of the second table ask for less than those of the first. -/
def LooserClasses (o : Prop) (L : Lib) (C D : Classes) : Prop :=
  ∀ cls, LooserFields o L C D (C cls).fields (D cls).fields

/-! ### What ends well with the first ends alike with the second -/

/-- Inside a source; without `ignore_missing` if defaults are added. -/
structure Inside (o : Prop) (env : Env) : Prop where
  src : env.src = some true
  ignoreMissing : o → env.ignoreMissing = some false

/-- If the first ends normally without adding an error then the second does the same. -/
def Run (S : Sane I) (o : Prop) (t u : T P α) : Prop :=
  ∀ env τ, Inside o env → QT S τ → ∀ a τ', t env τ = (.ok a, τ') → τ'.errs = τ.errs → u env τ = (.ok a, τ')

/-- The same, with what is needed to put such statements together. -/
def Go (S : Sane I) (o : Prop) (t u : T P α) : Prop := Mild S t ∧ Run S o t u

variable {o : Prop}

theorem Go.refl {t : T P α} (h : Mild S t) : Go S o t t := ⟨h, fun _ _ _ _ _ _ h _ => h⟩

theorem Go.pure (a : α) : Go S o (T.pure a : T P α) (T.pure a) := .refl ⟨.pure a, .pure a⟩

/-- A computation that does not end well. -/
theorem Go.bad {t u : T P α} (h : Mild S t) (hb : ∀ env τ a τ', t env τ = (.ok a, τ') → τ'.errs ≠ τ.errs) : Go S o t u :=
  ⟨h, fun env τ _ _ a τ' ht he => absurd he (hb env τ a τ' ht)⟩

theorem Go.raise (e : Exc) (u : T P α) : Go S o (T.raise e : T P α) u :=
  .bad ⟨.raise e, .raise e⟩ fun _ _ _ _ h => by cases h

theorem Go.bind {t u : T P α} {f g : α → T P β} (h : Go S o t u) (hf : ∀ a, Go S o (f a) (g a)) :
    Go S o (t >>= f) (u >>= g) := by
  refine ⟨⟨.bind h.1.1 fun a => (hf a).1.1, .bind h.1.2 fun a => (hf a).1.2⟩, fun env τ hi hq c τ' ht he => ?_⟩
  have h0 := h.1.1 env τ
  have h1 := h.1.2 env τ hq
  rcases hx : t env τ with ⟨x, τ1⟩
  rw [hx] at h0 h1
  cases x with
  | error e => rw [T.bind_error hx] at ht; cases ht
  | ok a =>
    rw [T.bind_ok hx] at ht
    have hm := (hf a).1.1 env τ1
    rw [ht] at hm
    have he1 : τ1.errs = τ.errs := h0.between hm he
    rw [T.bind_ok (h.2 env τ hi hq a τ1 hx he1)]
    exact (hf a).2 env τ1 hi h1 c τ' ht (he.trans he1.symm)

theorem Go.ofExcept_bind {r r' : Except Exc α} {f g : α → T P β}
    (h : ∀ a, r = .ok a → Mild S (f a) ∧ ∀ env τ, Inside o env → QT S τ → ∀ b τ', f a env τ = (.ok b, τ') →
      τ'.errs = τ.errs → ∃ a', r' = .ok a' ∧ g a' env τ = (.ok b, τ')) :
    Go S o (T.ofExcept r >>= f) (T.ofExcept r' >>= g) := by
  cases r with
  | error e => exact .raise e _
  | ok a =>
    obtain ⟨h1, h2⟩ := h a rfl
    refine ⟨h1, fun env τ hi hq b τ' ht he => ?_⟩
    obtain ⟨a', rfl, h3⟩ := h2 env τ hi hq b τ' ht he
    exact h3

theorem Go.ite {c : Prop} [Decidable c] {t t' u u' : T P α} (ht : c → Go S o t t') (hu : ¬c → Go S o u u') :
    Go S o (if c then t else u) (if c then t' else u') := by
  split
  · exact ht ‹_›
  · exact hu ‹_›

theorem reject_bad (m : String) (env : Env) (τ : TSt P) (a : α) (τ' : TSt P) (c : α)
    (h : (T.report I (.invalid m) >>= fun _ => T.pure c) env τ = (.ok a, τ')) : τ'.errs ≠ τ.errs := by
  rcases hx : T.report I (.invalid m) env τ with ⟨x, τ1⟩
  cases x with
  | error e => rw [T.bind_error hx] at h; cases h
  | ok x => rw [T.bind_ok hx] at h; cases h; exact Lax.report_more hx

theorem mild_reject (m : String) : Mild S (Lex.rejectWith I m) :=
  ⟨.bind (.report _) fun _ => .pure _, .bind (.report _) fun _ => .pure _⟩

theorem Go.reject (m : String) (u : T P Bool) : Go S o (Lex.rejectWith I m) u :=
  .bad (mild_reject m) fun env τ a τ' h => reject_bad m env τ a τ' false h

theorem Go.fail (m : String) (u : T P Val) : Go S o (Lex.failWith I m) u :=
  .bad ⟨.failWith m, .bind (.report _) fun _ => .pure _⟩ fun env τ a τ' h => reject_bad m env τ a τ' .ERROR h

theorem Go.tryCatch {t u : T P Val} (h : Go S o t u) : Go S o
    (T.tryCatch t fun e => if e.isSourceError || e.isValueError then Lex.failWith I e.str else T.raise e)
    (T.tryCatch u fun e => if e.isSourceError || e.isValueError then Lex.failWith I e.str else T.raise e) := by
  refine ⟨⟨.compute h.1.1, .compute h.1.2⟩, fun env τ hi hq a τ' ht he => ?_⟩
  unfold T.tryCatch at ht ⊢
  have h0 := h.1.1 env τ
  rcases hx : t env τ with ⟨x, τ1⟩
  rw [hx] at ht h0
  cases x with
  | ok b => cases ht; rw [h.2 env τ hi hq a τ' hx he]
  | error e =>
    dsimp only at ht
    split at ht
    · have h1 := (Lax.Adding.failWith (I := I) e.str) env τ1
      rw [ht] at h1
      exact absurd (he.trans (h0.between h1 he).symm) (reject_bad e.str env τ1 a τ' .ERROR ht)
    · cases ht

theorem Go.withEnv {t u : T P α} (g : Env → Env) (h : Go S o t u) (hs : ∀ env : Env, (g env).src = env.src := by intro _; rfl)
    (hm : ∀ env : Env, (g env).ignoreMissing = env.ignoreMissing := by intro _; rfl) :
    Go S o (T.withEnv g t) (T.withEnv g u) :=
  ⟨⟨.withEnv g h.1.1, .withEnv g h.1.2⟩, fun env τ hi hq a τ' ht he =>
    h.2 (g env) τ ⟨(hs env).trans hi.src, fun ho => (hm env).trans (hi.ignoreMissing ho)⟩ hq a τ' ht he⟩

theorem Go.withKey {k : Val} {t u : T P α} (hk : k.isNull = false) (h : Go S o t u) :
    Go S o (T.withKey I k t) (T.withKey I k u) := by
  refine ⟨⟨.withKey h.1.1, .withKey h.1.2⟩, fun env τ hi hq a τ' ht he => ?_⟩
  have h0 : Keep S (T.onPath (pathAppend I k)) := .onPath fun p hp => by
    unfold pathAppend
    cases ha : I.append p k with
    | error e => exact hp
    | ok q => exact S.append hp ha
  have a1 := h0 env τ hq
  have a2 := Lax.onPath_errs (pathAppend I k) env τ
  unfold T.withKey at ht ⊢
  rcases h0r : T.onPath (pathAppend I k) env τ with ⟨r0, τ0⟩
  rw [h0r] at a1 a2 ht
  cases r0 with
  | error e => cases ht
  | ok _ =>
    dsimp only at ht a2 ⊢
    rcases hr : t { env with src := some (!k.isNull) } τ0 with ⟨r, τ1⟩
    rw [hr] at ht
    dsimp only at ht
    have a3 := Lax.onPath_errs (pathPop I) env τ1
    rcases h9r : T.onPath (pathPop I) env τ1 with ⟨r9, τ9⟩
    rw [h9r] at ht a3
    cases r9 with
    | error e => cases ht
    | ok _ =>
      cases ht
      have he1 : τ1.errs = τ0.errs := a3.symm.trans (he.trans a2.symm)
      rw [h.2 { env with src := some (!k.isNull) } τ0 ⟨by simp [hk], hi.ignoreMissing⟩ a1 a τ1 hr he1]
      dsimp only
      rw [h9r]

/-- The keys of a mapping are not `None`. -/
theorem Go.mapping {f g : Option KeysView → T P β}
    (hm : ∀ r, Mild S (f r))
    (h : ∀ r, (∀ kv, r = some kv → ∀ k ∈ kv.ks, k.isNull = false) → Go S o (f r) (g r)) :
    Go S o (T.onPath I.mapping >>= f) (T.onPath I.mapping >>= g) := by
  have hM : Mild S (T.onPath I.mapping) := ⟨.onPath _, .onPath fun _ h => S.mapping h⟩
  refine ⟨⟨.bind hM.1 fun a => (hm a).1, .bind hM.2 fun a => (hm a).2⟩, fun env τ hi hq c τ' ht he => ?_⟩
  have h1 := hM.2 env τ hq
  have h2 := Lax.onPath_errs I.mapping env τ
  rcases hx : T.onPath I.mapping env τ with ⟨x, τ1⟩
  rw [hx] at h1 h2
  cases x with
  | error e => rw [T.bind_error hx] at ht; cases ht
  | ok r =>
    rw [T.bind_ok hx] at ht ⊢
    refine (h r ?_).2 env τ1 hi h1 c τ' ht (he.trans h2.symm)
    intro kv hkv k hk
    subst hkv
    unfold T.onPath at hx
    rcases hp : τ.path with _ | _ | ⟨rr, p⟩
    · rw [hp] at hx; cases hx
    · rw [hp] at hx; cases hx
    · rw [hp] at hx
      have : (I.mapping p).1 = .ok (some kv) := by
        have := congrArg Prod.fst hx
        exact this
      exact (S.keys (hq rr p hp) this k hk).1

/-- A form under the current path: its errors are errors of the whole. -/
theorem Go.nested {t u : T P Unit} {k l : Bool → T P β} (h : Go S o t u) (hk : ∀ b, Go S o (k b) (l b)) :
    Go S o (T.withErrs false t >>= fun x => T.extend x.2 >>= fun _ => k x.2.isEmpty)
      (T.withErrs false u >>= fun x => T.extend x.2 >>= fun _ => l x.2.isEmpty) := by
  refine ⟨⟨.bind (.withErrs _ _) fun _ => .bind (.extend _) fun _ => (hk _).1.1,
    .bind (.withErrs _ h.1.2) fun _ => .bind (.extend _) fun _ => (hk _).1.2⟩, fun env τ hi hq c τ' ht he => ?_⟩
  have h0 := h.1.1 env { τ with errs := some { raising := false, items := [] } }
  have h1 := h.1.2 env { τ with errs := some { raising := false, items := [] } } hq
  rcases hx : t env { τ with errs := some { raising := false, items := [] } } with ⟨x, τ1⟩
  rw [hx] at h0 h1
  cases x with
  | error e =>
    have hw : T.withErrs false t env τ = (.error e, { τ1 with errs := τ.errs }) := by unfold T.withErrs; rw [hx]
    rw [T.bind_error hw] at ht
    cases ht
  | ok x =>
    have hw : T.withErrs false t env τ = (.ok (x, τ1.errs.elim [] ErrBuf.items), { τ1 with errs := τ.errs }) := by
      unfold T.withErrs; rw [hx]
    rw [T.bind_ok hw] at ht
    dsimp only at ht
    generalize hes : τ1.errs.elim [] ErrBuf.items = es at ht hw
    have hext : ∃ b, τ.errs = some b ∧ (T.extend es : T P Unit) env { τ1 with errs := τ.errs } =
        (.ok (), { τ1 with errs := some { b with items := b.items ++ es } }) := by
      cases hb : τ.errs with
      | none =>
        have : (T.extend es : T P Unit) env { τ1 with errs := τ.errs } =
            (.error (noCtxAttr "errors"), { τ1 with errs := τ.errs }) := by unfold T.extend; rw [hb]
        rw [T.bind_error this] at ht
        cases ht
      | some b => exact ⟨b, rfl, rfl⟩
    obtain ⟨b, hb, hext⟩ := hext
    rw [T.bind_ok hext] at ht
    have hm := (hk es.isEmpty).1.1 env { τ1 with errs := some { b with items := b.items ++ es } }
    rw [ht] at hm
    have hbetween := Lax.More.between (x := τ.errs) (by rw [hb]; exact ⟨rfl, es, rfl⟩) hm he
    rw [hb] at hbetween
    have hnil : es = [] := by
      have := congrArg (fun x : Option ErrBuf => (x.elim [] ErrBuf.items).length) hbetween
      simp only [Option.elim, List.length_append] at this
      exact List.eq_nil_of_length_eq_zero (by omega)
    subst hnil
    have he1 : τ1.errs = some { raising := false, items := [] } := by
      dsimp only at h0
      cases h1e : τ1.errs with
      | none => rw [h1e] at h0; exact h0.elim
      | some b1 =>
        rw [h1e] at h0 hes
        obtain ⟨hra, -⟩ := h0
        have hit : b1.items = [] := hes
        cases b1
        simp_all
    have hu := h.2 env { τ with errs := some { raising := false, items := [] } } hi hq x τ1 hx he1
    have hw' : T.withErrs false u env τ = (.ok (x, []), { τ1 with errs := τ.errs }) := by
      unfold T.withErrs; rw [hu]; dsimp only; rw [hes]
    rw [T.bind_ok hw']
    dsimp only
    rw [T.bind_ok hext]
    refine (hk true).2 env { τ1 with errs := some { b with items := b.items ++ [] } } hi h1 c τ' ht ?_
    rw [he, hb]
    simp

/-! ### Validation -/

/-- Never ends well. -/
def Bad (S : Sane I) (t : T P α) : Prop := Mild S t ∧ ∀ env τ a τ', t env τ = (.ok a, τ') → τ'.errs ≠ τ.errs

theorem Bad.reject (m : String) : Bad S (Lex.rejectWith I m) :=
  ⟨mild_reject m, fun env τ a τ' h => reject_bad m env τ a τ' false h⟩

theorem Bad.raise (e : Exc) : Bad S (T.raise e : T P α) := ⟨⟨.raise e, .raise e⟩, fun _ _ _ _ h => by cases h⟩

theorem Bad.ofExcept_bind (r : Except Exc α) {f : α → T P β} (h : ∀ a, Bad S (f a)) : Bad S (T.ofExcept r >>= f) := by
  cases r with
  | error e => exact .raise e
  | ok a => exact h a

theorem Go.ifBad {c c' : Prop} [Decidable c] [Decidable c'] {x x' k k' : T P α} (h : ¬c → ¬c') (hx : Bad S x)
    (hk : Go S o k k') : Go S o (if c then x else k) (if c' then x' else k') := by
  by_cases hc : c
  · rw [if_pos hc]; exact .bad hx.1 hx.2
  · rw [if_neg hc, if_neg (h hc)]; exact hk

theorem Go.gate {r r' : Except Exc α} {c : α → Bool} {x x' : α → T P β} {k k' : T P β}
    (h : ∀ a, r = .ok a → c a = false → ∃ a', r' = .ok a' ∧ c a' = false) (hx : ∀ a, Bad S (x a)) (hk : Go S o k k') :
    Go S o (T.ofExcept r >>= fun a => if c a = true then x a else k)
      (T.ofExcept r' >>= fun a => if c a = true then x' a else k') := by
  cases r with
  | error e => exact .raise e _
  | ok a =>
    show Go S o (if c a = true then x a else k) _
    cases hc : c a with
    | true => exact .bad (hx a).1 (hx a).2
    | false =>
      obtain ⟨a', rfl, h2⟩ := h a rfl hc
      show Go S o _ (if c a' = true then x' a' else k')
      rw [h2]
      exact hk

theorem lenBad_min {a b : Option Nat} (h : LessMin a b) {v : Val}
    (hv : lenBad a (fun n b => decide (n < b)) v = .ok false) : lenBad b (fun n b => decide (n < b)) v = .ok false := by
  rcases h with rfl | ⟨x, y, rfl, rfl, h⟩
  · rfl
  · unfold lenBad at hv ⊢
    dsimp only at hv ⊢
    cases hl : pyLen v with
    | error e => rw [hl] at hv; cases hv
    | ok n =>
      rw [hl] at hv
      have : decide (n < x) = false := by injection hv
      have : ¬ n < x := of_decide_eq_false this
      exact congrArg Except.ok (decide_eq_false (by omega))

theorem lenBad_max {a b : Option Nat} (h : MoreMax a b) {v : Val}
    (hv : lenBad a (fun n b => decide (b < n)) v = .ok false) : lenBad b (fun n b => decide (b < n)) v = .ok false := by
  rcases h with rfl | ⟨x, y, rfl, rfl, h⟩
  · rfl
  · unfold lenBad at hv ⊢
    dsimp only at hv ⊢
    cases hl : pyLen v with
    | error e => rw [hl] at hv; cases hv
    | ok n =>
      rw [hl] at hv
      have : decide (x < n) = false := by injection hv
      have : ¬ x < n := of_decide_eq_false this
      exact congrArg Except.ok (decide_eq_false (by omega))

theorem inList_mono {v : Val} {xs ys : List Val} (h : ∀ x ∈ xs, x ∈ ys) (hv : v.inList xs = true) : v.inList ys = true := by
  unfold Val.inList at hv ⊢
  rw [List.any_eq_true] at hv ⊢
  obtain ⟨x, hx, he⟩ := hv
  exact ⟨x, h x hx, he⟩

theorem badChars_mono {c d : StrCfg} (h : MoreOf c.alphabet d.alphabet) {v : Val} (hv : badChars c v = .ok []) :
    badChars d v = .ok [] := by
  unfold badChars at hv ⊢
  rcases h with h | ⟨h1, h2⟩
  · rw [if_pos (by rw [h]; rfl)]
  · rw [if_neg (by simpa using h1)] at hv
    by_cases hd : d.alphabet.isEmpty = true
    · rw [if_pos hd]
    · rw [if_neg hd]
      cases hi : iterVals v with
      | error e => rw [hi] at hv; cases hv
      | ok cs =>
        rw [hi] at hv
        have hv : cs.filter (fun x => !(x.inList (c.alphabet.map Val.str))) = [] := by injection hv
        refine congrArg Except.ok ?_
        rw [List.filter_eq_nil_iff] at hv ⊢
        intro x hx
        have := hv x hx
        simp only [Bool.not_eq_true', Bool.not_eq_false] at this ⊢
        refine inList_mono ?_ this
        intro y hy
        obtain ⟨z, hz, rfl⟩ := List.mem_map.1 hy
        exact List.mem_map.2 ⟨z, h2 z hz, rfl⟩

theorem patternOk_mono {c d : StrCfg} (h : d.pattern = none ∨ ∃ m t m' t', c.pattern = some (m, t) ∧
    d.pattern = some (m', t') ∧ ∀ s, m s = true → m' s = true) {v : Val} (hv : patternOk c v = .ok true) :
    patternOk d v = .ok true := by
  unfold patternOk at hv ⊢
  rcases h with h | ⟨m, t, m', t', h1, h2, h3⟩
  · rw [h]
  · rw [h1] at hv
    rw [h2]
    cases v with
    | str s =>
      have hv : m s = true := by injection hv
      exact congrArg Except.ok (h3 s hv)
    | _ => cases hv

theorem boundBad_low {L : Lib} {a b : Option Val} (h : LessLow L a b) {v : Val}
    (hv : boundBad (fun v b => pyLt L v b) a v = .ok false) : boundBad (fun v b => pyLt L v b) b v = .ok false := by
  rcases h with rfl | ⟨x, y, rfl, rfl, h⟩
  · rfl
  · exact h v hv

theorem boundBad_high {L : Lib} {a b : Option Val} (h : MoreHigh L a b) {v : Val}
    (hv : boundBad (fun v b => pyLt L b v) a v = .ok false) : boundBad (fun v b => pyLt L b v) b v = .ok false := by
  rcases h with rfl | ⟨x, y, rfl, rfl, h⟩
  · rfl
  · exact h v hv

section
variable {L : Lib} {C D : Classes} {n : Nat}

theorem Go.string {f g : Field} {c d : StrCfg} (h : LooserStr c d) (ht : g.core.translations = f.core.translations)
    (v : Val) : Go S o (Lex.stringValidate I L f c v) (Lex.stringValidate I L g d v) := by
  unfold Lex.stringValidate
  refine .gate (c := fun bad : List Val => !bad.isEmpty) ?_ (fun _ => .ofExcept_bind _ fun _ => .reject _) ?_
  · intro a ha hc
    have : a = [] := by cases a with
      | nil => rfl
      | cons _ _ => cases hc
    subst this
    exact ⟨[], badChars_mono h.alphabet ha, rfl⟩
  refine .gate (c := id) ?_ (fun _ => .reject _) ?_
  · intro a ha hc; cases a with
    | true => cases hc
    | false => exact ⟨false, lenBad_min h.minLength ha, rfl⟩
  refine .gate (c := id) ?_ (fun _ => .reject _) ?_
  · intro a ha hc; cases a with
    | true => cases hc
    | false => exact ⟨false, lenBad_max h.maxLength ha, rfl⟩
  refine .gate (c := fun p : Bool => !p) ?_ (fun _ => .reject _) ?_
  · intro a ha hc; cases a with
    | false => cases hc
    | true => exact ⟨true, patternOk_mono h.pattern ha, rfl⟩
  refine .ifBad ?_ ?_ (.pure _)
  · rw [ht]
    simp only [Bool.and_eq_true, Bool.not_eq_true', not_and, Bool.not_eq_false]
    intro hc hd
    rcases h.choices with h | ⟨h1, h2⟩
    · rw [h] at hd; cases hd
    · refine inList_mono ?_ (hc (by simpa using h1))
      intro x hx
      rcases List.mem_append.1 hx with hx | hx
      · exact List.mem_append_left _ (h2 x hx)
      · exact List.mem_append_right _ hx
  · split <;> exact .reject _

theorem Go.range {lo hi lo' hi' : Option Val} (hlo : LessLow L lo lo') (hhi : MoreHigh L hi hi')
    (m1 m2 m3 m4 : Val → Val → String) (v : Val) :
    Go S o (Lex.rangeValidate I L lo hi m1 m2 v) (Lex.rangeValidate I L lo' hi' m3 m4 v) := by
  unfold Lex.rangeValidate
  refine .gate (c := id) ?_ (fun _ => .reject _) ?_
  · intro a ha hc; cases a with
    | true => cases hc
    | false => exact ⟨false, boundBad_low hlo ha, rfl⟩
  refine .gate (c := id) ?_ (fun _ => .reject _) (.pure _)
  · intro a ha hc; cases a with
    | true => cases hc
    | false => exact ⟨false, boundBad_high hhi ha, rfl⟩

theorem Go.len {lo hi lo' hi' : Option Nat} (hlo : LessMin lo lo') (hhi : MoreMax hi hi') (v : Val) :
    Go S o (Lex.listValidate I lo hi v) (Lex.listValidate I lo' hi' v) := by
  unfold Lex.listValidate
  refine .gate (c := id) ?_ (fun _ => .reject _) ?_
  · intro a ha hc; cases a with
    | true => cases hc
    | false => exact ⟨false, lenBad_min hlo ha, rfl⟩
  refine .gate (c := id) ?_ (fun _ => .reject _) (.pure _)
  · intro a ha hc; cases a with
    | true => cases hc
    | false => exact ⟨false, lenBad_max hhi ha, rfl⟩

theorem missingKeys_mono {r r' : Required} (h : LooserReq r r') {v : Val} (hv : missingKeys r v = .ok []) :
    missingKeys r' v = .ok [] := by
  cases h with
  | same => exact hv
  | no => rfl
  | @fewer ks ks' h =>
    cases ks' with
    | nil => rfl
    | cons k ks' =>
      cases ks with
      | nil => cases h k (by simp)
      | cons k1 ks =>
        unfold missingKeys at hv ⊢
        dsimp only at hv ⊢
        cases hk : keysOf v with
        | error e => rw [hk] at hv; cases hv
        | ok hs =>
          rw [hk] at hv
          have hv : (k1 :: ks).filter (fun k => !(k.inList hs)) = [] := by injection hv
          refine congrArg Except.ok ?_
          rw [List.filter_eq_nil_iff] at hv ⊢
          exact fun x hx => hv x (h x hx)

theorem Go.keys {r r' : Required} {m m' : Option Nat} (hr : LooserReq r r') (hm : MoreKeys m m') (v : Val) :
    Go S o (Lex.dictValidate I L r m v) (Lex.dictValidate I L r' m' v) := by
  unfold Lex.dictValidate
  refine .gate (c := fun bad : List Val => !bad.isEmpty) ?_ (fun miss => ?_) ?_
  · intro a ha hc
    have : a = [] := by cases a with
      | nil => rfl
      | cons _ _ => cases hc
    subst this
    exact ⟨[], missingKeys_mono hr ha, rfl⟩
  · split
    · exact .reject _
    · exact .raise _
  · have hall : ∀ m : Option Nat, Mild S (match m with
        | none => T.pure true
        | some 0 => T.pure true
        | some m => (do
          let n ← T.ofExcept (pyLen v)
          if m < n then Lex.rejectWith I ("Cannot have more than " ++ toString m ++ " key(s)")
          else T.pure true : T P Bool)) := by
      intro m
      split
      · exact (Go.pure (o := True) true).1
      · exact (Go.pure (o := True) true).1
      · cases pyLen v with
        | error e => exact (Go.raise (o := True) e (T.raise e)).1
        | ok k => exact (Go.ite (o := True) (fun _ => .refl (mild_reject _)) fun _ => .pure _).1
    have htrue : ∀ (m : Option Nat) (u : T P Bool), (∀ env τ, u env τ = (.ok true, τ)) → Go S o (match m with
        | none => T.pure true
        | some 0 => T.pure true
        | some m => (do
          let n ← T.ofExcept (pyLen v)
          if m < n then Lex.rejectWith I ("Cannot have more than " ++ toString m ++ " key(s)")
          else T.pure true : T P Bool)) u := by
      intro m u hu
      refine ⟨hall m, ?_⟩
      have hp : Go S o (T.pure true) u := ⟨⟨.pure _, .pure _⟩, fun env τ _ _ a τ' h _ => by cases h; exact hu env _⟩
      split
      · exact hp.2
      · exact hp.2
      · cases pyLen v with
        | error e => exact (Go.raise (o := o) e u).2
        | ok k =>
          show Run S o (if _ then _ else _) u
          split
          · exact (Go.reject _ u).2
          · exact hp.2
    rcases hm with rfl | rfl | ⟨x, y, rfl, rfl, h0, hxy⟩
    · exact htrue m _ fun _ _ => rfl
    · exact htrue m _ fun _ _ => rfl
    · cases x with
      | zero => omega
      | succ x =>
        cases y with
        | zero => omega
        | succ y =>
          cases pyLen v with
          | error e => exact .raise e _
          | ok k =>
            exact .ifBad (c := x + 1 < k) (c' := y + 1 < k) (by omega) (.reject _) (.pure _)

theorem Go.validate {f g : Field} (h : Looser o L C D f g) (v : Val) :
    Go S o (Lex.kindValidate I L f v) (Lex.kindValidate I L g v) := by
  cases h with
  | @mk c d k l hc hk =>
  unfold Lex.kindValidate
  refine .bind ?_ fun ok => .ite (fun _ => .pure _) fun _ => .ite (fun _ => .pure _) fun _ => ?_
  · unfold Lex.baseValidate
    refine .ifBad ?_ (.reject _) (.pure _)
    simp only [Field.core, Bool.and_eq_true, Bool.not_eq_true', not_and, Bool.not_eq_false]
    exact fun h1 h2 => hc.nullable (h1 h2)
  · cases hk with
    | string h => exact .string (f := .mk c _) (g := .mk d _) h hc.translations v
    | integer h | float h | decimal h => exact .range h.min h.max _ _ _ _ v
    | date h | time h | datetime h => exact .range h.after h.before _ _ _ _ v
    | list h hlo hhi ha => exact .len hlo hhi v
    | dict hk hv hr hm => exact .keys hr hm v
    | _ => exact .pure _

/-! ### The steps of mapping -/

theorem fit {f : Field} (h : f.All HookFree) : f.All (closed S L C).Fit := h.imp fun _ h => ⟨h.calm, trivial⟩

theorem fitU {u : Unmapped} (h : u.All HookFree) : u.All (closed S L C).Fit := h.imp fun _ h => ⟨h.calm, trivial⟩

theorem default_same {f g : Field} {rec rec' : TRec P} (hf : HookFree f) (h : g.core.default = f.core.default) :
    Lex.fieldDefault I L D rec' g = Lex.fieldDefault I L C rec f := by
  unfold Lex.fieldDefault
  rw [h]
  rcases hf.default with h | ⟨v, h⟩ <;> rw [h]
  congr
  funext ig
  split
  · rfl
  · cases v with
    | const c => cases c <;> rfl
    | _ => rfl

theorem Go.default {f g : Field} {rec rec' : TRec P} (hf : HookFree f) (h : Looser o L C D f g) :
    Go S o (Lex.fieldDefault I L C rec f) (Lex.fieldDefault I L D rec' g) := by
  have hm : Mild S (Lex.fieldDefault I L C rec f) := Closed.fieldDefault (K := closed S L C) hf.calm
  cases h with
  | @mk c d k l hc hk =>
  rcases hc.default with hd | ⟨ho, hd⟩
  · rw [default_same (C := C) (D := D) (rec := rec) (rec' := rec') (g := .mk d l) hf hd]
    exact .refl hm
  · unfold Lex.fieldDefault
    refine .bind (.refl ⟨.ctxGet _ _, .ctxGet _ _⟩) fun ig => .ite (fun _ => .refl
      (Closed.missingNotSet (K := closed S L C))) fun _ => ?_
    have hd : (Field.mk c k).core.default = .unset := hd
    rw [hd]
    suffices hgo : ∀ w : T P Val, Go S o (Lex.missingNotSet I) w from hgo _
    refine fun w => ⟨Closed.missingNotSet (K := closed S L C), fun env τ hi hq a τ' ht he => ?_⟩
    unfold Lex.missingNotSet at ht
    have e1 : (T.ctxGet Env.ignoreMissing "ignore_missing" : T P Bool) env τ = (.ok false, τ) := by
      unfold T.ctxGet; rw [hi.ignoreMissing ho]
    rw [T.bind_ok e1] at ht
    rw [if_neg (by simp)] at ht
    unfold Lex.missing at ht
    rcases hx : T.report I .missing env τ with ⟨x, τ1⟩
    cases x with
    | error e => rw [T.bind_error hx] at ht; cases ht
    | ok x => rw [T.bind_ok hx] at ht; cases ht; exact absurd he (Lax.report_more hx)

/-- Mapping with the first and with the second classes. -/
structure RecGo (S : Sane I) (o : Prop) (L : Lib) (C D : Classes) (n : Nat) (rec rec' : TRec P) : Prop where
  first : rec = Lex.mapField I L C n
  second : rec' = Lex.mapField I L D n
  mild : ∀ f v, f.All (ValueHooks True) → Mild S (rec f v)
  go : ∀ f g v, f.All HookFree → g.All HookFree → Looser o L C D f g → Go S o (rec f v) (rec' g v)

variable {rec rec' : TRec P}

theorem RecGo.recU (h : RecGo S o L C D n rec rec') : (closed S L C).RecU rec :=
  ⟨⟨n, h.first⟩, fun f v hf => h.mild f v (hf.imp fun _ h => h.1)⟩

theorem Go.check {f g : Field} (hf : HookFree f) (hg : HookFree g) (h : Looser o L C D f g) (v : Val) :
    Go S o (Lex.fieldCheck I L C rec f v) (Lex.fieldCheck I L D rec' g v) := by
  have hd : Go S o (Lex.fieldDefault I L C rec f) (Lex.fieldDefault I L D rec' g) := .default hf h
  have hv := fun v => Go.validate (I := I) (S := S) h v
  have hmg : ∀ v, fieldMunge g v = fieldMunge f v := by
    intro v
    cases h with
    | @mk c d k l hc hk =>
      have e : (Field.mk d l).core.translations = (Field.mk c k).core.translations := hc.translations
      unfold fieldMunge; rw [e]
  have hfl : ∀ v, fieldFilter g v = fieldFilter f v := by
    intro v
    cases h with
    | @mk c d k l hc hk =>
      have e : (Field.mk d l).core.ignores = (Field.mk c k).core.ignores := hc.ignores
      unfold fieldFilter; rw [e]
  unfold Lex.fieldCheck
  rw [hf.mungeStep, hg.mungeStep, hmg]
  refine .bind (.refl (Closed.ofExcept (K := closed S L C) _)) fun v => .ite (fun _ => hd) fun _ =>
    .ite (fun _ => .pure _) fun _ => ?_
  rw [hf.filterStep, hg.filterStep, hfl, hf.validateStep, hg.validateStep]
  exact .bind (.pure _) fun keep => .ite (fun _ => hd) fun _ => .bind (hv v) fun _ => .pure _

theorem keep_same {kfl : Option (Hook (Val → Prog))} (hk : ∀ h, kfl = some h → ∃ id, h = notInForm id) (k : Val) :
    Lex.keepKey I L D rec' kfl k = Lex.keepKey I L C rec kfl k := by
  cases kfl with
  | none => rfl
  | some h => obtain ⟨id, rfl⟩ := hk h rfl; rfl

theorem Go.tuple (hr : RecGo S o L C D n rec rec') {fs gs : List Field} (h : LooserFields o L C D fs gs)
    (hfs : ∀ f ∈ fs, f.All HookFree) (hgs : ∀ g ∈ gs, g.All HookFree) :
    ∀ i, Go S o (Lex.tupleLoop I rec i fs) (Lex.tupleLoop I rec' i gs) := by
  induction fs generalizing gs with
  | nil => cases h; intro i; exact .pure _
  | cons f fs ih =>
    cases h with
    | cons h hs =>
      intro i
      exact .bind (.withKey rfl (hr.go _ _ _ (hfs _ (by simp)) (hgs _ (by simp)) h)) fun v =>
        .bind (ih hs (fun f hf => hfs f (by simp [hf])) (fun g hg => hgs g (by simp [hg])) _) fun _ => .pure _

theorem LooserFields.length {fs gs : List Field} (h : LooserFields o L C D fs gs) : gs.length = fs.length := by
  induction fs generalizing gs with
  | nil => cases h; rfl
  | cons f fs ih => cases h with | cons _ hs => simp [ih hs]

theorem Go.list (hr : RecGo S o L C D n rec rec') {f g : Field} (h : Looser o L C D f g) (hf : f.All HookFree)
    (hg : g.All HookFree) (m : Nat) : ∀ i, Go S o (Lex.listLoop I rec f i m) (Lex.listLoop I rec' g i m) := by
  induction m with
  | zero => intro i; exact .pure _
  | succ m ih =>
    intro i
    exact .bind (.withKey rfl (hr.go _ _ _ hf hg h)) fun v => .bind (ih _) fun _ => .pure _

theorem Go.dict (hr : RecGo S o L C D n rec rec') {kf vf kg vg : Field} (hk : Looser o L C D kf kg)
    (hv : Looser o L C D vf vg) (hkf : kf.All HookFree) (hvf : vf.All HookFree) (hkg : kg.All HookFree)
    (hvg : vg.All HookFree) {kfl : Option (Hook (Val → Prog))} (hfl : ∀ h, kfl = some h → ∃ id, h = notInForm id)
    (ks : List Val) (hks : ∀ k ∈ ks, k.isNull = false) :
    ∀ acc, Go S o (Lex.dictLoop I L C rec kf vf kfl ks acc) (Lex.dictLoop I L D rec' kg vg kfl ks acc) := by
  induction ks with
  | nil => intro acc; exact .pure _
  | cons k ks ih =>
    intro acc
    have ih := ih fun k hk => hks k (by simp [hk])
    have hkeep : Mild S (Lex.keepKey I L C rec kfl k) := Closed.keepKey (K := closed S L C)
      (fun h e => by obtain ⟨id, h⟩ := hfl h e; exact ⟨id, h, trivial⟩) k
    unfold Lex.dictLoop
    rw [keep_same (C := C) (D := D) (rec := rec) (rec' := rec') hfl]
    exact .bind (.refl hkeep) fun keep => .ite (fun _ => ih _) fun _ =>
      .bind (.withKey (hks k (by simp)) (hr.go _ _ _ hvf hvg hv)) fun v => .ite (fun _ => ih _) fun _ =>
        .bind (hr.go _ _ _ hkf hkg hk) fun k' => .ite (fun _ => ih _) fun _ => .ite (fun _ => .raise _ _) fun _ => ih _

theorem LooserGroup.matches {fs gs : List (GSrc × Field)} (h : LooserGroup o L C D fs gs) (k : Val) :
    (∃ e, groupMatch fs k = .error e) ∨ (groupMatch fs k = .ok none ∧ groupMatch gs k = .ok none) ∨
    ∃ s f g cap, groupMatch fs k = .ok (some (f, cap)) ∧ groupMatch gs k = .ok (some (g, cap)) ∧ (s, f) ∈ fs ∧
      (s, g) ∈ gs ∧ Looser o L C D f g := by
  induction fs generalizing gs with
  | nil => cases h; exact .inr (.inl ⟨rfl, rfl⟩)
  | cons x fs ih =>
    cases h with
    | @cons s f g _ gs h hs =>
      have ih := ih hs
      have next : (∃ e, groupMatch fs k = .error e) ∨ (groupMatch fs k = .ok none ∧ groupMatch gs k = .ok none) ∨
          ∃ s' f' g' cap, groupMatch fs k = .ok (some (f', cap)) ∧ groupMatch gs k = .ok (some (g', cap)) ∧
            (s', f') ∈ (s, f) :: fs ∧ (s', g') ∈ (s, g) :: gs ∧ Looser o L C D f' g' := by
        rcases ih with h | h | ⟨s', f', g', cap, h1, h2, h3, h4, h5⟩
        · exact .inl h
        · exact .inr (.inl h)
        · exact .inr (.inr ⟨s', f', g', cap, h1, h2, by simp [h3], by simp [h4], h5⟩)
      cases s with
      | str s =>
        unfold groupMatch
        by_cases hp : (Val.str s).pyEq k = true
        · rw [if_pos hp, if_pos hp]
          exact .inr (.inr ⟨.str s, f, g, .none, rfl, rfl, by simp, by simp, h⟩)
        · rw [if_neg hp, if_neg hp]; exact next
      | re m =>
        cases k with
        | str t =>
          unfold groupMatch
          dsimp only
          cases hm : m t with
          | some cap => exact .inr (.inr ⟨.re m, f, g, cap, rfl, rfl, by simp, by simp, h⟩)
          | none => exact next
        | _ => exact .inl ⟨_, rfl⟩

theorem Go.group (hr : RecGo S o L C D n rec rec') {fs gs : List (GSrc × Field)} (h : LooserGroup o L C D fs gs)
    (hfs : ∀ x ∈ fs, x.2.All HookFree) (hgs : ∀ x ∈ gs, x.2.All HookFree) (ks : List Val)
    (hks : ∀ k ∈ ks, k.isNull = false) :
    ∀ b acc, Go S o (Lex.groupLoop I rec fs ks b acc) (Lex.groupLoop I rec' gs ks b acc) := by
  induction ks with
  | nil => intro b acc; exact .pure _
  | cons k ks ih =>
    intro b acc
    have ih := ih fun k hk => hks k (by simp [hk])
    unfold Lex.groupLoop
    rcases h.matches k with ⟨e, h1⟩ | ⟨h1, h2⟩ | ⟨s, f, g, cap, h1, h2, h3, h4, h5⟩
    · rw [h1]; exact .raise e _
    · rw [h1, h2]; exact ih _ _
    · rw [h1, h2]
      show Go S o (T.withKey I k (rec f .NONE) >>= _) (T.withKey I k (rec' g .NONE) >>= _)
      exact .bind (.withKey (hks k (by simp)) (hr.go _ _ _ (hfs _ h3) (hgs _ h4) h5)) fun v =>
        .ite (fun _ => ih _ _) fun _ => ih _ _

/-! ### Forms -/

theorem Looser.name {f g : Field} (h : Looser o L C D f g) : g.name = f.name := by
  cases h with | mk hc hk => exact hc.name

theorem Looser.tags {f g : Field} (h : Looser o L C D f g) : g.core.tags = f.core.tags := by
  cases h with | mk hc hk => exact hc.tags

theorem reset_same {fs gs : List Field} (h : LooserFields o L C D fs gs) (id : Nat) (tags : List String) :
    (Lex.formReset id tags gs : T P Unit) = Lex.formReset id tags fs := by
  induction fs generalizing gs with
  | nil => cases h; rfl
  | cons f fs ih =>
    cases h with
    | cons h hs =>
      unfold Lex.formReset selected Field.key
      rw [h.tags, h.name, ih hs]

theorem Go.fields (hr : RecGo S o L C D n rec rec') {fs gs : List Field} (h : LooserFields o L C D fs gs)
    (hfs : ∀ f ∈ fs, f.All HookFree) (hgs : ∀ g ∈ gs, g.All HookFree) (id : Nat) (tags : List String) :
    Go S o (Lex.mapFields rec id tags fs) (Lex.mapFields rec' id tags gs) := by
  induction fs generalizing gs with
  | nil => cases h; exact .pure _
  | cons f fs ih =>
    cases h with
    | @cons _ g _ gs h hs =>
      refine .bind ?_ fun _ => ih hs (fun f hf => hfs f (by simp [hf])) (fun g hg => hgs g (by simp [hg]))
      unfold Lex.mapOne
      have hsel : selected tags g = selected tags f := by unfold selected; rw [h.tags]
      have hkey : g.key = f.key := by unfold Field.key; rw [h.name]
      rw [hsel, hkey]
      refine .ite (fun _ => .bind (hr.go _ _ _ (hfs _ (by simp)) (hgs _ (by simp)) h) fun v =>
        .ite (fun _ => .pure _) fun _ => .refl ?_) fun _ => .pure _
      exact ⟨.formModify _ _, .same fun _ _ => rfl⟩

theorem looser_captureKey : Looser o L C D captureKeyField captureKeyField :=
  .mk ⟨rfl, rfl, id, .inl rfl, rfl, rfl, rfl, rfl⟩ (.string ⟨.inl rfl, .inl rfl, .inl rfl, .inl rfl, .inl rfl⟩)

theorem looser_captureValue : Looser o L C D captureValueField captureValueField :=
  .mk ⟨rfl, rfl, id, .inl rfl, rfl, rfl, rfl, rfl⟩ .base

theorem Go.unmappedGo (hr : RecGo S o L C D n rec rec') (id : Nat) {kf vf kg vg : Field} (hk : Looser o L C D kf kg)
    (hv : Looser o L C D vf vg) (hkf : kf.All HookFree) (hvf : vf.All HookFree) (hkg : kg.All HookFree)
    (hvg : vg.All HookFree) : Go S o (Lex.unmappedGo rec id kf vf) (Lex.unmappedGo rec' id kg vg) := by
  have h : Looser o L C D (unmappedField id kf vf) (unmappedField id kg vg) :=
    .mk ⟨rfl, rfl, fun h => h, .inl rfl, rfl, rfl, rfl, rfl⟩ (.dict hk hv (.same _) (.inl rfl))
  unfold Lex.unmappedGo
  refine .bind (hr.go _ _ _ (unmappedField_free hkf hvf) (unmappedField_free hkg hvg) h) fun v => .refl ?_
  split
  · exact ⟨.pure _, .pure _⟩
  · exact ⟨.formModify _ _, .same fun _ _ => rfl⟩
  · exact ⟨.raise _, .raise _⟩

theorem Go.unmapped (hr : RecGo S o L C D n rec rec') (id : Nat) {u v : Unmapped} (h : LooserUnmapped o L C D u v)
    (hu : u.All HookFree) (hv : v.All HookFree) : Go S o (Lex.applyUnmapped rec id u) (Lex.applyUnmapped rec' id v) := by
  cases h with
  | @str u =>
    cases u with
    | capture =>
      exact .unmappedGo hr id looser_captureKey looser_captureValue captureKey_free captureValue_free captureKey_free
        captureValue_free
    | none => exact .pure _
    | ignore => exact .pure _
    | bad => exact .raise _ _
  | value h =>
    cases hu with
    | value hu => cases hv with
      | value hv => exact .unmappedGo hr id looser_captureKey h captureKey_free hu captureKey_free hv
  | pair hk h =>
    cases hu with
    | pair hu1 hu2 => cases hv with
      | pair hv1 hv2 => exact .unmappedGo hr id hk h hu1 hu2 hv1 hv2

theorem Go.body (hr : RecGo S o L C D n rec rec') (hC : C.All HookFree) (hD : D.All HookFree)
    (hCD : LooserClasses o L C D) (id : Nat) (tags : List String) {u v : Unmapped} (h : LooserUnmapped o L C D u v)
    (hu : u.All HookFree) (hv : v.All HookFree) :
    Go S o (Lex.formMapBody I C rec id tags u) (Lex.formMapBody I D rec' id tags v) := by
  unfold Lex.formMapBody
  exact .bind (.refl ⟨.onPath _, .onPath fun _ h => S.mapping h⟩) fun _ => .bind (.refl ⟨.formCls _, .formCls _⟩) fun cls =>
    .bind (.withEnv _ (.fields hr (hCD cls) (hC cls) (hD cls) id tags)) fun _ => .unmapped hr id h hu hv

theorem Go.src {f g : Bool → T P β} (hm : ∀ b, Mild S (f b)) (h : Go S o (f true) (g true)) :
    Go S o (T.ctxGet Env.src "src" >>= f) (T.ctxGet Env.src "src" >>= g) := by
  refine ⟨⟨.bind (.ctxGet _ _) fun a => (hm a).1, .bind (.ctxGet _ _) fun a => (hm a).2⟩,
    fun env τ hi hq a τ' ht he => ?_⟩
  have e1 : (T.ctxGet Env.src "src" : T P Bool) env τ = (.ok true, τ) := by unfold T.ctxGet; rw [hi.src]
  rw [T.bind_ok e1] at ht ⊢
  exact h.2 env τ hi hq a τ' ht he

theorem Go.form (hr : RecGo S o L C D n rec rec') (hC : C.All HookFree) (hD : D.All HookFree)
    (hCD : LooserClasses o L C D) (id : Nat) (tags : List String) (reset : Bool) {u v : Unmapped}
    (h : LooserUnmapped o L C D u v) (hu : u.All HookFree) (hv : v.All HookFree) {k : Bool → T P β}
    (hk : ∀ b, Mild S (k b)) :
    Go S o (Lex.formMap I C rec id .none tags reset u false >>= fun es => k es.isEmpty)
      (Lex.formMap I D rec' id .none tags reset v false >>= fun es => k es.isEmpty) := by
  have hb : ∀ tags, Go S o (Lex.formMapBody I C rec id tags u) (Lex.formMapBody I D rec' id tags v) := fun tags =>
    .body hr hC hD hCD id tags h hu hv
  unfold Lex.formMap
  simp only [T.bind_assoc]
  refine .bind (.refl ⟨.same fun _ _ => rfl, .same fun _ _ => rfl⟩) fun ct => .bind ?_ fun _ => ?_
  · unfold Lex.formResetIf
    refine .ite (fun _ => .bind (.refl ⟨.formCls _, .formCls _⟩) fun cls => ?_) fun _ => .pure _
    rw [reset_same (hCD cls)]
    exact .refl (Closed.formReset (K := closed S L C) id _ _)
  · have hfin : ∀ es : List Err, (Lex.formFinish false es : T P _) = T.pure es := fun _ => rfl
    simp only [hfin]
    have hp : ∀ (es : List Err) (f : List Err → T P β), (T.pure es >>= f) = f es := fun _ _ => rfl
    simp only [hp]
    refine .src (fun b => ?_) ?_
    · show Mild S (((if b then _ else _) : T P (List Err)) >>= fun es => k es.isEmpty)
      rw [T.ite_bind]
      split
      · unfold Lex.nestedMap
        simp only [T.bind_assoc, hp]
        exact ⟨.bind (.withErrs _ _) fun _ => .bind (.extend _) fun _ => (hk _).1,
          .bind (.withErrs _ (hb _).1.2) fun _ => .bind (.extend _) fun _ => (hk _).2⟩
      · unfold Lex.rootMap Lex.rootSource
        simp only [T.bind_assoc, hp]
        exact ⟨.bind (.pure _) fun _ => .bind (.withErrs _ _) fun _ => (hk _).1,
          .bind (.pure _) fun _ => .bind (.withErrs _ .withSource) fun _ => (hk _).2⟩
    · show Go S o (Lex.nestedMap I C rec id (pickTags tags ct) u false >>= fun es => k es.isEmpty)
        (Lex.nestedMap I D rec' id (pickTags tags ct) v false >>= fun es => k es.isEmpty)
      unfold Lex.nestedMap
      simp only [T.bind_assoc, hp]
      exact .nested (hb _) fun b => .refl (hk b)

theorem Go.sub (hr : RecGo S o L C D n rec rec') (hC : C.All HookFree) (hD : D.All HookFree)
    (hCD : LooserClasses o L C D) (cls : Nat) (reset : Bool) {u v : Unmapped}
    (h : LooserUnmapped o L C D u v) (hu : u.All HookFree) (hv : v.All HookFree) :
    Go S o (Lex.subParse I C rec cls reset u) (Lex.subParse I D rec' cls reset v) := by
  unfold Lex.subParse
  exact .bind (.refl ⟨.state fun _ _ => ⟨_, _, rfl⟩, .same fun _ _ => rfl⟩) fun id =>
    .form hr hC hD hCD id [] reset h hu hv (k := fun b => T.pure (if b then Val.form id else Val.ERROR))
      fun _ => ⟨.pure _, .pure _⟩

/-! ### Type fields -/

theorem leaf_kind {f : Field} (hl : Leaf f) : Lex.kindParse I L D rec' f = Lex.kindParse I L C rec f := by
  cases f with
  | mk c k =>
  cases k with
  | tuple | list | dict | subform | poly | group => exact hl.elim
  | _ => rfl

theorem withErrs_same {t u : T P α} {b : Bool} {env : Env} {τ : TSt P}
    (h : t env { τ with errs := some { raising := b, items := [] } } =
      u env { τ with errs := some { raising := b, items := [] } }) :
    T.withErrs b t env τ = T.withErrs b u env τ := by
  unfold T.withErrs; rw [h]

theorem withSource_same {t u : T P α} {mk : Except Exc P} {env : Env} {τ : TSt P}
    (h : ∀ env (τ1 : TSt P), τ1.forms = τ.forms → t env τ1 = u env τ1) :
    T.withSource mk t env τ = T.withSource mk u env τ := by
  unfold T.withSource
  cases mk with
  | error e => rfl
  | ok p => dsimp only; rw [h _ { τ with path := some (some (τ.npaths, p)), npaths := τ.npaths + 1 } rfl]

/-- A field without fields in it does not depend on the classes. -/
theorem leaf_same {f : Field} (hf : HookFree f) (hl : Leaf f) (n : Nat) (v : Val) :
    Lex.mapField I L D n f v = Lex.mapField I L C n f v := by
  cases n with
  | zero => rfl
  | succ n =>
    have hd : Lex.fieldDefault I L D (Lex.mapField I L D n) f = Lex.fieldDefault I L C (Lex.mapField I L C n) f :=
      default_same hf rfl
    have hc : ∀ v, Lex.fieldCheck I L D (Lex.mapField I L D n) f v = Lex.fieldCheck I L C (Lex.mapField I L C n) f v := by
      intro v
      unfold Lex.fieldCheck
      simp only [hf.mungeStep, hf.filterStep, hf.validateStep, hd]
    have hk : Lex.kindParse I L D (Lex.mapField I L D n) f = Lex.kindParse I L C (Lex.mapField I L C n) f :=
      leaf_kind hl
    have hs : Lex.fieldStart I L D (Lex.mapField I L D n) f = Lex.fieldStart I L C (Lex.mapField I L C n) f := by
      rw [hf.fieldStart, hf.fieldStart]
      unfold Lex.fieldCompute
      rw [hf.fieldParse, hf.fieldParse, hk, hd]
      simp only [hc]
    show Lex.mapFieldF I L D (Lex.mapField I L D n) f v = Lex.mapFieldF I L C (Lex.mapField I L C n) f v
    unfold Lex.mapFieldF Lex.fieldMapInner Lex.withResolve
    rw [hf.resolve, hs, hc]

/-- The class of a form. -/
def ClsAt (id pc : Nat) (τ : TSt P) : Prop := ∃ x, τ.forms[id]? = some x ∧ x.cls = pc

theorem ClsAt.formCls {id pc : Nat} {τ : TSt P} (h : ClsAt id pc τ) (env : Env) :
    (T.formCls id : T P Nat) env τ = (.ok pc, τ) := by
  obtain ⟨x, h1, h2⟩ := h
  unfold T.formCls
  rw [h1, ← h2]

theorem mapFields_same {fs : List Field} (h : ∀ f ∈ fs, ∀ v, rec' f v = rec f v) (id : Nat) (tags : List String) :
    Lex.mapFields rec' id tags fs = Lex.mapFields rec id tags fs := by
  induction fs with
  | nil => rfl
  | cons f fs ih =>
    unfold Lex.mapFields Lex.mapOne
    rw [h f (by simp), ih fun g hg => h g (by simp [hg])]

theorem body_same {id pc : Nat} (hp : (D pc).fields = (C pc).fields) (h : ∀ f ∈ (C pc).fields, ∀ v, rec' f v = rec f v)
    (tags : List String) (env : Env) (τ : TSt P) (hc : ClsAt id pc τ) :
    Lex.formMapBody I D rec' id tags (.str .ignore) env τ = Lex.formMapBody I C rec id tags (.str .ignore) env τ := by
  unfold Lex.formMapBody
  have hforms : (T.onPath I.mapping env τ).2.forms = τ.forms := by
    unfold T.onPath
    rcases τ.path with _ | _ | ⟨r, p⟩ <;> rfl
  rcases hx : T.onPath I.mapping env τ with ⟨x, τ1⟩
  rw [hx] at hforms
  have hc1 : ClsAt id pc τ1 := by
    obtain ⟨y, h1, h2⟩ := hc
    exact ⟨y, by rw [show τ1.forms = τ.forms from hforms]; exact h1, h2⟩
  cases x with
  | error e => rw [T.bind_error hx, T.bind_error hx]
  | ok m =>
    rw [T.bind_ok hx, T.bind_ok hx, T.bind_ok (hc1.formCls env), T.bind_ok (hc1.formCls env), hp, mapFields_same h]
    rfl

theorem form_same {id pc : Nat} (hp : (D pc).fields = (C pc).fields) (h : ∀ f ∈ (C pc).fields, ∀ v, rec' f v = rec f v)
    (src : SrcArg P) (env : Env) (τ : TSt P) (hc : ClsAt id pc τ) :
    Lex.formMap I D rec' id src [] false (.str .ignore) false env τ =
      Lex.formMap I C rec id src [] false (.str .ignore) false env τ := by
  have hb : ∀ tags env (τ1 : TSt P), τ1.forms = τ.forms →
      Lex.formMapBody I D rec' id tags (.str .ignore) env τ1 = Lex.formMapBody I C rec id tags (.str .ignore) env τ1 := by
    intro tags env τ1 hf
    obtain ⟨y, h1, h2⟩ := hc
    exact body_same hp h tags env τ1 ⟨y, by rw [hf]; exact h1, h2⟩
  have hsrc : Lex.rootSource I D id src env τ = Lex.rootSource I C id src env τ := by
    unfold Lex.rootSource
    split <;> first
      | rfl
      | rw [T.bind_ok (hc.formCls env), T.bind_ok (hc.formCls env), hp]
  have hsrcτ : ∀ x τ1, Lex.rootSource I C id src env τ = (x, τ1) → τ1 = τ := by
    intro x τ1 hx
    unfold Lex.rootSource at hx
    split at hx <;> first
      | (cases hx; rfl)
      | (rw [T.bind_ok (hc.formCls env)] at hx; cases hx; rfl)
  have hroot : ∀ tags, Lex.rootMap I D rec' id src tags (.str .ignore) false env τ =
      Lex.rootMap I C rec id src tags (.str .ignore) false env τ := by
    intro tags
    unfold Lex.rootMap
    rcases hx : Lex.rootSource I C id src env τ with ⟨x, τ1⟩
    have hx' := hsrc.trans hx
    cases hsrcτ x τ1 hx
    cases x with
    | error e => rw [T.bind_error hx, T.bind_error hx']
    | ok mk =>
      rw [T.bind_ok hx, T.bind_ok hx']
      have hw : T.withErrs false (T.withSource mk (Lex.formMapBody I D rec' id tags (.str .ignore))) env τ =
          T.withErrs false (T.withSource mk (Lex.formMapBody I C rec id tags (.str .ignore))) env τ :=
        withErrs_same (withSource_same fun env τ1 h => hb tags env τ1 h)
      rcases hy : T.withErrs false (T.withSource mk (Lex.formMapBody I C rec id tags (.str .ignore))) env τ with ⟨y, τ2⟩
      rw [hy] at hw
      cases y with
      | error e => rw [T.bind_error hy, T.bind_error hw]
      | ok y => rw [T.bind_ok hy, T.bind_ok hw]
  have hnone : ∀ tags, Lex.rootMap I D rec' id .none tags (.str .ignore) false env τ =
      Lex.rootMap I C rec id .none tags (.str .ignore) false env τ := by
    intro tags
    show (T.withErrs false (T.withSource _ _) >>= _ : T P _) env τ = (T.withErrs false (T.withSource _ _) >>= _ : T P _) env τ
    have hw : T.withErrs false (T.withSource (.ok (I.native (.dict []) none)) (Lex.formMapBody I D rec' id tags (.str .ignore))) env τ =
        T.withErrs false (T.withSource (.ok (I.native (.dict []) none)) (Lex.formMapBody I C rec id tags (.str .ignore))) env τ :=
      withErrs_same (withSource_same fun env τ1 h => hb tags env τ1 h)
    rcases hy : T.withErrs false (T.withSource (.ok (I.native (.dict []) none)) (Lex.formMapBody I C rec id tags (.str .ignore)))
      env τ with ⟨y, τ2⟩
    rw [hy] at hw
    cases y with
    | error e => rw [T.bind_error hy, T.bind_error hw]
    | ok y => rw [T.bind_ok hy, T.bind_ok hw]
  have hnest : ∀ tags, Lex.nestedMap I D rec' id tags (.str .ignore) false env τ =
      Lex.nestedMap I C rec id tags (.str .ignore) false env τ := by
    intro tags
    unfold Lex.nestedMap
    have hw : T.withErrs false (Lex.formMapBody I D rec' id tags (.str .ignore)) env τ =
        T.withErrs false (Lex.formMapBody I C rec id tags (.str .ignore)) env τ :=
      withErrs_same (hb tags _ _ rfl)
    rcases hy : T.withErrs false (Lex.formMapBody I C rec id tags (.str .ignore)) env τ with ⟨y, τ2⟩
    rw [hy] at hw
    cases y with
    | error e => rw [T.bind_error hy, T.bind_error hw]
    | ok y => rw [T.bind_ok hy, T.bind_ok hw]
  have hat : ∀ tags c, Lex.formMapAt I D rec' id src tags (.str .ignore) false c env τ =
      Lex.formMapAt I C rec id src tags (.str .ignore) false c env τ := by
    intro tags c
    unfold Lex.formMapAt
    split
    · split
      · exact hnest tags
      · exact hnone tags
    · exact hroot tags
  unfold Lex.formMap
  have e0 : (T.ctxGet? Env.tags : T P _) env τ = (.ok env.tags, τ) := rfl
  have e1 : ∀ (C : Classes) tags, (Lex.formResetIf C id tags false : T P Unit) env τ = (.ok (), τ) := fun _ _ => rfl
  rw [T.bind_ok e0, T.bind_ok e0, T.bind_ok (e1 D _), T.bind_ok (e1 C _)]
  have e2 : (∃ e, (T.ctxGet Env.src "src" : T P _) env τ = (.error e, τ)) ∨
      ∃ a, (T.ctxGet Env.src "src" : T P _) env τ = (.ok a, τ) := by
    unfold T.ctxGet
    split
    · exact .inr ⟨_, rfl⟩
    · exact .inl ⟨_, rfl⟩
  rcases e2 with ⟨e, e2⟩ | ⟨c, e2⟩
  · rw [T.bind_error e2, T.bind_error e2]
  · rw [T.bind_ok e2, T.bind_ok e2]
    have hw := hat (pickTags [] env.tags) c
    rcases hy : Lex.formMapAt I C rec id src (pickTags [] env.tags) (.str .ignore) false c env τ with ⟨y, τ2⟩
    rw [hy] at hw
    cases y with
    | error e => rw [T.bind_error hy, T.bind_error hw]
    | ok y => rw [T.bind_ok hy, T.bind_ok hw]

theorem poly_same {tf : Field} {pc : Nat} (hp : (D pc).fields = (C pc).fields)
    (h : ∀ f ∈ (C pc).fields, ∀ v, rec' f v = rec f v) (ht : ∀ v, rec' tf v = rec tf v) (types : List (Val × Nat)) :
    Lex.polyType I L D rec' tf pc types = Lex.polyType I L C rec tf pc types := by
  have hget : ∀ id, Lex.fieldGet I rec' tf id = Lex.fieldGet I rec tf id := by
    intro id
    unfold Lex.fieldGet Lex.getEmpty
    rw [ht]
  have hprobe : ∀ src, Lex.probe I D rec' tf pc src = Lex.probe I C rec tf pc src := by
    intro src
    funext env τ
    unfold Lex.probe
    have e0 : (T.newForm pc : T P Nat) env τ =
        (.ok τ.forms.length, { τ with forms := τ.forms ++ [{ cls := pc, items := [] }] }) := rfl
    rw [T.bind_ok e0, T.bind_ok e0]
    have hw := form_same (I := I) (id := τ.forms.length) hp h src env
      { τ with forms := τ.forms ++ [{ cls := pc, items := [] }] } ⟨{ cls := pc, items := [] }, by simp, rfl⟩
    rcases hy : Lex.formMap I C rec τ.forms.length src [] false (.str .ignore) false env
      { τ with forms := τ.forms ++ [{ cls := pc, items := [] }] } with ⟨y, τ2⟩
    rw [hy] at hw
    cases y with
    | error e => rw [T.bind_error hy, T.bind_error hw]
    | ok y => rw [T.bind_ok hy, T.bind_ok hw, hget]
  unfold Lex.polyType
  simp only [hprobe]

/-! ### Fields -/

theorem Go.kind (hr : RecGo S o L C D n rec rec') (hC : C.All HookFree) (hD : D.All HookFree)
    (hCD : LooserClasses o L C D) {f g : Field} (hf : f.All HookFree) (hg : g.All HookFree) (h : Looser o L C D f g) :
    Go S o (Lex.kindParse I L C rec f) (Lex.kindParse I L D rec' g) := by
  have hd : Go S o (Lex.fieldDefault I L C rec f) (Lex.fieldDefault I L D rec' g) := .default hf.node h
  have hkf := hf.kind
  have hkg := hg.kind
  have hnf := hf.node.keyFilter
  have hU := hr.recU
  cases h with
  | @mk c d k l hc hk =>
  unfold Lex.kindParse
  cases hk with
  | base => exact .refl (Closed.primitive (closed S L C) _)
  | string => exact .refl (Closed.primitive (closed S L C) _)
  | integer => exact .refl (Closed.primitive (closed S L C) _)
  | float => exact .refl (Closed.primitive (closed S L C) _)
  | boolean => exact .refl (Closed.primitive (closed S L C) _)
  | decimal => exact .refl (Closed.decimalParse (K := closed S L C))
  | @date c d h =>
    have e : Lex.dateParse I L d = Lex.dateParse I L c := by unfold Lex.dateParse; rw [h.format]
    dsimp only [Field.kind]
    rw [e]
    exact .refl (Closed.dateParse (K := closed S L C) c)
  | @time c d h =>
    have e : Lex.timeParse I L d = Lex.timeParse I L c := by unfold Lex.timeParse; rw [h.format]
    dsimp only [Field.kind]
    rw [e]
    exact .refl (Closed.timeParse (K := closed S L C) c)
  | @datetime c d h =>
    have e : Lex.datetimeParse I L d = Lex.datetimeParse I L c := by unfold Lex.datetimeParse; rw [h.format]
    dsimp only [Field.kind]
    rw [e]
    exact .refl (Closed.datetimeParse (K := closed S L C) c)
  | code => exact .refl (Closed.codeParse (K := closed S L C))
  | uuid => exact .refl (Closed.uuidParse (K := closed S L C))
  | tuple h =>
    cases hkf with
    | tuple hkf => cases hkg with
      | tuple hkg =>
        dsimp only [Field.kind]
        unfold Lex.tupleParse
        rw [h.length]
        exact .bind (.refl (closed S L C).sequence) fun m => .ite (fun _ => .fail _ _) fun _ =>
          .bind (.tuple hr h hkf hkg 0) fun _ => .pure _
  | @list f g lo hi lo' hi' a a' h hlo hhi ha =>
    cases hkf with
    | list hkf => cases hkg with
      | list hkg =>
        dsimp only [Field.kind]
        unfold Lex.listParse
        refine .bind (.refl (closed S L C).seqTry) fun r => ?_
        cases r with
        | ok m => exact .bind (.list hr h hkf hkg m 0) fun _ => .pure _
        | error e =>
          cases a with
          | false => exact .raise e _
          | true =>
            rw [ha rfl]
            exact .bind (hr.go _ _ _ hkf hkg h) fun v => .pure _
  | @dict kf vf kg vg kfl r r' m m' hk hv hrq hm =>
    cases hkf with
    | dict h1 h2 => cases hkg with
      | dict h3 h4 =>
        dsimp only [Field.kind]
        unfold Lex.dictParse
        have hfl : ∀ h, kfl = some h → ∃ id, h = notInForm id := fun h e => hnf kf vf h r m (by rw [← e]; rfl)
        refine .mapping (fun x => ?_) fun x hx => ?_
        · cases x with
          | none => exact hd.1
          | some kv =>
            exact (closed S L C).bind (Closed.iterKeys kv) fun ks => (closed S L C).bind
              (Closed.dictLoop hU (fit h1) (fit h2) (fun h e => by obtain ⟨id, h⟩ := hfl h e; exact ⟨id, h, trivial⟩) ks [])
              fun _ => (closed S L C).pure _
        · cases x with
          | none => exact hd
          | some kv =>
            have hx := hx kv rfl
            dsimp only
            unfold Lex.iterKeys
            cases kv.iterErr with
            | some e => exact .raise e _
            | none =>
              show Go S o (Lex.dictLoop I L C rec kf vf kfl kv.ks [] >>= fun m => T.pure (Val.dict m))
                (Lex.dictLoop I L D rec' kg vg kfl kv.ks [] >>= fun m => T.pure (Val.dict m))
              exact .bind (.dict hr hk hv h1 h2 h3 h4 hfl kv.ks hx []) fun _ => .pure _
  | subform h =>
    cases hkf with
    | subform hkf => cases hkg with
      | subform hkg => exact .sub hr hC hD hCD _ _ h hkf hkg
  | @poly tf pc types reset u v ht hp hl h =>
    cases hkf with
    | poly h1 h2 => cases hkg with
      | poly h3 h4 =>
        dsimp only [Field.kind]
        unfold Lex.polyParse
        have hleaf : ∀ f, HookFree f → Leaf f → ∀ v, rec' f v = rec f v := by
          intro f hf hl v
          rw [hr.first, hr.second]
          exact leaf_same hf hl n v
        rw [poly_same hp (fun f hf v => hleaf f (hC pc f hf).node (hl f hf) v) (fun v => hleaf tf h1.node ht v)]
        refine .bind (.refl ?_) fun r => ?_
        · have := hr.first
          subst this
          exact Mild.polyType (fun v => hr.mild tf v h1.calm) (fun id tags => Closed.formMapBody (K := closed S L C) trivial
            (hC.imp fun _ h => ⟨h.calm, trivial⟩) hU (id := id) trivial tags .str) pc types
        · cases r with
          | none => exact .pure _
          | some r => cases r with
            | none => exact .pure _
            | some cls => exact .sub hr hC hD hCD _ _ h h2 h4
  | group h =>
    cases hkf with
    | group h1 => cases hkg with
      | group h2 =>
        dsimp only [Field.kind]
        unfold Lex.groupParse
        refine .mapping (fun x => ?_) fun x hx => ?_
        · cases x with
          | none => exact hd.1
          | some kv =>
            refine (closed S L C).bind (Closed.iterKeys kv) fun ks => (closed S L C).bind
              (Closed.groupLoop hU (fun x hx => fit (h1 x hx)) ks false []) fun r => ?_
            cases r <;> exact (closed S L C).pure _
        · cases x with
          | none => exact hd
          | some kv =>
            have hx := hx kv rfl
            dsimp only
            unfold Lex.iterKeys
            cases kv.iterErr with
            | some e => exact .raise e _
            | none =>
              have hb := Go.bind (.group hr h h1 h2 kv.ks hx false [])
                (f := fun r => match r with | some vs => T.pure (Val.list vs) | none => T.pure Val.NONE)
                (g := fun r => match r with | some vs => T.pure (Val.list vs) | none => T.pure Val.NONE)
                fun r => by cases r <;> exact .pure _
              exact hb

theorem Go.start (hr : RecGo S o L C D n rec rec') (hC : C.All HookFree) (hD : D.All HookFree)
    (hCD : LooserClasses o L C D) {f g : Field} (hf : f.All HookFree) (hg : g.All HookFree) (h : Looser o L C D f g) :
    Go S o (Lex.fieldStart I L C rec f) (Lex.fieldStart I L D rec' g) := by
  rw [hf.node.fieldStart, hg.node.fieldStart]
  refine .bind ?_ fun v => .ite (fun _ => .default hf.node h) fun _ => .ite (fun _ => .pure _) fun _ =>
    .check hf.node hg.node h v
  unfold Lex.fieldCompute
  rw [hf.node.fieldParse, hg.node.fieldParse]
  exact .bind (.refl (closed S L C).exists_) fun ex => .ite (fun _ => .pure _) fun _ =>
    .bind (.refl (closed S L C).isNull) fun nl => .ite (fun _ => .pure _) fun _ => .tryCatch (.kind hr hC hD hCD hf hg h)

theorem Go.resolve {f g : Field} (hf : HookFree f) (hg : HookFree g) (h : Looser o L C D f g) {t u : T P α}
    (ht : Go S o t u) : Go S o (Lex.withResolve I L C rec f t) (Lex.withResolve I L D rec' g u) := by
  unfold Lex.withResolve
  rw [hf.resolve, hg.resolve]
  cases h with
  | @mk c d k l hc hk =>
  have hkey : Go S o (if noSrc c.src = true then t else T.withKey I c.src t)
      (if noSrc d.src = true then u else T.withKey I d.src u) := by
    rw [hc.src]
    refine .ite (fun _ => ht) fun hn => .withKey ?_ ht
    unfold noSrc at hn
    simp only [Bool.or_eq_true, not_or] at hn
    exact Bool.eq_false_iff.2 hn.1
  cases hk with
  | group h => exact ht
  | _ => exact hkey

theorem Go.field (hr : RecGo S o L C D n rec rec') (hC : C.All HookFree) (hD : D.All HookFree)
    (hCD : LooserClasses o L C D) {f g : Field} (hf : f.All HookFree) (hg : g.All HookFree) (h : Looser o L C D f g)
    (v : Val) : Go S o (Lex.mapFieldF I L C rec f v) (Lex.mapFieldF I L D rec' g v) := by
  have hname := h.name
  have hatt : g.core.attachParent = f.core.attachParent := by cases h with | mk hc hk => exact hc.attachParent
  unfold Lex.mapFieldF Lex.fieldMapInner
  rw [hname, hatt]
  refine .bind (.withEnv _ (.ite (fun _ => .resolve hf.node hg.node h (.start hr hC hD hCD hf hg h)) fun _ =>
    .check hf.node hg.node h v)) fun w => .refl ?_
  dsimp only
  exact Closed.ite (K := closed S L C) (fun _ => (closed S L C).bind (Closed.setParent w) fun _ => (closed S L C).pure _)
    fun _ => (closed S L C).pure _

/-- Mapping a field of the first classes and one of the second that asks for less. -/
theorem recGo (hC : C.All HookFree) (hD : D.All HookFree) (hCD : LooserClasses o L C D) (n : Nat) :
    RecGo S o L C D n (Lex.mapField I L C n) (Lex.mapField I L D n) := by
  have hmild : ∀ n f v, f.All (ValueHooks True) → Mild S (Lex.mapField I L C n f v) := fun n f v hf =>
    (Closed.mapField (K := closed S L C) (hC.imp fun _ h => ⟨h.calm, trivial⟩) n).2 f v (hf.imp fun _ h => ⟨h, trivial⟩)
  induction n with
  | zero => exact ⟨rfl, rfl, hmild 0, fun f g v _ _ _ => .raise _ _⟩
  | succ n ih => exact ⟨rfl, rfl, hmild (n + 1), fun f g v hf hg h => .field ih hC hD hCD hf hg h v⟩

/-- From a source. -/
theorem Go.source {b : Bool} {p : P} (hp : S.Q p) {t u : T P α} (h : Go S o t u) {env : Env}
    (ho : o → env.ignoreMissing = some false) {τ τ' : TSt P} {a : α}
    (ht : T.withErrs b (T.withSource (.ok p) t) env τ = (.ok (a, []), τ')) :
    T.withErrs b (T.withSource (.ok p) u) env τ = (.ok (a, []), τ') := by
  unfold T.withErrs T.withSource at ht ⊢
  dsimp only at ht ⊢
  have h0 := h.1.1 { env with src := some true }
    { τ with path := some (some (τ.npaths, p)), npaths := τ.npaths + 1, errs := some { raising := b, items := [] } }
  have h1 := h.2 { env with src := some true }
    { τ with path := some (some (τ.npaths, p)), npaths := τ.npaths + 1, errs := some { raising := b, items := [] } }
    ⟨rfl, ho⟩ (by intro r q h; cases h; exact hp)
  generalize t { env with src := some true } _ = x at h0 h1 ht
  generalize u { env with src := some true } _ = y at h1 ⊢
  obtain ⟨x, τ1⟩ := x
  cases x with
  | error e => cases ht
  | ok c =>
    dsimp only at ht h0
    have he : τ1.errs.elim [] ErrBuf.items = [] := by
      obtain ⟨h2, h3⟩ := Prod.mk.inj ht
      exact (Prod.mk.inj (Except.ok.inj h2)).2
    rcases hb : τ1.errs with _ | buf
    · rw [hb] at h0; exact h0.elim
    rw [hb] at h0 he
    have hbuf : buf = { raising := b, items := [] } := by
      have he : buf.items = [] := he
      have h0 : buf.raising = b := h0.1
      cases buf; simp_all
    rw [h1 c τ1 rfl (by rw [hb, hbuf])]
    exact ht

end

end Loose
end Pilo
