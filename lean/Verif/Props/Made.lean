import Verif.Props.Arguments

/-!
# C76, C77: the source and the options a field is made with, and the fields and limits of containers

`pilo/fields.py:339-399,410-413,1072-1093,1144-1152,1320-1341,1353-1357`.
-/

namespace Pilo
variable {P : Type} {I : PathOps P} {L : Lib} {W : LawfulPath I} {C : Classes} {rec : Rec P}
  {s : St P} {r : Nat} {q : P} {text : String} {b : ErrBuf} {compile : String → Except Exc Regex}
  {args : List Arg} {kw : Kwargs} {f : Field}

/-! ## The constructors -/

/-- The classes whose constructor is that of `Field`. -/
inductive PlainClass
  | field | boolean | code | uuid

/-- The kind of a field of the class. -/
def PlainClass.kind : PlainClass → Kind
  | .field => .base
  | .boolean => .boolean
  | .code => .code
  | .uuid => .uuid

/-- A constructor of a field. -/
inductive Maker where
  | plain (cls : PlainClass)
  | string (compile : String → Except Exc Regex)
  | number (cls : NumClass)
  | date (cls : DateClass)
  | tuple | list | dict | subform
  | poly (probe : Nat) (types : List (Val × Nat))
  | group

/-- The call. -/
def Maker.make : Maker → List Arg → Kwargs → Except Exc Field
  | .plain cls => Field.new cls.kind
  | .string compile => Field.newString compile
  | .number cls => Field.newNumber cls
  | .date cls => Field.newDate cls
  | .tuple => Field.newTuple
  | .list => Field.newList
  | .dict => Field.newDict
  | .subform => Field.newSubForm
  | .poly probe types => Field.newPoly probe types
  | .group => Field.newGroup

/-- The keyword arguments of the class itself. -/
def Maker.own : Maker → List String
  | .plain _ => []
  | .string _ => ["length", "min_length", "max_length", "pattern", "alphabet", "choices"]
  | .number _ => ["range", "min_value", "max_value"]
  | .date _ => ["after", "before", "format"]
  | .tuple => ["allow_field"]
  | .list => ["field", "length", "min_length", "max_length", "allow_field"]
  | .dict => ["required_keys", "max_keys"]
  | .subform => ["reset", "unmapped", "flat"]
  | .poly _ _ => ["reset", "unmapped"]
  | .group => []

/-- The positional arguments that are left for the source: not the fields, nor the form class. -/
def Maker.rest : Maker → List Arg → List Arg
  | .tuple, args => match args with
    | .val (.str x) :: _ => [.val (.str x)]
    | _ => []
  | .list, args => args.eraseP fun a => a.isField || a.isForm
  | .dict, args => args.drop 2
  | .subform, args => args.eraseP Arg.isForm
  | .poly _ _, args => args.drop 1
  | .group, _ => []
  | _, args => args

/-- The keyword argument `k` is given, as `a`. -/
def Kwargs.Says (kw : Kwargs) (k : String) (a : Arg) : Prop := kw.lookup k = some a ∧ a ≠ .val .NOT_SET

/-- The keyword argument `k` is not given. -/
def Kwargs.Silent (kw : Kwargs) (k : String) : Prop := ∀ a, ¬ kw.Says k a

/-! ## What a call leaves behind -/

theorem pluck_eraseP (p : Arg → Bool) (xs : List Arg) : pluck p xs = (xs.eraseP p, xs.find? p) := by
  induction xs with
  | nil => rfl
  | cons x xs ih =>
    unfold pluck
    rw [ih]
    by_cases h : p x = true
    · rw [if_pos h, List.eraseP_cons_of_pos h, List.find?_cons_of_pos h]
    · rw [if_neg h, List.eraseP_cons_of_neg h, List.find?_cons_of_neg h]

theorem option_spec {α : Type} {k : String} {read : Arg → Except Exc α} {o : Option α} (h : kw.option k read = .ok o) :
    (kw.Silent k → o = none) ∧ ∀ a, kw.Says k a → ∃ x, read a = .ok x ∧ o = some x := by
  unfold Kwargs.option at h
  split at h
  case h_1 hk =>
    cases h
    refine ⟨fun _ => rfl, fun a ha => ?_⟩
    have := ha.1
    rw [hk] at this
    cases this
  case h_2 hk =>
    cases h
    refine ⟨fun _ => rfl, fun a ha => ?_⟩
    have := ha.1
    rw [hk] at this
    cases this
    exact absurd rfl ha.2
  case h_3 a hn hk =>
    obtain ⟨x, h1, h2⟩ := map_inv h
    refine ⟨fun hs => absurd ⟨hk, fun e => hn e⟩ (hs a), fun a' ha => ?_⟩
    have := ha.1
    rw [hk] at this
    cases this
    exact ⟨x, h1, h2.symm⟩

theorem readSrc_congr {kw' : Kwargs} (h : kw'.lookup "src" = kw.lookup "src") : readSrc args kw' = readSrc args kw := by
  unfold readSrc
  rw [h]

theorem drop_comm (ks ls : List String) : (kw.drop ks).drop ls = (kw.drop ls).drop ks := by
  unfold Kwargs.drop
  rw [List.filter_filter, List.filter_filter]
  congr 1
  funext p
  exact Bool.and_comm _ _

theorem lookup_drop_sub {k : String} {ks own : List String} (hs : ∀ x ∈ ks, x ∈ own) (h : k ∉ own) :
    (kw.drop ks).lookup k = kw.lookup k := lookup_drop fun hk => h (hs k hk)

/-- Not a `Group`, nor a `Dict` with a key filter. -/
structure Usual (k : Kind) : Prop where
  filter : ∀ kf vf h r mx, k ≠ .dict kf vf (some h) r mx
  group : ∀ fs, k ≠ .group fs

/-- What every constructor does: it reads the source and the options, and has some keyword arguments for itself. -/
structure Made (m : Maker) (args : List Arg) (kw : Kwargs) (f : Field) (kw' : Kwargs) (src src' : Val) (o : Options)
    (k : Kind) : Prop where
  read : readSrc (m.rest args) kw' = .ok src
  options : readOptions (kw'.drop ["src"]) = .ok o
  eq : f = (Field.mk { src := src' } k).options o
  keeps : ∀ x, x ∉ m.own → kw'.lookup x = kw.lookup x
  same : (m = .subform → ∀ a, kw.Says "flat" a → a.truthy = false) → src' = src
  usual : Usual k

theorem Made.new {m : Maker} {kw' : Kwargs} {k : Kind} (h : Field.new k (m.rest args) kw' = .ok f)
    (hk : ∀ x, x ∉ m.own → kw'.lookup x = kw.lookup x) (hf : Usual k) :
    ∃ kw' src src' o k, Made m args kw f kw' src src' o k := by
  obtain ⟨src, h1, h⟩ := bind_inv h
  obtain ⟨o, h2, h⟩ := bind_inv h
  cases h
  exact ⟨_, _, _, _, _, h1, h2, rfl, hk, fun _ => rfl, hf⟩

theorem readListLength_kw {lo hi : Option Nat} {kw' : Kwargs} (h : readListLength kw = .ok (lo, hi, kw')) {k : String}
    (hk : k ∉ ["length", "min_length", "max_length"]) : kw'.lookup k = kw.lookup k :=
  readLength_kw (readListLength_le h) hk

theorem make_inv {m : Maker} (hm : m ≠ .group) (h : m.make args kw = .ok f) :
    ∃ kw' src src' o k, Made m args kw f kw' src src' o k := by
  cases m with
  | plain cls => exact Made.new h (fun _ _ => rfl) ⟨(by intro _ _ _ _ _ h; cases cls <;> cases h), (by intro _ h; cases cls <;> cases h)⟩
  | string compile =>
    obtain ⟨⟨lo, hi, kw1⟩, h1, h⟩ := bind_inv h
    obtain ⟨pat, h2, h⟩ := bind_inv h
    obtain ⟨alp, h3, h⟩ := bind_inv h
    obtain ⟨cho, h4, h⟩ := bind_inv h
    refine Made.new h (fun x hx => ?_) ⟨(by intro _ _ _ _ _ h; cases h), (by intro _ h; cases h)⟩
    rw [lookup_drop_sub (by simp [Maker.own]) hx]
    exact readLength_kw h1 fun hk => hx (by simp [Maker.own] at hk ⊢; rcases hk with h | h | h <;> simp [h])
  | number cls =>
    have hcls : ∀ c, Usual (cls.kind c) := fun c =>
      ⟨(by intro _ _ _ _ _ h; cases cls <;> cases h), (by intro _ h; cases cls <;> cases h)⟩
    change Field.newNumber cls args kw = _ at h
    unfold Field.newNumber at h
    dsimp only at h
    have two : (do
        let min ← Arg.bound ((kw.drop ["range"]).lookup "min_value")
        let max ← Arg.bound ((kw.drop ["range"]).lookup "max_value")
        Field.new (cls.kind { min, max }) args ((kw.drop ["range"]).drop ["min_value", "max_value"])) = .ok f →
        ∃ kw' src src' o k, Made (.number cls) args kw f kw' src src' o k := by
      intro h
      obtain ⟨_, -, h⟩ := bind_inv h
      obtain ⟨_, -, h⟩ := bind_inv h
      refine Made.new h (fun x hx => ?_) (hcls _)
      rw [lookup_drop_sub (by simp [Maker.own]) hx, lookup_drop_sub (by simp [Maker.own]) hx]
    have one : ∀ a : Arg, (do
        let (a, b) ← a.unpack2
        let min ← Arg.bound (some a)
        let max ← Arg.bound (some b)
        Field.new (cls.kind { min, max }) args (kw.drop ["range"])) = .ok f →
        ∃ kw' src src' o k, Made (.number cls) args kw f kw' src src' o k := by
      intro a h
      obtain ⟨_, -, h⟩ := bind_inv h
      obtain ⟨_, -, h⟩ := bind_inv h
      obtain ⟨_, -, h⟩ := bind_inv h
      refine Made.new h (fun x hx => ?_) (hcls _)
      rw [lookup_drop_sub (by simp [Maker.own]) hx]
    cases hr : kw.lookup "range" with
    | none => rw [hr] at h; exact two h
    | some a =>
      rw [hr] at h
      by_cases ha : a = .val .none
      · subst ha; exact two h
      · refine one a ?_
        cases a with
        | val v => cases v <;> first | exact h | exact absurd rfl ha
        | _ => exact h
  | date cls =>
    obtain ⟨_, -, h⟩ := bind_inv h
    obtain ⟨_, -, h⟩ := bind_inv h
    obtain ⟨_, -, h⟩ := bind_inv h
    refine Made.new h (fun x hx => ?_) ⟨(by intro _ _ _ _ _ h; cases cls <;> cases h), (by intro _ h; cases cls <;> cases h)⟩
    rw [lookup_drop_sub (by simp [Maker.own]) hx]
  | tuple =>
    have go : ∀ {xs ys}, Field.newTuple.finish kw xs ys = .ok f → xs = Maker.rest .tuple args →
        ∃ kw' src src' o k, Made .tuple args kw f kw' src src' o k := by
      rintro xs ys h rfl
      obtain ⟨fs, -, h⟩ := bind_inv h
      refine Made.new h (fun x hx => ?_) ⟨(by intro _ _ _ _ _ h; cases h), (by intro _ h; cases h)⟩
      rw [lookup_drop_sub (by simp [Maker.own]) hx]
    have go' : ∀ {xs ys}, Field.newTuple.go kw xs ys = .ok f → xs = Maker.rest .tuple args →
        ∃ kw' src src' o k, Made .tuple args kw f kw' src src' o k := by
      intro xs ys h hx
      unfold Field.newTuple.go at h
      split at h
      · split at h
        · exact go h hx
        · cases h
      · exact go h hx
    change Field.newTuple args kw = _ at h
    unfold Field.newTuple at h
    split at h
    · cases h
    · exact go' h rfl
    · refine go' h ?_
      rename_i hne
      show _ = (match args with | .val (.str x) :: _ => [Arg.val (.str x)] | _ => [])
      split
      · rename_i x _
        exact absurd rfl (hne _ _)
      · rfl
  | list =>
    obtain ⟨⟨g, args', kw1⟩, h1, h⟩ := bind_inv h
    obtain ⟨⟨lo, hi, kw2⟩, h2, h⟩ := bind_inv h
    have h3 : args' = Maker.rest .list args ∧ ∀ x, x ≠ "field" → kw1.lookup x = kw.lookup x := by
      unfold readItem at h1
      rw [pluck_eraseP] at h1
      cases hfi : args.find? (fun a => a.isField || a.isForm) with
      | some a =>
        rw [hfi] at h1
        cases a with
        | field g => cases h1; exact ⟨rfl, fun _ _ => rfl⟩
        | form c => cases h1; exact ⟨rfl, fun _ _ => rfl⟩
        | _ => exact absurd (List.find?_some hfi) (by simp [Arg.isField, Arg.isForm])
      | none =>
        rw [hfi] at h1
        have he : args.eraseP (fun a => a.isField || a.isForm) = args :=
          List.eraseP_of_forall_not fun a ha => by simpa using List.find?_eq_none.1 hfi a ha
        dsimp only at h1
        split at h1
        · cases h1
          exact ⟨he.symm, fun x hx => lookup_drop (by simpa using hx)⟩
        all_goals cases h1
    obtain ⟨rfl, h4⟩ := h3
    refine Made.new h (fun x hx => ?_) ⟨(by intro _ _ _ _ _ h; cases h), (by intro _ h; cases h)⟩
    rw [lookup_drop_sub (by simp [Maker.own]) hx, readListLength_kw h2 fun hk => hx (by
      simp [Maker.own] at hk ⊢; rcases hk with h | h | h <;> simp [h])]
    exact h4 x fun e => hx (by simp [Maker.own, e])
  | dict =>
    change Field.newDict args kw = _ at h
    unfold Field.newDict at h
    split at h
    · obtain ⟨_, -, h⟩ := bind_inv h
      obtain ⟨_, -, h⟩ := bind_inv h
      refine Made.new h (fun x hx => ?_) ⟨(by intro _ _ _ _ _ h; cases h), (by intro _ h; cases h)⟩
      rw [lookup_drop_sub (by simp [Maker.own]) hx]
    · cases h
  | subform =>
    change Field.newSubForm args kw = _ at h
    unfold Field.newSubForm at h
    rw [pluck_eraseP] at h
    obtain ⟨cls, hfi⟩ : ∃ cls, args.find? Arg.isForm = some (.form cls) := by
      cases hfi : args.find? Arg.isForm with
      | none => rw [hfi] at h; cases h
      | some a =>
        cases a with
        | form cls => exact ⟨cls, rfl⟩
        | _ => exact absurd (List.find?_some hfi) (by simp [Arg.isForm])
    rw [hfi] at h
    obtain ⟨src, h1, h⟩ := bind_inv h
    obtain ⟨rs, h2, h⟩ := bind_inv h
    obtain ⟨u, h3, h⟩ := bind_inv h
    obtain ⟨fl, h4, h⟩ := bind_inv h
    obtain ⟨o, h5, h⟩ := bind_inv h
    rw [drop_comm] at h5
    have hr : readSrc (Maker.rest .subform args) (kw.drop ["reset", "unmapped", "flat"]) = .ok src := by
      rw [readSrc_congr (lookup_drop (by decide))]
      exact h1
    have hk : ∀ x, x ∉ Maker.own .subform → (kw.drop ["reset", "unmapped", "flat"]).lookup x = kw.lookup x :=
      fun x hx => lookup_drop hx
    cases hflat : fl.getD false with
    | false =>
      rw [hflat, if_neg (by simp)] at h
      exact ⟨_, src, src, o, _, hr, h5, (Except.ok.inj h).symm, hk, fun _ => rfl, ⟨(by intro _ _ _ _ _ h; cases h), (by intro _ h; cases h)⟩⟩
    | true =>
      rw [hflat, if_pos rfl] at h
      refine ⟨_, src, .none, o, _, hr, h5, (Except.ok.inj h).symm, hk, fun hfl => ?_, ⟨(by intro _ _ _ _ _ h; cases h), (by intro _ h; cases h)⟩⟩
      obtain ⟨o1, o2⟩ := option_spec h4
      have hlk : (kw.drop ["src"]).lookup "flat" = kw.lookup "flat" := lookup_drop (by decide)
      by_cases hk : ∃ a, (kw.drop ["src"]).Says "flat" a
      · obtain ⟨a, ha⟩ := hk
        obtain ⟨x, hx, rfl⟩ := o2 a ha
        cases hx
        have := hfl rfl a ⟨hlk.symm.trans ha.1, ha.2⟩
        rw [Option.getD_some] at hflat
        rw [hflat] at this
        cases this
      · rw [o1 fun a ha => hk ⟨a, ha⟩] at hflat
        cases hflat
  | poly probe types =>
    change Field.newPoly probe types args kw = _ at h
    unfold Field.newPoly at h
    split at h
    · obtain ⟨_, -, h⟩ := bind_inv h
      refine Made.new h (fun x hx => ?_) ⟨(by intro _ _ _ _ _ h; cases h), (by intro _ h; cases h)⟩
      rw [lookup_drop_sub (by simp [Maker.own]) hx]
    · cases h
  | group => exact absurd rfl hm

/-! ## C76 -/

/-- The options of a field are as the keyword arguments say. -/
structure OptionsAs (kw : Kwargs) (c : FieldCore) : Prop where
  /-- the default given -/
  default : ∀ v, kw.Says "default" (.val v) → c.default = .value v
  /-- a function is called for the default -/
  callable : ∀ p, kw.Says "default" (.call p) → c.default = .callable p
  /-- `optional=True` is short for `default=NONE` -/
  optional : ∀ a, kw.Silent "default" → kw.Says "optional" a → a.truthy = true → c.default = .value .NONE
  /-- otherwise there is no default -/
  required : kw.Silent "default" → (∀ a, kw.Says "optional" a → a.truthy = false) → c.default = .unset
  /-- `default=None` makes the field nullable -/
  none : kw.Says "default" (.val .none) → c.nullable = .bool true
  /-- otherwise `nullable` is what was given -/
  nullable : ¬ kw.Says "default" (.val .none) → ∀ v, kw.Says "nullable" (.val v) → c.nullable = v
  /-- or not set -/
  undecided : ¬ kw.Says "default" (.val .none) → kw.Silent "nullable" → c.nullable = .NONE
  /-- one ignored value -/
  ignore : ∀ v, kw.Says "ignore" (.val v) → c.ignores = [v]
  /-- or none -/
  ignored : kw.Silent "ignore" → c.ignores = []
  /-- the translations -/
  translate : ∀ kvs, kw.Says "translate" (.val (.dict kvs)) → c.translations = dictUpdate [] kvs
  /-- or none -/
  translated : kw.Silent "translate" → c.translations = []
  /-- whether to attach the parent -/
  attachParent : ∀ a, kw.Says "attach_parent" a → c.attachParent = a.truthy
  /-- by default not -/
  attached : kw.Silent "attach_parent" → c.attachParent = false
  /-- the tag -/
  tag : ∀ t, kw.Says "tags" (.val (.str t)) → c.tags = [t]
  /-- or none -/
  untagged : kw.Silent "tags" → c.tags = []

theorem options_tags (f : Field) (o : Options) (h : f.core.tags = []) : (f.options o).core.tags = o.tags.toList := by
  unfold Field.options
  dsimp only
  cases o.tags with
  | none =>
    rw [whenSet_none, whenSet_keeps FieldCore.tags (by intros; rfl), whenSet_keeps FieldCore.tags (by intros; rfl),
      whenSet_keeps FieldCore.tags (by intros; rfl), whenSet_keeps FieldCore.tags (by intros; rfl),
      whenSet_keeps FieldCore.tags (by intros; rfl), whenSet_keeps FieldCore.tags (by intros; rfl), h]
    rfl
  | some t =>
    rw [whenSet_some]
    dsimp only
    rw [whenSet_keeps FieldCore.tags (by intros; rfl), whenSet_keeps FieldCore.tags (by intros; rfl),
      whenSet_keeps FieldCore.tags (by intros; rfl), whenSet_keeps FieldCore.tags (by intros; rfl),
      whenSet_keeps FieldCore.tags (by intros; rfl), whenSet_keeps FieldCore.tags (by intros; rfl), h]
    rfl

/-- What `readOptions` read. -/
theorem readOptions_spec {o : Options} (h : readOptions kw = .ok o) {src : Val} {k : Kind} :
    OptionsAs kw ((Field.mk { src := src } k).options o).core := by
  unfold readOptions at h
  split at h
  case isFalse => cases h
  obtain ⟨nullable, e1, h⟩ := bind_inv h
  obtain ⟨optional, e2, h⟩ := bind_inv h
  obtain ⟨dflt, e3, h⟩ := bind_inv h
  obtain ⟨ignore, e4, h⟩ := bind_inv h
  obtain ⟨translate, e5, h⟩ := bind_inv h
  obtain ⟨attach, e6, h⟩ := bind_inv h
  obtain ⟨tags, e7, h⟩ := bind_inv h
  cases h
  obtain ⟨n1, n2⟩ := option_spec e1
  obtain ⟨o1, o2⟩ := option_spec e2
  obtain ⟨d1, d2⟩ := option_spec e3
  obtain ⟨i1, i2⟩ := option_spec e4
  obtain ⟨t1, t2⟩ := option_spec e5
  obtain ⟨a1, a2⟩ := option_spec e6
  obtain ⟨g1, g2⟩ := option_spec e7
  have hdv : ∀ v, kw.Says "default" (.val v) → dflt = some (.value v) := by
    intro v hv
    obtain ⟨x, hx, rfl⟩ := d2 _ hv
    cases v <;> cases hx <;> rfl
  have hnone : ¬ kw.Says "default" (.val .none) → dflt ≠ some (.value .none) := by
    intro hn hd
    by_cases hs : ∃ a, kw.Says "default" a
    · obtain ⟨a, ha⟩ := hs
      obtain ⟨x, hx, hd'⟩ := d2 a ha
      rw [hd] at hd'
      cases hd'
      cases a with
      | val v => cases v <;> cases hx; exact hn ha
      | call p => cases hx
      | _ => cases hx
    · rw [d1 fun a ha => hs ⟨a, ha⟩] at hd
      cases hd
  have hnull : dflt ≠ some (.value .none) → ((Field.mk { src := src } k).options
      { nullable, optional, default := dflt, ignore, translate, attachParent := attach, tags }).core.nullable =
      nullable.getD .NONE := by
    intro hn
    rw [options_nullable]
    dsimp only
    split
    · rename_i h
      exact absurd rfl hn
    · rfl
  constructor
  · intro v hv
    rw [options_default, hdv v hv]
  · intro p hp
    obtain ⟨x, hx, rfl⟩ := d2 _ hp
    cases hx
    rw [options_default]
  · intro a hs ha ht
    obtain ⟨x, hx, rfl⟩ := o2 a ha
    rw [options_default, d1 hs]
    cases a with
    | val v => cases hx; exact if_pos ht
    | _ => cases hx
  · intro hs hf
    rw [options_default, d1 hs]
    by_cases hk : ∃ a, kw.Says "optional" a
    · obtain ⟨a, ha⟩ := hk
      obtain ⟨x, hx, rfl⟩ := o2 a ha
      have := hf a ha
      cases a with
      | val v =>
        cases hx
        exact if_neg fun ht => Bool.noConfusion (ht.symm.trans this)
      | _ => cases hx
    · rw [o1 fun a ha => hk ⟨a, ha⟩]
      rfl
  · intro hn
    rw [options_nullable, hdv _ hn]
  · intro hn v hv
    obtain ⟨x, hx, rfl⟩ := n2 _ hv
    cases hx
    exact hnull (hnone hn)
  · intro hn hs
    rw [hnull (hnone hn), n1 hs]
    rfl
  · intro v hv
    obtain ⟨x, hx, rfl⟩ := i2 _ hv
    cases hx
    rw [options_ignores]
    rfl
  · intro hs
    rw [options_ignores, i1 hs]
    rfl
  · intro kvs hk
    obtain ⟨x, hx, rfl⟩ := t2 _ hk
    cases hx
    rw [options_translations]
    rfl
  · intro hs
    rw [options_translations, t1 hs]
    rfl
  · intro a ha
    obtain ⟨x, hx, rfl⟩ := a2 _ ha
    cases hx
    rw [options_attachParent]
    rfl
  · intro hs
    rw [options_attachParent, a1 hs]
    rfl
  · intro t ht
    obtain ⟨x, hx, rfl⟩ := g2 _ ht
    cases hx
    rw [options_tags _ _ rfl]
    rfl
  · intro hs
    rw [options_tags _ _ rfl, g1 hs]
    rfl

theorem OptionsAs.congr {kw' : Kwargs} {c : FieldCore} (h : OptionsAs kw' c) (hk : ∀ k ∈ optionNames, kw'.lookup k = kw.lookup k) :
    OptionsAs kw c := by
  have hs : ∀ k ∈ optionNames, ∀ a, kw'.Says k a ↔ kw.Says k a := fun k h a => by unfold Kwargs.Says; rw [hk k h]
  have hn : ∀ k ∈ optionNames, (kw'.Silent k ↔ kw.Silent k) := fun k h =>
    ⟨fun q a ha => q a ((hs k h a).2 ha), fun q a ha => q a ((hs k h a).1 ha)⟩
  constructor
  · exact fun v hv => h.default v ((hs _ (by decide) _).2 hv)
  · exact fun p hp => h.callable p ((hs _ (by decide) _).2 hp)
  · exact fun a q ha => h.optional a ((hn _ (by decide)).2 q) ((hs _ (by decide) _).2 ha)
  · exact fun q hf => h.required ((hn _ (by decide)).2 q) fun a ha => hf a ((hs _ (by decide) _).1 ha)
  · exact fun q => h.none ((hs _ (by decide) _).2 q)
  · exact fun q v hv => h.nullable (fun x => q ((hs _ (by decide) _).1 x)) v ((hs _ (by decide) _).2 hv)
  · exact fun q hv => h.undecided (fun x => q ((hs _ (by decide) _).1 x)) ((hn _ (by decide)).2 hv)
  · exact fun v hv => h.ignore v ((hs _ (by decide) _).2 hv)
  · exact fun q => h.ignored ((hn _ (by decide)).2 q)
  · exact fun v hv => h.translate v ((hs _ (by decide) _).2 hv)
  · exact fun q => h.translated ((hn _ (by decide)).2 q)
  · exact fun v hv => h.attachParent v ((hs _ (by decide) _).2 hv)
  · exact fun q => h.attached ((hn _ (by decide)).2 q)
  · exact fun v hv => h.tag v ((hs _ (by decide) _).2 hv)
  · exact fun q => h.untagged ((hn _ (by decide)).2 q)

/-- C76.  In any call of any constructor that succeeds, the options are as the keyword arguments say.  (A `Group` has
a default of its own, see `C73_default`.) -/
theorem C76_options {m : Maker} (hm : m ≠ .group) (h : m.make args kw = .ok f) : OptionsAs kw f.core := by
  obtain ⟨kw', src, src', o, k, hd⟩ := make_inv hm h
  rw [hd.eq]
  refine (readOptions_spec hd.options).congr fun x hx => ?_
  have h1 : x ∉ ["src"] := by revert x; decide
  rw [lookup_drop h1]
  refine hd.keeps x ?_
  cases m <;> revert x <;> simp only [Maker.own] <;> decide

/-- The sub form is not made with `flat=True`. -/
def Maker.Deep (m : Maker) (kw : Kwargs) : Prop := m = .subform → ∀ a, kw.Says "flat" a → a.truthy = false

/-- The source given in a call: the positional argument left for it, or else the keyword argument. -/
inductive SourceGiven (rest : List Arg) (kw : Kwargs) : Val → Prop
  | positional {v : Val} : rest = [.val v] → kw.lookup "src" = none → SourceGiven rest kw v
  | keyword {v : Val} : rest = [] → kw.lookup "src" = some (.val v) → SourceGiven rest kw v
  | nothing : rest = [] → kw.lookup "src" = none → SourceGiven rest kw .NONE

theorem readSrc_spec {v : Val} (h : readSrc args kw = .ok v) : SourceGiven args kw v := by
  unfold readSrc at h
  split at h
  case h_1 hk => cases h; exact .nothing rfl hk
  case h_2 a hk =>
    cases a with
    | val w => cases h; exact .keyword rfl hk
    | _ => cases h
  case h_3 a hk =>
    cases a with
    | val w => cases h; exact .positional rfl hk
    | _ => cases h
  case h_4 => cases h
  case h_5 => cases h

/-- C76.  In any call that succeeds, at most one source is given, and it is the source of the field. -/
theorem C76_source {m : Maker} (hm : m ≠ .group) (hd : m.Deep kw) (h : m.make args kw = .ok f) :
    SourceGiven (m.rest args) kw f.core.src := by
  obtain ⟨kw', src, src', o, k, h⟩ := make_inv hm h
  rw [h.eq, options_src, show ((Field.mk { src := src' } k).core.src) = src' from rfl, h.same hd]
  have hk : kw'.lookup "src" = kw.lookup "src" := h.keeps _ (by cases m <;> simp only [Maker.own] <;> decide)
  exact readSrc_spec (readSrc_congr hk ▸ h.read)

/-- C76.  Every keyword argument is one of the class, an option, or `src`. -/
theorem C76_keywords {m : Maker} (hm : m ≠ .group) (h : m.make args kw = .ok f) {x : String} {a : Arg} (hx : kw.lookup x = some a) :
    x ∈ m.own ∨ x = "src" ∨ x ∈ optionNames := by
  obtain ⟨kw', src, src', o, k, h⟩ := make_inv hm h
  by_cases ho : x ∈ m.own
  · exact .inl ho
  · refine .inr ?_
    have h1 : Field.new k (m.rest args) kw' = .ok ((Field.mk { src := src } k).options o) := by
      show (readSrc (m.rest args) kw' >>= _) = _
      rw [h.read]
      show (readOptions (kw'.drop ["src"]) >>= _) = _
      rw [h.options]
      rfl
    exact new_names h1 ((h.keeps x ho).trans hx)

theorem made_kind {m : Maker} (hm : m ≠ .group) (h : m.make args kw = .ok f) : Usual f.kind := by
  obtain ⟨kw', src, src', o, k, h⟩ := make_inv hm h
  rw [h.eq, options_kind]
  exact h.usual

theorem SourceGiven.unique {rest : List Arg} {v w : Val} (h : SourceGiven rest kw v) (h' : SourceGiven rest kw w) : v = w := by
  cases h with
  | positional h1 h2 =>
    cases h' with
    | positional h3 h4 => rw [h1] at h3; cases h3; rfl
    | keyword h3 h4 => rw [h1] at h3; cases h3
    | nothing h3 h4 => rw [h1] at h3; cases h3
  | keyword h1 h2 =>
    cases h' with
    | positional h3 h4 => rw [h1] at h3; cases h3
    | keyword h3 h4 => rw [h2] at h4; cases h4; rfl
    | nothing h3 h4 => rw [h2] at h4; cases h4
  | nothing h1 h2 =>
    cases h' with
    | positional h3 h4 => rw [h1] at h3; cases h3
    | keyword h3 h4 => rw [h2] at h4; cases h4
    | nothing h3 h4 => rfl

/-- C76.  Attached to a class as `n`, the field reads the key that is its source; without one given, the key `n`; and with
`src=None` the place of the form itself. -/
theorem C76_place {m : Maker} (hm : m ≠ .group) (hd : m.Deep kw) (h : m.make args kw = .ok f) (n : String) (p : P) :
    (SourceGiven (m.rest args) kw .NONE → (f.attach (some n)).place I p = I.append p (.str n)) ∧
    (∀ v, SourceGiven (m.rest args) kw v → noSrc v = false → (f.attach (some n)).place I p = I.append p v) ∧
    (SourceGiven (m.rest args) kw .none → (f.attach (some n)).place I p = .ok p) := by
  have hs := C76_source hm hd h
  have hg := (made_kind hm h).group
  have hpl : (f.attach (some n)).place I p = if noSrc (f.attach (some n)).core.src then .ok p
      else I.append p (f.attach (some n)).core.src := by
    unfold Field.place
    rw [attach_kind]
    cases hk : f.kind <;> first | rfl | exact absurd hk (hg _)
  have hsrc : (f.attach (some n)).core.src = if f.core.src.isNONE then .str n else f.core.src := rfl
  refine ⟨fun h' => ?_, fun v h' hv => ?_, fun h' => ?_⟩
  · rw [hpl, hsrc, ← h'.unique hs]
    rfl
  · rw [hpl, hsrc, ← h'.unique hs]
    have : v.isNONE = false := by
      unfold noSrc at hv
      cases h : v.isNONE
      · rfl
      · rw [h, Bool.or_true] at hv; cases hv
    rw [this]
    simp only [Bool.false_eq_true, if_false, hv]
  · rw [hpl, hsrc, ← h'.unique hs]
    rfl

/-- The default is not a function. -/
def Kwargs.NoCall (kw : Kwargs) : Prop := ∀ p, kw.lookup "default" ≠ some (.call p)

/-- A field just made has no hooks. -/
theorem made_free {m : Maker} (hm : m ≠ .group) (h : m.make args kw = .ok f) (hc : kw.NoCall) (name : Option String) :
    HookFree (f.attach name) := by
  have ho := C76_options hm h
  have hk := made_kind hm h
  obtain ⟨kw', src, src', o, k, h⟩ := make_inv hm h
  refine ⟨?_, ?_, ?_, ?_, ?_, ?_, ?_, ?_⟩
  · show f.core.default = _ ∨ ∃ v, f.core.default = _
    by_cases hs : ∃ a, kw.Says "default" a
    · obtain ⟨a, ha⟩ := hs
      have h1 : (kw'.drop ["src"]).Says "default" a :=
        ⟨(lookup_drop (by decide)).trans ((h.keeps _ (by cases m <;> simp only [Maker.own] <;> decide)).trans ha.1), ha.2⟩
      cases a with
      | val v => exact .inr ⟨v, ho.default v ha⟩
      | call p => exact absurd ha.1 (hc p)
      | _ =>
        exfalso
        have h2 := h.options
        unfold readOptions at h2
        split at h2
        case isFalse => cases h2
        obtain ⟨_, e1, h2⟩ := bind_inv h2
        obtain ⟨_, e2, h2⟩ := bind_inv h2
        obtain ⟨_, e3, h2⟩ := bind_inv h2
        obtain ⟨x, hx, -⟩ := (option_spec e3).2 _ h1
        cases hx
    · have hsil : kw.Silent "default" := fun a ha => hs ⟨a, ha⟩
      by_cases ht : ∃ a, kw.Says "optional" a ∧ a.truthy = true
      · obtain ⟨a, ha, ht⟩ := ht
        exact .inr ⟨_, ho.optional a hsil ha ht⟩
      · exact .inl (ho.required hsil fun a ha => by
          cases h : a.truthy
          · rfl
          · exact absurd ⟨a, ha, h⟩ ht)
  · exact (congrArg (fun g : Field => g.core.resolve) h.eq).trans (options_keeps FieldCore.resolve (by intros; rfl) (by intros; rfl)
      (by intros; rfl) (by intros; rfl) (by intros; rfl) (by intros; rfl))
  · exact (congrArg (fun g : Field => g.core.compute) h.eq).trans (options_keeps FieldCore.compute (by intros; rfl) (by intros; rfl)
      (by intros; rfl) (by intros; rfl) (by intros; rfl) (by intros; rfl))
  · exact (congrArg (fun g : Field => g.core.parse) h.eq).trans (options_keeps FieldCore.parse (by intros; rfl) (by intros; rfl)
      (by intros; rfl) (by intros; rfl) (by intros; rfl) (by intros; rfl))
  · exact (congrArg (fun g : Field => g.core.munge) h.eq).trans (options_keeps FieldCore.munge (by intros; rfl) (by intros; rfl)
      (by intros; rfl) (by intros; rfl) (by intros; rfl) (by intros; rfl))
  · exact (congrArg (fun g : Field => g.core.filter) h.eq).trans (options_keeps FieldCore.filter (by intros; rfl) (by intros; rfl)
      (by intros; rfl) (by intros; rfl) (by intros; rfl) (by intros; rfl))
  · exact (congrArg (fun g : Field => g.core.validate) h.eq).trans (options_keeps FieldCore.validate (by intros; rfl) (by intros; rfl)
      (by intros; rfl) (by intros; rfl) (by intros; rfl) (by intros; rfl))
  · intro kf vf hh r mx hkk
    exact absurd hkk (hk.filter _ _ _ _ _)

/-- C76, mapping a field of any class just made, where the source has no value: the default given is the value; without
one, `optional=True` gives `NONE`, and otherwise there is exactly one `Missing` error. -/
theorem C76_absent {m : Maker} (hm : m ≠ .group) (h : m.make args kw = .ok f) (hc : kw.NoCall)
    (hp : kw.Silent "attach_parent") {name : Option String} (sp : Spot I W (f.attach name) s r q text b) (hq : Absent I q) :
    (∀ v, kw.Says "default" (.val v) → PlainDefault v → s.env.ignoreDefault = some false →
      Accepts (mapFieldF I L C rec (f.attach name) .NONE) s v) ∧
    (∀ a, kw.Silent "default" → kw.Says "optional" a → a.truthy = true → s.env.ignoreDefault = some false →
      Accepts (mapFieldF I L C rec (f.attach name) .NONE) s .NONE) ∧
    (kw.Silent "default" → (∀ a, kw.Says "optional" a → a.truthy = false) → s.env.ignoreMissing = some false →
      Adds (mapFieldF I L C rec (f.attach name) .NONE) s .NOT_SET
        { kind := .missing, path := text, field := name, pathRef := some r }) := by
  have hf := made_free hm h hc name
  have ho := C76_options hm h
  refine ⟨fun v hv hpl hctx => ?_, fun a hs ha ht hctx => ?_, fun hs ht hctx => ?_⟩
  · exact C11_default sp hf (ho.attached hp) hq (ho.default v hv) hpl hctx
  · exact C11_default sp hf (ho.attached hp) hq (ho.optional a hs ha ht) ⟨(by intro h; cases h), (by intro _ h; cases h)⟩ hctx
  · refine C11_missing sp hf (ho.attached hp) hq ?_ hctx
    unfold NoDefault
    exact .inl (ho.required hs ht)

/-- C76, mapping a field of any class just made, where the source has `null`: unless `nullable` is given and falsy, and there
is no `default=None`, the value is `None`; otherwise there is exactly one `Invalid` error. -/
theorem C76_null {m : Maker} (hm : m ≠ .group) (h : m.make args kw = .ok f) (hc : kw.NoCall)
    (hp : kw.Silent "attach_parent") (ht : kw.Silent "translate") (hi : kw.Silent "ignore") {name : Option String}
    (sp : Spot I W (f.attach name) s r q text b) (hq : Null I q) :
    (kw.Says "default" (.val .none) → Accepts (mapFieldF I L C rec (f.attach name) .NONE) s .none) ∧
    (kw.Silent "nullable" → Accepts (mapFieldF I L C rec (f.attach name) .NONE) s .none) ∧
    (∀ v, kw.Says "nullable" (.val v) → v.truthy = true → Accepts (mapFieldF I L C rec (f.attach name) .NONE) s .none) ∧
    (∀ v, kw.Says "nullable" (.val v) → v.truthy = false → ¬ kw.Says "default" (.val .none) →
      Adds (mapFieldF I L C rec (f.attach name) .NONE) s .ERROR
        { kind := .invalid "not nullable", path := text, field := name, pathRef := some r }) := by
  have hf := made_free hm h hc name
  have ho := C76_options hm h
  have hi' : Val.none.inList (f.attach name).core.ignores = false := by
    show Val.inList _ f.core.ignores = false
    rw [ho.ignored hi]
    rfl
  have yes : f.core.nullable.truthy = true → Accepts (mapFieldF I L C rec (f.attach name) .NONE) s .none := fun hn =>
    C14_nullable sp hf (ho.attached hp) (ho.translated ht) hi' hq hn
  have dflt : kw.Says "default" (.val .none) → f.core.nullable.truthy = true := fun hd => by rw [ho.none hd]; rfl
  refine ⟨fun hd => yes (dflt hd), fun hs => yes ?_, fun v hv hv' => yes ?_, fun v hv hv' hd => ?_⟩
  · by_cases hd : kw.Says "default" (.val .none)
    · exact dflt hd
    · rw [ho.undecided hd hs]; rfl
  · by_cases hd : kw.Says "default" (.val .none)
    · exact dflt hd
    · rw [ho.nullable hd v hv]; exact hv'
  · refine C14_not_nullable sp hf (ho.attached hp) (ho.translated ht) hi' hq ?_
    show f.core.nullable.truthy = false
    rw [ho.nullable hd v hv]
    exact hv'

end Pilo
