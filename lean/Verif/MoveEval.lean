import Verif.Move

/-!
# Mapping the same fields in two states

Mapping a field whose declaration has no forms in it, from a source without forms, in two states that differ in the forms
there already are: the results, the errors and the new forms are the same, but for the identities of the new forms.
-/

namespace Pilo

/-- The declaration of the field has no hooks and mentions no forms. -/
structure Decent (f : Field) : Prop where
  free : HookFree f
  keyFilter : ∀ kf vf kfl r m, f.kind = .dict kf vf kfl r m → kfl = none
  default : ∀ v, f.core.default = .value v → Free v
  translations : ∀ p ∈ f.core.translations, Free p.2
  ignores : ∀ c ∈ f.core.ignores, Free c
  required : ∀ kf vf kfl ks m, f.kind = .dict kf vf kfl (.set ks) m → ∀ k ∈ ks, Free k
  captures : ∀ fs, f.kind = .group fs → ∀ m g, (GSrc.re m, g) ∈ fs → ∀ s cap, m s = some cap → Free cap

/-- What the library calls give has no forms in it. -/
structure FormlessLib (L : Lib) : Prop where
  call : ∀ id v, L.call id = .ok v → Free v
  compile : ∀ s v, Code.compile L s = .ok v → Free v
  load : ∀ n a v, Code.load L n a = .ok v → Free v

namespace Move
variable {P : Type} {I : PathOps P} {L : Lib} {C : Classes} {α β α' β' : Type}
variable {S : Inert I} {R : Ren} {ra : α → β → Prop} {rb : α' → β' → Prop}

/-- The same value but for the identities of forms. -/
def VR (R : Ren) (v w : Val) : Prop := w = v.mv R.g

/-- The same value, without forms. -/
def FV (v w : Val) : Prop := w = v ∧ Free v

theorem FV.vr {v w : Val} (h : FV v w) : VR R v w := h.1.trans (mv_free h.2).symm

theorem Run.bindF {t u : T P Val} {f : Val → T P α} {f' : Val → T P β} (ht : Run S R FV t u)
    (hf : ∀ a, Free a → Run S R ra (f a) (f' a)) : Run S R ra (t >>= f) (u >>= f') :=
  .bind ht (by rintro a _ ⟨rfl, h⟩; exact hf _ h)

/-- Both computations go wrong in the same way, or go on with the same value. -/
theorem Run.ofExcept_bind {r : Except Exc α'} {f : α' → T P α} {f' : α' → T P β} (hf : ∀ a, r = .ok a → Run S R ra (f a) (f' a)) :
    Run S R ra (T.ofExcept r >>= f) (T.ofExcept r >>= f') := by
  cases r with
  | error e => exact .raise' (ra := ra) e
  | ok a => exact hf a rfl

theorem Run.value : Run S R FV (T.onPath I.value) (T.onPath I.value) :=
  .onPath (fun _ h => S.value h) (fun Z _ _ h => Z.value h) fun _ _ h e => ⟨rfl, S.value_free h e⟩
theorem Run.primitive (ty : PTy) : Run S R FV (T.onPath (I.primitive ty)) (T.onPath (I.primitive ty)) :=
  .onPath (fun _ h => S.primitive h) (fun Z _ _ h => Z.primitive h) fun _ _ h e => ⟨rfl, S.primitive_free h e⟩
theorem Run.exists_ : Run S R Eq (T.onPath I.exists_) (T.onPath I.exists_) :=
  .onPath (fun _ h => S.exists_ h) (fun Z _ _ h => Z.exists_ h) fun _ _ _ _ => rfl
theorem Run.isNull : Run S R Eq (T.onPath I.isNull) (T.onPath I.isNull) :=
  .onPath (fun _ h => S.isNull h) (fun Z _ _ h => Z.isNull h) fun _ _ _ _ => rfl
theorem Run.sequence : Run S R Eq (T.onPath I.sequence) (T.onPath I.sequence) :=
  .onPath (fun _ h => S.sequence h) (fun Z _ _ h => Z.sequence h) fun _ _ _ _ => rfl
theorem Run.mapping : Run S R (fun a b => a = b ∧ ∀ kv, a = some kv → ∀ k ∈ kv.ks, Free k) (T.onPath I.mapping) (T.onPath I.mapping) :=
  .onPath (fun _ h => S.mapping h) (fun Z _ _ h => Z.mapping h) fun _ _ h e => ⟨rfl, fun _ h' => S.keys_free h (h' ▸ e)⟩
theorem Run.hasSrc : Run S R Eq (Lex.pathHasSrc I) (Lex.pathHasSrc I) :=
  .onPath (fun _ h => h) (fun _ _ _ h => h) fun _ _ _ _ => rfl

theorem Run.invalid (m : String) : Run S R Eq (Lex.invalid I m) (Lex.invalid I m) := .report _
theorem Run.missing : Run S R Eq (Lex.missing I) (Lex.missing I) := .report _
theorem Run.rejectWith (m : String) : Run S R Eq (Lex.rejectWith I m) (Lex.rejectWith I m) :=
  .bindEq (.invalid m) fun _ => .pure rfl
theorem Run.failWith (m : String) : Run S R FV (Lex.failWith I m) (Lex.failWith I m) :=
  .bindEq (.invalid m) fun _ => .pure ⟨rfl, .const _⟩

theorem Run.missingNotSet : Run S R FV (Lex.missingNotSet I) (Lex.missingNotSet I) :=
  .bindEq (.ctxGet (fun _ _ h => h.ignoreMissing) _) fun _ => .ite Iff.rfl (fun _ => .pure ⟨rfl, .const _⟩)
    fun _ => .bindEq .missing fun _ => .pure ⟨rfl, .const _⟩

/-- Leave a computation on both sides. -/
theorem Run.self (r : Except Exc α) : Run S R Eq (T.ofExcept r : T P α) (T.ofExcept r) := .ofExcept r

/-! ### Validation -/

theorem Run.stringValidate (f : Field) (c : StrCfg) (v : Val) :
    Run S R Eq (Lex.stringValidate I L f c v) (Lex.stringValidate I L f c v) := by
  unfold Lex.stringValidate
  refine .bindEq (.self _) fun _ => .ite Iff.rfl (fun _ => .bindEq (.self _) fun _ => .rejectWith _) fun _ =>
    .bindEq (.self _) fun _ => .ite Iff.rfl (fun _ => .rejectWith _) fun _ =>
    .bindEq (.self _) fun _ => .ite Iff.rfl (fun _ => .rejectWith _) fun _ =>
    .bindEq (.self _) fun _ => .ite Iff.rfl (fun _ => .rejectWith _) fun _ => .ite Iff.rfl (fun _ => ?_) fun _ => .pure rfl
  split
  · exact .rejectWith _
  · exact .rejectWith _

theorem Run.rangeValidate (lo hi : Option Val) (a b : Val → Val → String) (v : Val) :
    Run S R Eq (Lex.rangeValidate I L lo hi a b v) (Lex.rangeValidate I L lo hi a b v) :=
  .bindEq (.self _) fun _ => .ite Iff.rfl (fun _ => .rejectWith _) fun _ =>
    .bindEq (.self _) fun _ => .ite Iff.rfl (fun _ => .rejectWith _) fun _ => .pure rfl

theorem lenBad_mv (b : Option Nat) (bad : Nat → Nat → Bool) (v : Val) : lenBad b bad (v.mv R.g) = lenBad b bad v := by
  unfold lenBad; rw [pyLen_mv]

theorem Run.listValidate (lo hi : Option Nat) (v : Val) :
    Run S R Eq (Lex.listValidate I lo hi v) (Lex.listValidate I lo hi (v.mv R.g)) := by
  unfold Lex.listValidate
  rw [lenBad_mv, lenBad_mv]
  exact .bindEq (.self _) fun _ => .ite Iff.rfl (fun _ => .rejectWith _) fun _ =>
    .bindEq (.self _) fun _ => .ite Iff.rfl (fun _ => .rejectWith _) fun _ => .pure rfl

theorem missingKeys_mv {req : Required} (hreq : ∀ ks, req = .set ks → ∀ k ∈ ks, Free k) (v : Val) :
    missingKeys req (v.mv R.g) = missingKeys req v := by
  unfold missingKeys
  split
  · rfl
  · rfl
  · rfl
  · rename_i ks _
    cases v with
    | dict kvs =>
      simp only [Val.mv, keysOf]
      congr 1
      refine List.filter_congr fun k hk => ?_
      congr 1
      unfold Val.inList
      rw [mvDict_eq, List.map_map, List.any_map, List.any_map]
      congr 1
      funext p
      exact free_pyEq_mv R.inj p.1 (hreq ks rfl k hk)
    | _ => rfl

theorem Run.dictValidate {req : Required} (hreq : ∀ ks, req = .set ks → ∀ k ∈ ks, Free k) (mx : Option Nat) (v : Val) :
    Run S R Eq (Lex.dictValidate I L req mx v) (Lex.dictValidate I L req mx (v.mv R.g)) := by
  unfold Lex.dictValidate
  rw [missingKeys_mv hreq]
  refine .bindEq (.self _) fun _ => .ite Iff.rfl (fun _ => ?_) fun _ => ?_
  · split
    · exact .rejectWith _
    · exact .raise' _
  · split
    · exact .pure rfl
    · exact .pure rfl
    · rw [pyLen_mv]
      exact .bindEq (.self _) fun _ => .ite Iff.rfl (fun _ => .rejectWith _) fun _ => .pure rfl

/-- Fields whose messages show the value. -/
def Shows : Kind → Prop
  | .string _ | .integer _ | .float _ | .decimal _ | .date _ | .time _ | .datetime _ => True
  | _ => False

/-- What a field reads. -/
def PR (R : Ren) (k : Kind) (v w : Val) : Prop := VR R v w ∧ (Shows k → Free v)

theorem FV.pr {k : Kind} {v w : Val} (h : FV v w) : PR R k v w := ⟨h.vr, fun _ => h.2⟩

theorem Run.kindValidate {f : Field} (hreq : ∀ kf vf kfl ks m, f.kind = .dict kf vf kfl (.set ks) m → ∀ k ∈ ks, Free k)
    {v w : Val} (h : PR R f.kind v w) : Run S R Eq (Lex.kindValidate I L f v) (Lex.kindValidate I L f w) := by
  obtain ⟨h1, h2⟩ := h
  have e : w = v.mv R.g := h1
  subst e
  unfold Lex.kindValidate Lex.baseValidate
  rw [isNull_mv]
  refine .bindEq (.ite Iff.rfl (fun _ => .rejectWith _) fun _ => .pure rfl) fun _ => .ite Iff.rfl (fun _ => .pure rfl) fun _ =>
    .ite Iff.rfl (fun _ => .pure rfl) fun _ => ?_
  cases hk : f.kind <;> rw [hk] at h2 <;> first
    | exact .pure rfl
    | (dsimp only; rw [mv_free (h2 trivial)]; exact .stringValidate _ _ _)
    | (dsimp only; rw [mv_free (h2 trivial)]; exact .rangeValidate _ _ _ _ _)
    | exact .listValidate _ _ _
    | skip
  exact .dictValidate (fun ks e => hreq _ _ _ ks _ (by rw [hk, e])) _ _

/-! ### Parsing without items -/

theorem Run.decimalParse : Run S R FV (Lex.decimalParse I L) (Lex.decimalParse I L) := by
  refine .bindF .value fun v _ => ?_
  split
  · exact .pure ⟨rfl, .decimal _⟩
  · exact .pure ⟨rfl, .decimal _⟩
  · exact .pure ⟨rfl, .decimal _⟩
  · exact .pure ⟨rfl, .decimal _⟩
  · refine .bindF (.primitive _) fun v _ => ?_
    split
    · split
      · exact .pure ⟨rfl, .decimal _⟩
      · exact .raise' _
    · exact .raise' _

theorem dateLoop_free (s : String) (fs : List String) : Free (dateLoop L s fs) := by
  induction fs with
  | nil => exact .none
  | cons f fs ih =>
    unfold dateLoop
    split
    · exact .ext _ _
    · exact ih

theorem Run.dateParse (c : DateCfg) : Run S R FV (Lex.dateParse I L c) (Lex.dateParse I L c) := by
  refine .bindF .value fun v _ => ?_
  split
  · exact .pure ⟨rfl, .ext _ _⟩
  · exact .pure ⟨rfl, .ext _ _⟩
  · refine .bindF (.primitive _) fun v _ => .ite Iff.rfl (fun _ => .failWith _) fun _ => ?_
    split
    · exact .pure ⟨rfl, dateLoop_free _ _⟩
    · exact .raise' _

theorem Run.timeParse (c : DateCfg) : Run S R FV (Lex.timeParse I L c) (Lex.timeParse I L c) := by
  refine .bindF .value fun v _ => ?_
  split
  · exact .pure ⟨rfl, .ext _ _⟩
  · exact .pure ⟨rfl, .ext _ _⟩
  · refine .bindF (.primitive _) fun v _ => ?_
    split
    · exact .failWith _
    · split
      · split
        · exact .pure ⟨rfl, .ext _ _⟩
        · exact .raise' _
      · exact .raise' _

theorem Run.datetimeParse (c : DateCfg) : Run S R FV (Lex.datetimeParse I L c) (Lex.datetimeParse I L c) := by
  refine .bindF .value fun v _ => ?_
  split
  · exact .pure ⟨rfl, .ext _ _⟩
  · refine .bindF (.primitive _) fun v _ => ?_
    split
    · exact .failWith _
    · split
      · refine .ite Iff.rfl (fun _ => ?_) fun _ => ?_
        · split
          · exact .pure ⟨rfl, .ext _ _⟩
          · exact .failWith _
        · split
          · exact .pure ⟨rfl, .ext _ _⟩
          · exact .raise' _
      · exact .raise' _

theorem Run.codeParse (hL : FormlessLib L) : Run S R FV (Lex.codeParse I L) (Lex.codeParse I L) := by
  refine .bindF (.primitive _) fun v hv => ?_
  split
  · refine .ite Iff.rfl (fun _ => ?_) fun _ => ?_
    · split
      · rename_i h; exact .pure ⟨rfl, hL.compile _ _ h⟩
      · exact .failWith _
    · split
      · split
        · rename_i h; exact .pure ⟨rfl, hL.load _ _ _ h⟩
        · exact .failWith _
      · exact .failWith _
  · exact .pure ⟨rfl, hv⟩

theorem Run.uuidParse : Run S R FV (Lex.uuidParse I L) (Lex.uuidParse I L) := by
  refine .bindF (.primitive _) fun v _ => ?_
  split
  · exact .pure ⟨rfl, .ext _ _⟩
  · refine .bindF (.primitive _) fun v _ => ?_
    split
    · split
      · exact .pure ⟨rfl, .ext _ _⟩
      · exact .raise' _
    · exact .raise' _

theorem Run.iterKeys (kv : KeysView) (h : ∀ k ∈ kv.ks, Free k) :
    Run S R (fun a b => a = b ∧ ∀ k ∈ a, Free k) (Lex.iterKeys kv : T P _) (Lex.iterKeys kv) := by
  unfold Lex.iterKeys
  split
  · exact .pure ⟨rfl, h⟩
  · exact .raise' _

theorem Run.seqTry : Run S R (fun a b => (∀ n, a = .ok n → b = .ok n) ∧ (∀ e, a = .error e → ∃ e', b = .error e' ∧ Twin.bare e = Twin.bare e'))
    (Lex.seqTry I) (Lex.seqTry I) := by
  refine .tryCatch (.bindEq .sequence fun n => .pure ⟨fun _ h => h, fun _ h => by cases h⟩) fun e e' he =>
    .bindEq .hasSrc fun hs => .ite Iff.rfl (fun _ => .raise' _) fun _ => ?_
  obtain ⟨_, _, h⟩ := Twin.bare_str he
  rw [h]
  exact .ite Iff.rfl (fun _ => .pure ⟨fun _ h => (by cases h), fun _ h => (by cases h; exact ⟨_, rfl, he⟩)⟩) fun _ => .raise he

/-! ### Recursion -/

/-- The two fields: the same, or those `_unmapped` makes for the two forms. -/
inductive FR (R : Ren) : Field → Field → Prop where
  | same {f : Field} (h : f.All Decent) : FR R f f
  | rest {id : Nat} {kf vf : Field} (hid : R.base ≤ id) (hk : kf.All Decent) (hv : vf.All Decent) :
    FR R (unmappedField id kf vf) (unmappedField (R.g id) kf vf)

/-- The recursive call. -/
def RecR (S : Inert I) (R : Ren) (rec : TRec P) : Prop :=
  ∀ f f' v, FR R f f' → Free v → Run S R (VR R) (rec f v) (rec f' v)

variable {rec : TRec P}

theorem RecR.one (hr : RecR S R rec) {f : Field} (hf : f.All Decent) : Run S R (VR R) (rec f .NONE) (rec f .NONE) :=
  hr f f .NONE (.same hf) (.const _)

theorem Run.bindV {t u : T P Val} {f f' : Val → T P α} (ht : Run S R (VR R) t u) {ra : α → α → Prop}
    (hf : ∀ a, Run S R ra (f a) (f' (a.mv R.g))) : Run S R ra (t >>= f) (u >>= f') :=
  .bind ht (by intro a b h; have e : b = a.mv R.g := h; subst e; exact hf _)

theorem Run.bindVs {t u : T P (List Val)} {f f' : List Val → T P α} (ht : Run S R (fun a b => b = Val.mvList R.g a) t u)
    {ra : α → α → Prop} (hf : ∀ a, Run S R ra (f a) (f' (Val.mvList R.g a))) : Run S R ra (t >>= f) (u >>= f') :=
  .bind ht (by intro a b h; have e : b = Val.mvList R.g a := h; subst e; exact hf _)

theorem Run.tupleLoop (hr : RecR S R rec) (fs : List Field) (hfs : ∀ f ∈ fs, f.All Decent) : ∀ i,
    Run S R (fun a b => b = Val.mvList R.g a) (Lex.tupleLoop I rec i fs) (Lex.tupleLoop I rec i fs) := by
  induction fs with
  | nil => intro i; exact .pure rfl
  | cons f fs ih =>
    intro i
    refine .bindV (.withKey _ (hr.one (hfs f (by simp)))) fun v => .bindVs (ih (fun g hg => hfs g (by simp [hg])) (i + 1)) fun vs => .pure ?_
    rw [isIgnore_mv]
    split <;> rfl

theorem Run.listLoop (hr : RecR S R rec) {f : Field} (hf : f.All Decent) (n : Nat) : ∀ i,
    Run S R (fun a b => b = Val.mvList R.g a) (Lex.listLoop I rec f i n) (Lex.listLoop I rec f i n) := by
  induction n with
  | zero => intro i; exact .pure rfl
  | succ n ih =>
    intro i
    refine .bindV (.withKey _ (hr.one hf)) fun v => .bindVs (ih (i + 1)) fun vs => .pure ?_
    rw [isIgnore_mv]
    split <;> rfl

/-- The key filters of the two fields. -/
inductive KF (R : Ren) : Option (Hook (Val → Prog)) → Option (Hook (Val → Prog)) → Prop where
  | none : KF R none none
  | rest {id : Nat} (hid : R.base ≤ id) : KF R (some (notInForm id)) (some (notInForm (R.g id)))

theorem Run.keepKey {a b : Option (Hook (Val → Prog))} (h : KF R a b) {k : Val} (hk : Free k) :
    Run S R Eq (Lex.keepKey I L C rec a k) (Lex.keepKey I L C rec b k) := by
  cases h with
  | none => exact .pure rfl
  | @rest id hid =>
    unfold Lex.keepKey
    refine .bindEq ?_ fun v => .pure rfl
    unfold Lex.callHook1
    show Run S R Eq (T.bind (Lex.evalProg I L C rec (.hasItem (.form id) k)) fun r => Lex.evalProg I L C rec (.ret (.bool (!r.truthy))))
      (T.bind (Lex.evalProg I L C rec (.hasItem (.form (R.g id)) k)) fun r => Lex.evalProg I L C rec (.ret (.bool (!r.truthy))))
    refine Run.bindEq ?_ fun r => ?_
    · unfold Lex.evalProg
      have hp : ∀ i, ∀ f : Nat → T P Val, (Lex.asForm (.form i) >>= f) = f i := fun _ _ => rfl
      rw [hp, hp]
      refine .bind (.formItems hid) fun l l' hl => .ite Iff.rfl (fun _ => .pure ?_) fun _ => .raise' _
      rw [show l' = _ from hl, dictHas_mv R.inj _ hk]
    · unfold Lex.evalProg
      exact .pure rfl

theorem Run.dictLoop (hr : RecR S R rec) {kf vf : Field} (hkf : kf.All Decent) (hvf : vf.All Decent)
    {a b : Option (Hook (Val → Prog))} (h : KF R a b) (ks : List Val) (hks : ∀ k ∈ ks, Free k) : ∀ acc,
    Run S R (fun x y => y = Val.mvDict R.g x) (Lex.dictLoop I L C rec kf vf a ks acc) (Lex.dictLoop I L C rec kf vf b ks (Val.mvDict R.g acc)) := by
  induction ks with
  | nil => intro acc; exact .pure rfl
  | cons k ks ih =>
    intro acc
    have ih := ih fun k hk => hks k (by simp [hk])
    have hk := hks k (by simp)
    unfold Lex.dictLoop
    refine .bindEq (.keepKey h hk) fun _ => .ite Iff.rfl (fun _ => ih acc) fun _ => .bindV (.withKey k (hr.one hvf)) fun v => ?_
    rw [isIgnore_mv]
    refine .ite Iff.rfl (fun _ => ih acc) fun _ => .bindV (hr kf kf k (.same hkf) hk) fun k' => ?_
    rw [isIgnore_mv, hashable_mv]
    refine .ite Iff.rfl (fun _ => ih acc) fun _ => .ite Iff.rfl (fun _ => .raise' _) fun _ => ?_
    rw [dictSet_mv R.inj]
    exact ih _

theorem groupMatch_free {fs : List (GSrc × Field)} (hc : ∀ m g, (GSrc.re m, g) ∈ fs → ∀ s cap, m s = some cap → Free cap)
    {k : Val} {f : Field} {cap : Val} (h : groupMatch fs k = .ok (some (f, cap))) : Free cap := by
  induction fs with
  | nil => cases h
  | cons x fs ih =>
    rcases x with ⟨g, f'⟩
    have ih := ih fun m g hg => hc m g (by simp [hg])
    cases g with
    | str s =>
      unfold groupMatch at h
      split at h
      · cases h; exact .none
      · exact ih h
    | re m =>
      unfold groupMatch at h
      split at h
      · split at h
        · rename_i hm
          cases h
          exact hc m f (by simp) _ _ hm
        · exact ih h
      · cases h

theorem Run.groupLoop (hr : RecR S R rec) {fs : List (GSrc × Field)} (hfs : ∀ x ∈ fs, x.2.All Decent)
    (hc : ∀ m g, (GSrc.re m, g) ∈ fs → ∀ s cap, m s = some cap → Free cap) (ks : List Val) (hks : ∀ k ∈ ks, Free k) : ∀ m acc,
    Run S R (fun a b => b = a.map (Val.mvList R.g)) (Lex.groupLoop I rec fs ks m acc) (Lex.groupLoop I rec fs ks m (Val.mvList R.g acc)) := by
  induction ks with
  | nil => intro m acc; cases m <;> exact .pure rfl
  | cons k ks ih =>
    intro m acc
    have ih := ih fun k hk => hks k (by simp [hk])
    have hk := hks k (by simp)
    unfold Lex.groupLoop
    refine .ofExcept_bind fun r hg => ?_
    rcases r with _ | ⟨f, cap⟩
    · exact ih _ _
    · obtain ⟨g, hmem⟩ := groupMatch_mem hg
      refine .bindV (.withKey k (hr.one (hfs _ hmem))) fun v => ?_
      rw [isIgnore_mv]
      refine .ite Iff.rfl (fun _ => ih _ _) fun _ => ?_
      have : Val.mvList R.g acc ++ [Val.tuple [k, cap, v.mv R.g]] = Val.mvList R.g (acc ++ [Val.tuple [k, cap, v]]) := by
        simp [mvList_eq, Val.mv, mv_free hk, mv_free (groupMatch_free hc hg)]
      rw [this]
      exact ih _ _

/-! ### Defaults -/

theorem Run.fieldDefault (hL : FormlessLib L) {f f' : Field} (hf : HookFree f) (hd : ∀ v, f.core.default = .value v → Free v)
    (he : f'.core = f.core) : Run S R FV (Lex.fieldDefault I L C rec f) (Lex.fieldDefault I L C rec f') := by
  unfold Lex.fieldDefault
  rw [he]
  rcases hf.default with h | ⟨v, h⟩
  · rw [h]
    exact .bindEq (.ctxGet (fun _ _ h => h.ignoreDefault) _) fun _ => .ite Iff.rfl (fun _ => .missingNotSet) fun _ => .missingNotSet
  · have hv := hd v h
    rw [h]
    refine .bindEq (.ctxGet (fun _ _ h => h.ignoreDefault) _) fun _ => .ite Iff.rfl (fun _ => .missingNotSet) fun _ => ?_
    split
    · rename_i h; cases h
    · rename_i h; cases h
    · rename_i h; cases h
    · exact .missingNotSet
    · rename_i id h
      cases h
      have : ∀ r : Except Exc Val, (T.ofExcept r : T P Val) = T.ofExcept r >>= T.pure := by
        intro r; cases r <;> rfl
      rw [this]
      exact .ofExcept_bind fun a ha => .pure ⟨rfl, hL.call _ _ ha⟩
    · rename_i h; cases h; exact .pure ⟨rfl, hv⟩

/-! ### Forms -/

theorem key_free (f : Field) : Free f.key := by
  unfold Field.key
  cases f.name
  · exact .none
  · exact .str _

theorem Run.formReset (id : Nat) (tags : List String) (fs : List Field) :
    Run S R Eq (Lex.formReset id tags fs : T P Unit) (Lex.formReset (R.g id) tags fs) := by
  induction fs with
  | nil => exact .pure rfl
  | cons f fs ih =>
    exact .bindEq (.ite Iff.rfl (fun _ => .formModify id fun l => (dictDel_mv R.inj l (key_free f)).symm) fun _ => .pure rfl) fun _ => ih

theorem Run.unmappedGo (hr : RecR S R rec) {id : Nat} (hid : R.base ≤ id) {kf vf : Field} (hk : kf.All Decent) (hv : vf.All Decent) :
    Run S R Eq (Lex.unmappedGo rec id kf vf) (Lex.unmappedGo rec (R.g id) kf vf) := by
  refine .bindV (hr _ _ .NONE (.rest hid hk hv) (.const _)) fun v => ?_
  cases v with
  | none => exact .pure rfl
  | dict kvs => exact .formModify id fun l => (dictUpdate_mv R.inj l kvs).symm
  | _ => exact .raise' _

theorem decent_plain {c : FieldCore} {k : Kind} (hk : ∀ kf vf h r m, k ≠ .dict kf vf h r m) (hg : ∀ fs, k ≠ .group fs)
    (hd : c.default = .unset := by rfl) (hr : c.resolve = none := by rfl)
    (hc : c.compute = none := by rfl) (hp : c.parse = none := by rfl) (hm : c.munge = none := by rfl)
    (hf : c.filter = none := by rfl) (hv : c.validate = none := by rfl) (ht : c.translations = [] := by rfl)
    (hi : c.ignores = [] := by rfl) : Decent (.mk c k) where
  free := hookFree_plain (fun kf vf h r m => hk kf vf (some h) r m) hd hr hc hp hm hf hv
  keyFilter kf vf kfl r m h := absurd h (hk kf vf kfl r m)
  default v h := by rw [show (Field.mk c k).core = c from rfl, hd] at h; cases h
  translations p h := by rw [show (Field.mk c k).core = c from rfl, ht] at h; cases h
  ignores p h := by rw [show (Field.mk c k).core = c from rfl, hi] at h; cases h
  required kf vf kfl ks m h := absurd h (hk kf vf kfl _ m)
  captures fs h := absurd h (hg fs)

theorem captureKey_decent : captureKeyField.All Decent :=
  .mk (decent_plain (fun _ _ _ _ _ h => by cases h) fun _ h => by cases h) .string

theorem captureValue_decent : captureValueField.All Decent :=
  .mk (decent_plain (fun _ _ _ _ _ h => by cases h) fun _ h => by cases h) .base

theorem Run.applyUnmapped (hr : RecR S R rec) {id : Nat} (hid : R.base ≤ id) {u : Unmapped} (hu : u.All Decent) :
    Run S R Eq (Lex.applyUnmapped rec id u) (Lex.applyUnmapped rec (R.g id) u) := by
  cases hu with
  | value h => exact .unmappedGo hr hid captureKey_decent h
  | pair hk hv => exact .unmappedGo hr hid hk hv
  | str =>
    rename_i u
    cases u with
    | capture => exact .unmappedGo hr hid captureKey_decent captureValue_decent
    | none => exact .pure rfl
    | ignore => exact .pure rfl
    | bad => exact .raise' _

theorem Run.mapOne (hr : RecR S R rec) (id : Nat) (tags : List String) {f : Field} (hf : f.All Decent) :
    Run S R Eq (Lex.mapOne rec id tags f) (Lex.mapOne rec (R.g id) tags f) := by
  refine .ite Iff.rfl (fun _ => .bindV (hr.one hf) fun v => ?_) fun _ => .pure rfl
  rw [isIgnore_mv]
  exact .ite Iff.rfl (fun _ => .pure rfl) fun _ => .formModify id fun l => (dictSet_mv' R.inj l (key_free f) v).symm

theorem Run.mapFields (hr : RecR S R rec) (id : Nat) (tags : List String) (fs : List Field) (hfs : ∀ f ∈ fs, f.All Decent) :
    Run S R Eq (Lex.mapFields rec id tags fs) (Lex.mapFields rec (R.g id) tags fs) := by
  induction fs with
  | nil => exact .pure rfl
  | cons f fs ih => exact .bindEq (.mapOne hr id tags (hfs f (by simp))) fun _ => ih fun g hg => hfs g (by simp [hg])

theorem Run.formMapBody (hC : C.All Decent) (hr : RecR S R rec) {id : Nat} (hid : R.base ≤ id) (tags : List String) {u : Unmapped}
    (hu : u.All Decent) : Run S R Eq (Lex.formMapBody I C rec id tags u) (Lex.formMapBody I C rec (R.g id) tags u) := by
  unfold Lex.formMapBody
  exact .bind .mapping fun _ _ _ => .bindEq (.formCls hid) fun cls =>
    .bindEq (.withEnv (w := fun env => { env with form := some id, parent := some (.form id) })
      (w' := fun env => { env with form := some (R.g id), parent := some (.form (R.g id)) })
      (fun env env' h => ⟨h.src, rfl, rfl, h.field, h.tags, h.ignoreDefault, h.ignoreMissing, rfl⟩)
      (.mapFields hr id tags _ (hC cls))) fun _ => .applyUnmapped hr hid hu

theorem Run.nestedMap (hC : C.All Decent) (hr : RecR S R rec) {id : Nat} (hid : R.base ≤ id) (tags : List String) {u : Unmapped}
    (hu : u.All Decent) : Run S R Errs (Lex.nestedMap I C rec id tags u false) (Lex.nestedMap I C rec (R.g id) tags u false) := by
  unfold Lex.nestedMap
  exact .bind (.withErrs (.formMapBody hC hr hid tags hu)) fun x y h => .bindEq (.extend h.2) fun _ => .pure h.2

/-- Sources that can be given to a form. -/
def SrcOK (S : Inert I) : SrcArg P → Prop
  | .none => True
  | .data v => S.Q (I.native v none) ∧ ∀ al, Keyable al → S.Q (I.native v (some al))
  | .source mk => ∀ p, mk = .ok p → S.Q p

theorem Run.rootSource (hN : Named C) {id : Nat} (hid : R.base ≤ id) {src : SrcArg P} (hs : SrcOK S src) :
    Run S R (fun a b => a = b ∧ ∀ p, a = .ok p → S.Q p) (Lex.rootSource I C id src) (Lex.rootSource I C (R.g id) src) := by
  unfold Lex.rootSource
  split
  · exact .pure ⟨rfl, fun p h => by cases h; exact S.empty⟩
  · exact .pure ⟨rfl, fun p h => hs p h⟩
  · exact .pure ⟨rfl, fun p h => by cases h; exact hs.1⟩
  · exact .bindEq (.formCls hid) fun cls => .pure ⟨rfl, fun p h => by cases h; exact hs.2 _ (seqAliases_keyable hN cls)⟩
  · exact .bindEq (.formCls hid) fun cls => .pure ⟨rfl, fun p h => by cases h; exact hs.2 _ (seqAliases_keyable hN cls)⟩
  · exact .raise' _

theorem Run.rootMap (hC : C.All Decent) (hN : Named C) (hr : RecR S R rec) {id : Nat} (hid : R.base ≤ id) {src : SrcArg P} (hs : SrcOK S src)
    (tags : List String) {u : Unmapped}
    (hu : u.All Decent) : Run S R Errs (Lex.rootMap I C rec id src tags u false) (Lex.rootMap I C rec (R.g id) src tags u false) := by
  unfold Lex.rootMap
  exact .bind (.rootSource hN hid hs) fun a b h => by
    obtain ⟨rfl, h⟩ := h
    exact .bind (.withErrs (.withSource h (.formMapBody hC hr hid tags hu))) fun x y h => .pure h.2

theorem Run.formMap (hC : C.All Decent) (hN : Named C) (hr : RecR S R rec) {id : Nat} (hid : R.base ≤ id) {src : SrcArg P} (hs : SrcOK S src)
    (tags : List String) (reset : Bool) {u : Unmapped} (hu : u.All Decent) :
    Run S R Errs (Lex.formMap I C rec id src tags reset u false) (Lex.formMap I C rec (R.g id) src tags reset u false) := by
  unfold Lex.formMap
  refine .bindEq (.ctxGet? fun _ _ h => h.tags.symm) fun ct => .bindEq ?_ fun _ => .bindEq (.ctxGet (fun _ _ h => h.src) _) fun cs =>
    .bind ?_ fun es es' h => .pure h
  · exact .ite Iff.rfl (fun _ => .bindEq (.formCls hid) fun cls => .formReset id _ _) fun _ => .pure rfl
  · exact .ite Iff.rfl (fun _ => .ite Iff.rfl (fun _ => .nestedMap hC hr hid _ hu) fun _ => .rootMap hC hN hr hid (src := .none) trivial _ hu) fun _ =>
      .rootMap hC hN hr hid hs _ hu

theorem Run.subParse (hC : C.All Decent) (hN : Named C) (hr : RecR S R rec) (cls : Nat) (reset : Bool) {u : Unmapped} (hu : u.All Decent) :
    Run S R (VR R) (Lex.subParse I C rec cls reset u) (Lex.subParse I C rec cls reset u) := by
  unfold Lex.subParse
  refine .newForm _ fun id hid => .bind (.formMap hC hN hr hid (src := .none) trivial _ _ hu) fun es es' h => .pure ?_
  show _ = _
  rw [h.isEmpty]
  split <;> rfl

theorem Run.getFinish (f : Field) (id : Nat) (v : Val) :
    Run S R (VR R) (Lex.getFinish f id v : T P Val) (Lex.getFinish f (R.g id) (v.mv R.g)) := by
  unfold Lex.getFinish
  rw [isIgnore_mv]
  exact .ite Iff.rfl (fun _ => .raise' _) fun _ => .bindEq (.formModify id fun l => (dictSet_mv' R.inj l (key_free f) v).symm) fun _ => .pure rfl

theorem Run.getEmpty (hr : RecR S R rec) {f : Field} (hf : f.All Decent) (id : Nat) :
    Run S R (VR R) (Lex.getEmpty I rec f id) (Lex.getEmpty I rec f (R.g id)) :=
  .withSource (fun p h => by cases h; exact S.empty)
    (.withEnv (w := fun env => { env with form := some id, parent := some (.form id) })
      (w' := fun env => { env with form := some (R.g id), parent := some (.form (R.g id)) })
      (fun env env' h => ⟨h.src, rfl, rfl, h.field, h.tags, h.ignoreDefault, h.ignoreMissing, rfl⟩) (hr.one hf))

theorem Run.fieldGet (hr : RecR S R rec) {f : Field} (hf : f.All Decent) {id : Nat} (hid : R.base ≤ id) :
    Run S R (VR R) (Lex.fieldGet I rec f id) (Lex.fieldGet I rec f (R.g id)) := by
  unfold Lex.fieldGet
  refine .bind (.formItems hid) fun l l' hl => ?_
  rw [show l' = _ from hl, dictGet_mv R.inj l (key_free f)]
  cases dictGet? l f.key with
  | some v => exact .pure rfl
  | none =>
    refine .bind (.ctxGet? (ra := fun a b => ∃ i, a = some i ∧ b = some (R.g i)) fun env env' h => ?_) fun a b h => ?_
    · have := h.inForm
      have h2 := h.form
      cases hx : env.form with
      | none => rw [hx] at this; cases this
      | some i => rw [hx] at h2; exact ⟨i, rfl, h2⟩
    · obtain ⟨i, rfl, rfl⟩ := h
      refine .bind (.ctxGet? (ra := fun a b => b = a.map (mvParent R.g)) fun env env' h => h.parent) fun a b h => ?_
      have h : b = a.map (mvParent R.g) := h
      subst h
      refine .ite ?_ (fun _ => .bindV (hr.one hf) fun v => .getFinish f id v) fun _ => .bindV (.getEmpty hr hf id) fun v => .getFinish f id v
      rcases a with _ | a | _
      · simp
      · simp only [Option.map_some, mvParent, Option.some.injEq, Parent.form.injEq]
        exact ⟨fun h => by rw [h], fun h => R.inj _ _ h⟩
      · simp [mvParent]

theorem Run.probeSrc : Run S R (fun a b => a = b ∧ SrcOK S a) (Lex.probeSrc I) (Lex.probeSrc I) := by
  intro Z d env env' τ σ he h
  obtain ⟨r, r', p, h1, h2, h3, h4⟩ := h.path
  unfold Lex.probeSrc
  have e1 : T.onPath I.value env τ = ((I.value p).1, { τ with path := some (some (r, (I.value p).2)) }) := by
    unfold T.onPath; rw [h1]
  have e2 : T.onPath I.value env' σ = ((I.value p).1, { σ with path := some (some (r', (I.value p).2)) }) := by
    unfold T.onPath; rw [h2]
  have hrel : Rel S R Z d { τ with path := some (some (r, (I.value p).2)) } { σ with path := some (some (r', (I.value p).2)) } :=
    ⟨⟨r, r', _, rfl, rfl, S.value h3, Z.value h4⟩, h.errs, h.forms⟩
  cases hv : (I.value p).1 with
  | error e =>
    rw [hv] at e1 e2
    rw [T.bind_error e1, T.bind_error e2]
    exact ⟨rfl, hrel, [], [], rfl, by simp [items], by simp [items]⟩
  | ok v =>
    rw [hv] at e1 e2
    rw [T.bind_ok e1, T.bind_ok e2]
    refine ⟨⟨rfl, ?_⟩, hrel, [], [], rfl, by simp [items, T.onPath], by simp [items, T.onPath]⟩
    have hq := S.value h3
    cases hj : I.joinPath (I.value p).2 with
    | none => exact ⟨S.again h3 hv, fun _ h => S.positional h3 hv h⟩
    | some mk => exact fun q hm => S.join hq (hj.trans (congrArg some hm))

theorem Run.probe (hC : C.All Decent) (hN : Named C) (hr : RecR S R rec) {tf : Field} (ht : tf.All Decent) (pc : Nat) {src : SrcArg P} (hs : SrcOK S src) :
    Run S R (VR R) (Lex.probe I C rec tf pc src) (Lex.probe I C rec tf pc src) := by
  unfold Lex.probe
  refine .newForm _ fun id hid => .bind (.formMap hC hN hr hid hs _ _ .str) fun es es' h => ?_
  cases es with
  | nil =>
    cases es' with
    | nil => exact .fieldGet hr ht hid
    | cons e es' => exact absurd h (by simp [Errs])
  | cons e es =>
    cases es' with
    | nil => exact absurd h (by simp [Errs])
    | cons e' es' =>
      simp only [Errs, List.map_cons, List.cons.injEq] at h
      exact .raise (congrArg Exc.fieldError h.1)

theorem Run.polyType (hC : C.All Decent) (hN : Named C) (hr : RecR S R rec) {tf : Field} (ht : tf.All Decent) (pc : Nat) (types : List (Val × Nat)) :
    Run S R Eq (Lex.polyType I L C rec tf pc types) (Lex.polyType I L C rec tf pc types) := by
  unfold Lex.polyType
  refine .bind (ra := fun a b => b = a.map (Val.mv R.g)) (.tryCatch (.bind .probeSrc fun a b h => ?_) fun e e' he => ?_) fun a b h => ?_
  · obtain ⟨rfl, h⟩ := h
    exact .bindV (.probe hC hN hr ht pc h) fun v => .pure rfl
  · obtain ⟨h1, h2, _⟩ := Twin.bare_str he
    rw [h1, h2]
    exact .ite Iff.rfl (fun _ => .bindEq (.invalid _) fun _ => .pure rfl) fun _ => .raise he
  · have h : b = a.map (Val.mv R.g) := h
    subst h
    rcases a with _ | v
    · exact .pure rfl
    · cases hh : v.hashable with
      | true =>
        rw [Option.map_some, mv_free (free_of_hashable hh)]
        split
        · exact .pure rfl
        · exact .pure rfl
        · refine .ite Iff.rfl (fun _ => .raise' _) fun _ => ?_
          split
          · exact .pure rfl
          · exact .bindEq (.invalid _) fun _ => .pure rfl
      | false =>
        have h' := hashable_mv (g := R.g) v
        rw [hh] at h'
        rw [Option.map_some]
        split
        · rename_i h; cases h
        · rename_i h; cases h; cases hh
        · rename_i h
          cases h
          rw [hh]
          cases v <;> first
            | (simp only [Val.mv] at h' ⊢
               rw [h']
               exact .raise' _)
            | cases hh

theorem Run.polyParse (hC : C.All Decent) (hN : Named C) (hr : RecR S R rec) {tf : Field} (ht : tf.All Decent) (pc : Nat) (types : List (Val × Nat))
    (reset : Bool) {u : Unmapped} (hu : u.All Decent) :
    Run S R (VR R) (Lex.polyParse I L C rec tf pc types reset u) (Lex.polyParse I L C rec tf pc types reset u) := by
  refine .bindEq (.polyType hC hN hr ht pc types) fun r => ?_
  rcases r with _ | _ | cls
  · exact .pure rfl
  · exact .pure rfl
  · exact .subParse hC hN hr cls reset hu

/-! ### Fields -/

theorem Run.listParse (hr : RecR S R rec) {f : Field} (hf : f.All Decent) (allow : Bool) :
    Run S R (VR R) (Lex.listParse I rec f allow) (Lex.listParse I rec f allow) := by
  refine .bind .seqTry fun a b h => ?_
  cases a with
  | ok n =>
    rw [h.1 n rfl]
    exact .bindVs (.listLoop hr hf n 0) fun vs => .pure rfl
  | error e =>
    obtain ⟨e', rfl, he⟩ := h.2 e rfl
    refine .ite Iff.rfl (fun _ => .raise he) fun _ => .bindV (hr.one hf) fun v => .pure ?_
    show _ = _
    rw [isIgnore_mv]
    split <;> rfl

theorem Run.dictParse (hL : FormlessLib L) (hr : RecR S R rec) {f f' : Field} (hf : HookFree f) (hd : ∀ v, f.core.default = .value v → Free v)
    (he : f'.core = f.core) {kf vf : Field} (hkf : kf.All Decent) (hvf : vf.All Decent)
    {a b : Option (Hook (Val → Prog))} (h : KF R a b) :
    Run S R (VR R) (Lex.dictParse I L C rec f kf vf a) (Lex.dictParse I L C rec f' kf vf b) := by
  refine .bind .mapping fun x y hx => ?_
  obtain ⟨rfl, hx⟩ := hx
  cases x with
  | none => exact (Run.fieldDefault hL hf hd he).mono fun _ _ h => h.vr
  | some kv =>
    refine .bind (.iterKeys kv (hx kv rfl)) fun ks ks' hks => ?_
    obtain ⟨rfl, hks⟩ := hks
    refine .bind (.dictLoop hr hkf hvf h ks hks []) fun l l' hl => .pure ?_
    rw [show l' = _ from hl]
    rfl

theorem Run.groupParse (hL : FormlessLib L) (hr : RecR S R rec) {f : Field} (hf : Decent f) {fs : List (GSrc × Field)}
    (hfs : ∀ x ∈ fs, x.2.All Decent) (hc : ∀ m g, (GSrc.re m, g) ∈ fs → ∀ s cap, m s = some cap → Free cap) :
    Run S R (VR R) (Lex.groupParse I L C rec f fs) (Lex.groupParse I L C rec f fs) := by
  refine .bind .mapping fun x y hx => ?_
  obtain ⟨rfl, hx⟩ := hx
  cases x with
  | none => exact (Run.fieldDefault hL hf.free hf.default rfl).mono fun _ _ h => h.vr
  | some kv =>
    refine .bind (.iterKeys kv (hx kv rfl)) fun ks ks' hks => ?_
    obtain ⟨rfl, hks⟩ := hks
    refine .bind (.groupLoop hr hfs hc ks hks false []) fun l l' hl => ?_
    rw [show l' = _ from hl]
    cases l <;> exact .pure rfl

theorem Run.kindParse (hL : FormlessLib L) (hC : C.All Decent) (hN : Named C) (hr : RecR S R rec) {f : Field} (hf : f.All Decent) :
    Run S R (PR R f.kind) (Lex.kindParse I L C rec f) (Lex.kindParse I L C rec f) := by
  have hn := hf.node
  have hk := hf.kind
  have hs : ∀ {t u : T P Val}, ¬Shows f.kind → Run S R (VR R) t u → Run S R (PR R f.kind) t u :=
    fun hs h => h.mono fun _ _ h => ⟨h, fun h' => absurd h' hs⟩
  have hp : ∀ {t u : T P Val} {k : Kind}, Run S R FV t u → Run S R (PR R k) t u := fun h => h.mono fun _ _ h => h.pr
  unfold Lex.kindParse
  cases hkind : f.kind with
  | decimal c => exact hp .decimalParse
  | date c => exact hp (.dateParse c)
  | time c => exact hp (.timeParse c)
  | datetime c => exact hp (.datetimeParse c)
  | code => exact hp (.codeParse hL)
  | uuid => exact hp .uuidParse
  | tuple fs =>
    rw [hkind] at hk hs
    cases hk with
    | tuple h =>
      refine hs id (.bindEq .sequence fun n => .ite Iff.rfl (fun _ => (Run.failWith _).mono fun _ _ h => h.vr) fun _ => ?_)
      exact .bindVs (.tupleLoop hr fs h 0) fun vs => .pure rfl
  | list g lo hi a =>
    rw [hkind] at hk hs
    cases hk with | list h => exact hs id (.listParse hr h a)
  | dict kf vf kfl r m =>
    have hkf := hn.keyFilter kf vf kfl r m hkind
    subst hkf
    rw [hkind] at hk hs
    cases hk with
    | dict hk hv => exact hs id (.dictParse hL hr hn.free hn.default rfl hk hv .none)
  | subform cls reset u =>
    rw [hkind] at hk hs
    cases hk with | subform h => exact hs id (.subParse hC hN hr cls reset h)
  | poly tf pc ts reset u =>
    rw [hkind] at hk hs
    cases hk with | poly ht h => exact hs id (.polyParse hC hN hr ht pc ts reset h)
  | group fs =>
    have hc := hn.captures fs hkind
    rw [hkind] at hk hs
    cases hk with | group h => exact hs id (.groupParse hL hr hn h hc)
  | _ => exact hp (.primitive _)

/-- What the steps of a field depend on. -/
structure Node (S : Inert I) (R : Ren) (L : Lib) (C : Classes) (rec : TRec P) (f f' : Field) : Prop where
  core : f'.core = f.core
  free : HookFree f
  free' : HookFree f'
  default : ∀ v, f.core.default = .value v → Free v
  translations : ∀ p ∈ f.core.translations, Free p.2
  ignores : ∀ c ∈ f.core.ignores, Free c
  parse : Run S R (PR R f.kind) (Lex.kindParse I L C rec f) (Lex.kindParse I L C rec f')
  validate : ∀ {v w : Val}, PR R f.kind v w → Run S R Eq (Lex.kindValidate I L f v) (Lex.kindValidate I L f' w)
  group : (∃ fs, f.kind = .group fs) ↔ ∃ fs, f'.kind = .group fs

theorem Node.name {f f' : Field} (h : Node S R L C rec f f') : f'.name = f.name := by
  unfold Field.name; rw [h.core]

theorem Run.munge {f f' : Field} (h : Node S R L C rec f f') {v w : Val} (hv : PR R f.kind v w) :
    Run S R (PR R f.kind) (T.ofExcept (fieldMunge f v) : T P Val) (T.ofExcept (fieldMunge f' w)) := by
  obtain ⟨h1, h2⟩ := hv
  have e : w = v.mv R.g := h1
  subst e
  unfold fieldMunge
  rw [h.core, hashable_mv]
  split
  · exact .pure ⟨rfl, h2⟩
  · split
    · exact .raise' _
    · rename_i hh
      have hf : Free v := free_of_hashable (by simpa using hh)
      rw [mv_free hf]
      refine Run.pure (FV.pr ⟨rfl, ?_⟩)
      cases hg : dictGet? f.core.translations v with
      | none => exact hf
      | some x =>
        obtain ⟨p, hp, rfl⟩ := dictGet_mem hg
        exact h.translations p hp

theorem Run.fieldCheck (hL : FormlessLib L) {f f' : Field} (h : Node S R L C rec f f') {v w : Val} (hv : PR R f.kind v w) :
    Run S R (VR R) (Lex.fieldCheck I L C rec f v) (Lex.fieldCheck I L C rec f' w) := by
  have hd : Run S R (VR R) (Lex.fieldDefault I L C rec f) (Lex.fieldDefault I L C rec f') :=
    (Run.fieldDefault hL h.free h.default h.core).mono fun _ _ h => h.vr
  unfold Lex.fieldCheck
  rw [h.free.mungeStep, h.free'.mungeStep]
  refine .bind (.munge h hv) fun v w hv => ?_
  have e : w = v.mv R.g := hv.1
  subst e
  rw [isNONE_mv, isIgnore_mv]
  refine .ite Iff.rfl (fun _ => hd) fun _ => .ite Iff.rfl (fun _ => .pure rfl) fun _ => ?_
  rw [h.free.filterStep, h.free'.filterStep]
  refine .bindEq (.pure ?_) fun keep => .ite Iff.rfl (fun _ => hd) fun _ => ?_
  · unfold fieldFilter; rw [h.core, inList_mv R.inj v h.ignores]
  · rw [h.free.validateStep, h.free'.validateStep]
    refine .bindEq (h.validate hv) fun ok => .pure ?_
    cases ok <;> rfl

theorem Run.fieldCompute {f f' : Field} (h : Node S R L C rec f f') :
    Run S R (PR R f.kind) (Lex.fieldCompute I L C rec f) (Lex.fieldCompute I L C rec f') := by
  unfold Lex.fieldCompute
  rw [h.free.fieldParse, h.free'.fieldParse]
  refine .bindEq .exists_ fun _ => .ite Iff.rfl (fun _ => .pure (FV.pr ⟨rfl, .const _⟩)) fun _ => .bindEq .isNull fun _ =>
    .ite Iff.rfl (fun _ => .pure (FV.pr ⟨rfl, .none⟩)) fun _ => .tryCatch h.parse fun e e' he => ?_
  obtain ⟨h1, h2, h3⟩ := Twin.bare_str he
  rw [h1, h2, h3]
  exact .ite Iff.rfl (fun _ => (Run.failWith _).mono fun _ _ h => h.pr) fun _ => .raise he

theorem Run.fieldStart (hL : FormlessLib L) {f f' : Field} (h : Node S R L C rec f f') :
    Run S R (VR R) (Lex.fieldStart I L C rec f) (Lex.fieldStart I L C rec f') := by
  rw [h.free.fieldStart, h.free'.fieldStart]
  refine .bind (.fieldCompute h) fun v w hv => ?_
  have e : w = v.mv R.g := hv.1
  subst e
  rw [isNONE_mv, isIgnore_mv]
  exact .ite Iff.rfl (fun _ => (Run.fieldDefault hL h.free h.default h.core).mono fun _ _ h => h.vr) fun _ =>
    .ite Iff.rfl (fun _ => .pure rfl) fun _ => .fieldCheck hL h hv

theorem Run.withResolve {f f' : Field} (h : Node S R L C rec f f') {t u : T P Val} (ht : Run S R (VR R) t u) :
    Run S R (VR R) (Lex.withResolve I L C rec f t) (Lex.withResolve I L C rec f' u) := by
  have e : ∀ {f : Field} (t : T P Val), HookFree f → Lex.withResolve I L C rec f t =
      match f.kind with
      | .group _ => t
      | _ => if noSrc f.core.src then t else T.withKey I f.core.src t := by
    intro f t hf; unfold Lex.withResolve; rw [hf.resolve]; rfl
  rw [e t h.free, e u h.free']
  by_cases hg : ∃ fs, f.kind = .group fs
  · obtain ⟨fs', hg'⟩ := h.group.1 hg
    obtain ⟨fs, hg⟩ := hg
    rw [hg, hg']
    exact ht
  · have hg' : ¬∃ fs, f'.kind = .group fs := fun h' => hg (h.group.2 h')
    have e' : ∀ {f : Field} (t : T P Val), (¬∃ fs, f.kind = .group fs) → (match f.kind with
      | .group _ => t
      | _ => if noSrc f.core.src then t else T.withKey I f.core.src t) = if noSrc f.core.src then t else T.withKey I f.core.src t := by
      intro f t hf
      cases hk : f.kind with
      | group fs => exact absurd ⟨fs, hk⟩ hf
      | _ => rfl
    rw [e' t hg, e' u hg', h.core]
    exact .ite Iff.rfl (fun _ => ht) fun _ => .withKey _ ht

theorem Run.setParent (v : Val) : Run S R Eq (Lex.setParent v : T P Unit) (Lex.setParent (v.mv R.g)) := by
  unfold Lex.setParent
  refine .bind (.ctxGet? (ra := fun a b => b = a.map (mvParent R.g)) fun env env' h => h.parent) fun a b h => ?_
  have h : b = a.map (mvParent R.g) := h
  subst h
  cases v <;> first
    | exact .raise' _
    | exact .pure rfl
    | exact .formParent _ _

theorem Run.mapFieldF (hL : FormlessLib L) {f f' : Field} (h : Node S R L C rec f f') {v : Val} (hv : Free v) :
    Run S R (VR R) (Lex.mapFieldF I L C rec f v) (Lex.mapFieldF I L C rec f' v) := by
  unfold Lex.mapFieldF Lex.fieldMapInner
  rw [h.name, h.core]
  refine .bindV (.withEnv (w := fun env => { env with field := some f.name, parent := some .field })
    (w' := fun env => { env with field := some f.name, parent := some .field })
    (fun env env' h => ⟨h.src, h.form, rfl, rfl, h.tags, h.ignoreDefault, h.ignoreMissing, h.inForm⟩)
    (.ite Iff.rfl (fun _ => .withResolve h (.fieldStart hL h)) fun _ => .fieldCheck hL h (FV.pr ⟨rfl, hv⟩))) fun w => ?_
  dsimp only
  rw [isIgnore_mv]
  exact .ite Iff.rfl (fun _ => .bindEq (.setParent w) fun _ => .pure rfl) fun _ => .pure rfl

theorem unmappedField_hookFree (id : Nat) (kf vf : Field) : HookFree (unmappedField id kf vf) := by
  refine ⟨.inl rfl, rfl, rfl, rfl, rfl, rfl, rfl, ?_⟩
  intro kf vf h r m e
  cases e
  exact ⟨id, rfl⟩

/-- Mapping a field. -/
theorem mapField (hL : FormlessLib L) (hC : C.All Decent) (hN : Named C) (n : Nat) : RecR S R (Lex.mapField I L C n) := by
  induction n with
  | zero => exact fun f f' v _ _ => .raise' _
  | succ n ih =>
    intro f f' v hf hv
    refine .mapFieldF hL ?_ hv
    cases hf with
    | same h =>
      exact ⟨rfl, h.node.free, h.node.free, h.node.default, h.node.translations, h.node.ignores, .kindParse hL hC hN ih h,
        fun hv => .kindValidate h.node.required hv, Iff.rfl⟩
    | @rest id kf vf hid hk hv =>
      have hd : ∀ v, (unmappedField id kf vf).core.default = .value v → Free v := by intro v h; cases h
      refine ⟨rfl, unmappedField_hookFree _ _ _, unmappedField_hookFree _ _ _, hd, ?_, ?_, ?_, ?_, ?_⟩
      · intro p h; cases h
      · intro p h; cases h
      · refine Run.mono (ra := VR R) ?_ fun _ _ h => ⟨h, fun h' => h'.elim⟩
        exact .dictParse hL ih (unmappedField_hookFree _ _ _) hd rfl hk hv (.rest hid)
      · intro v w hv
        exact Run.kindValidate (f := unmappedField id kf vf) (by intro kf vf kfl ks m h; cases h) hv
      · constructor
        · rintro ⟨_, h⟩; cases h
        · rintro ⟨_, h⟩; cases h

end Move
end Pilo
