import Verif.Fits

/-!
# Every run leaves only fitting values in the forms

One lemma per definition of `Verif.Eval`.
-/

namespace Pilo

/-! ## User code that leaves the contents of forms to `pilo` -/

/-- The code does not assign items of forms and does not capture unmapped values. -/
def Prog.HandsOff : Prog → Prop
  | .setItem _ _ _ => False
  | .bind p k => p.HandsOff ∧ ∀ v, (k v).HandsOff
  | .tryCatch p h => p.HandsOff ∧ ∀ e, (h e).HandsOff
  | .withVars _ p => p.HandsOff
  | .withKey _ p => p.HandsOff
  | .withData _ p => p.HandsOff
  | .withErrors _ p => p.HandsOff
  | .withReset p => p.HandsOff
  | .mapForm _ _ _ _ u _ => u ≠ .capture
  | _ => True

/-- Unmapped values are not captured. -/
def Unmapped.HandsOff : Unmapped → Prop
  | .str u => u ≠ .capture
  | _ => False

/-- The hooks of the field are such code; its sub forms do not capture; the type field of a polymorphic field is a
field of its probe. -/
structure HandsOff (C : Classes) (f : Field) : Prop where
  default : ∀ h, f.core.default = .hook h → ∀ t, (h.body t).HandsOff
  callable : ∀ p, f.core.default = .callable p → p.HandsOff
  key : ∀ h, f.core.resolve = some (.key h) → ∀ t, (h.body t).HandsOff
  data : ∀ h, f.core.resolve = some (.data h) → ∀ t, (h.body t).HandsOff
  compute : ∀ h, f.core.compute = some h → ∀ t, (h.body t).HandsOff
  parse : ∀ h, f.core.parse = some h → ∀ t, (h.body t).HandsOff
  munge : ∀ h, f.core.munge = some h → ∀ t v, (h.body t v).HandsOff
  filter : ∀ h, f.core.filter = some h → ∀ t v, (h.body t v).HandsOff
  validate : ∀ h, f.core.validate = some h → ∀ t v, (h.body t v).HandsOff
  keyFilter : ∀ kf vf h r m, f.kind = .dict kf vf (some h) r m → ∀ t v, (h.body t v).HandsOff
  subform : ∀ cls r u, f.kind = .subform cls r u → u.HandsOff
  poly : ∀ tf pc ts r u, f.kind = .poly tf pc ts r u → u.HandsOff ∧ tf ∈ (C pc).fields ∧ tf.name ≠ none

section
variable {P : Type} {α β : Type} {I : PathOps P} {L : Lib} {C : Classes} {K : P → Prop} {s : St P}

/-! ## Forms -/

theorem Forms.Fit.modify {forms : List FormObj} (h : Forms.Fit L C forms) {id : Nat} {g : FormObj → FormObj}
    (hc : ∀ o, (g o).cls = o.cls)
    (hi : ∀ o, forms[id]? = some o → ∀ n v, dictGet? (g o).items (.str n) = some v → dictGet? o.items (.str n) = some v ∨
      ((∃ g ∈ (C o.cls).fields, g.name = some n) → ∃ g ∈ (C o.cls).fields, g.name = some n ∧ Fits L forms g v)) :
    Forms.Fit L C (forms.modify id g) ∧ Grows forms (forms.modify id g) := by
  have hg : Grows forms (forms.modify id g) := by
    intro i o ho
    rw [List.getElem?_modify, ho]
    by_cases e : id = i
    · simp [e, hc]
    · simp [e]
  refine ⟨fun i o' ho' n v hv hn => ?_, hg⟩
  rw [List.getElem?_modify] at ho'
  cases ho : forms[i]? with
  | none => rw [ho] at ho'; cases ho'
  | some o =>
    rw [ho] at ho'
    have old : o'.cls = o.cls → dictGet? o.items (.str n) = some v →
        ∃ x ∈ (C o'.cls).fields, x.name = some n ∧ Fits L (forms.modify id g) x v := by
      intro hcls hv
      rw [hcls] at hn ⊢
      obtain ⟨x, hx, hn, hf⟩ := h i o ho n v hv hn
      exact ⟨x, hx, hn, hf.grow hg⟩
    by_cases e : id = i
    · subst e
      simp at ho'
      subst ho'
      rcases hi o ho n v hv with h' | h'
      · exact old (hc o) h'
      · rw [hc] at hn ⊢
        obtain ⟨x, hx, hn, hf⟩ := h' hn
        exact ⟨x, hx, hn, hf.grow hg⟩
    · simp [e] at ho'
      subst ho'
      exact old rfl hv

theorem Good.modify {id : Nat} {g : FormObj → FormObj} (hc : ∀ o, (g o).cls = o.cls)
    (hi : ∀ o, s.forms[id]? = some o → ∀ n v, dictGet? (g o).items (.str n) = some v → dictGet? o.items (.str n) = some v ∨
      ((∃ g ∈ (C o.cls).fields, g.name = some n) → ∃ g ∈ (C o.cls).fields, g.name = some n ∧ Fits L s.forms g v)) :
    Good L C K s (M.modify fun s => { s with forms := s.forms.modify id g }) fun _ _ => True := fun hs =>
  have ⟨h1, h2⟩ := hs.forms.modify hc hi
  ⟨⟨h1, hs.paths⟩, h2, fun _ _ => trivial⟩

/-- The form has a class with this field. -/
def HasField (C : Classes) (forms : List FormObj) (id : Nat) (f : Field) : Prop :=
  ∃ o, forms[id]? = some o ∧ f ∈ (C o.cls).fields

theorem HasField.grow {a b : List FormObj} {id : Nat} {f : Field} (h : HasField C a id f) (hg : Grows a b) :
    HasField C b id f := by
  obtain ⟨o, ho, hf⟩ := h
  obtain ⟨o', ho', e⟩ := hg id o ho
  exact ⟨o', ho', e ▸ hf⟩

theorem Good.formSet {id : Nat} {f : Field} {v : Val} (hd : HasField C s.forms id f) (hv : Fits L s.forms f v) :
    Good L C K s (formSet id f.key v : M P Unit) fun _ _ => True := by
  refine Good.modify (fun _ => rfl) fun o ho n w hw => ?_
  dsimp only at hw
  rw [dictGet?_set] at hw
  split at hw
  · rename_i hk
    right
    intro _
    cases hw
    refine ⟨f, by obtain ⟨o', ho', h⟩ := hd; rw [ho] at ho'; cases ho'; exact h, ?_, hv⟩
    unfold Field.key at hk
    cases hname : f.name with
    | none => rw [hname] at hk; unfold Val.pyEq at hk; cases hk
    | some m =>
      rw [hname] at hk
      have := pyEq_str_left.1 hk
      cases this
      rfl
  · exact .inl hw

theorem Good.formDel {id : Nat} {k : Val} : Good L C K s (formDel id k : M P Unit) fun _ _ => True := by
  refine Good.modify (fun _ => rfl) fun o ho n w hw => ?_
  dsimp only at hw
  rw [dictGet?_del] at hw
  split at hw
  · cases hw
  · exact .inl hw

theorem Good.newForm (cls : Nat) : Good L C K s (newForm cls : M P Nat) fun fs id =>
    ∃ o, fs[id]? = some o ∧ o.cls = cls := by
  intro hs
  have hg : Grows s.forms (s.forms ++ [{ cls := cls, items := [] }]) := fun i o ho =>
    ⟨o, by rw [List.getElem?_append_left (List.getElem?_eq_some_iff.1 ho).1]; exact ho, rfl⟩
  refine ⟨⟨fun i o ho n v hv hn => ?_, hs.paths⟩, hg, fun a ha => ?_⟩
  · rcases Nat.lt_or_ge i s.forms.length with hl | hl
    · have ho' : s.forms[i]? = some o := by
        rw [← List.getElem?_append_left (l₂ := [{ cls := cls, items := [] }]) hl]; exact ho
      obtain ⟨x, hx, hn, hf⟩ := hs.forms i o ho' n v hv hn
      exact ⟨x, hx, hn, hf.grow hg⟩
    · have ho' : (s.forms ++ [{ cls := cls, items := [] }])[i]? = some o := ho
      rw [List.getElem?_append_right hl] at ho'
      cases hi : i - s.forms.length with
      | zero => rw [hi] at ho'; cases ho'; cases hv
      | succ k => rw [hi] at ho'; cases ho'
  · cases ha
    exact ⟨{ cls := cls, items := [] }, by simp [Pilo.newForm], rfl⟩

/-! ## What goes into the checks -/

/-- What parsing gives, by class. -/
def Shape (L : Lib) (forms : List FormObj) (k : Kind) (v : Val) : Prop :=
  match k with
  | .list g _ _ _ => ∃ xs, v = .list xs ∧ ∀ x ∈ xs, Fits L forms g x
  | .tuple fs => ∃ (gs : List Field) (xs : List Val), v = .tuple xs ∧ gs.Sublist fs ∧ gs.length = xs.length ∧
      ∀ (i : Nat) g x, gs[i]? = some g → xs[i]? = some x → Fits L forms g x
  | .dict kf vf _ _ _ => ∃ kvs, v = .dict kvs ∧ (∀ p ∈ kvs, Defaults L kf p.1 ∨ kf.Meets p.1) ∧
      ∀ p ∈ kvs, Fits L forms vf p.2
  | .subform cls _ _ => ∃ id o, v = .form id ∧ forms[id]? = some o ∧ o.cls = cls
  | .poly _ _ ts _ _ => ∃ id o, v = .form id ∧ forms[id]? = some o ∧ o.cls ∈ ts.map Prod.snd
  | .group gs => ∃ ts : List (Val × Val × Val × Field), v = .list (ts.map fun t => .tuple [t.1, t.2.1, t.2.2.1]) ∧
      (∀ t ∈ ts, ∃ src, (src, t.2.2.2) ∈ gs) ∧ ∀ t ∈ ts, Fits L forms t.2.2.2 t.2.2.1
  | k => k.OfType v

theorem Shape.fits {forms : List FormObj} {f : Field} {v : Val} (h : Shape L forms f.kind v) (m : f.Meets v) :
    Fits L forms f v := by
  cases hk : f.kind <;> rw [hk] at h
  case list => obtain ⟨xs, rfl, hx⟩ := h; exact .list hk hx m
  case tuple => obtain ⟨gs, xs, rfl, hs, hl, hx⟩ := h; exact .tuple hk hs hl hx m
  case dict => obtain ⟨kvs, rfl, h1, h2⟩ := h; exact .dict hk h1 h2 m
  case subform => obtain ⟨id, o, rfl, h1, h2⟩ := h; exact .form hk h1 h2 m
  case poly => obtain ⟨id, o, rfl, h1, h2⟩ := h; exact .poly hk h1 h2 m
  case group => obtain ⟨ts, rfl, h1, h2⟩ := h; exact .group hk h1 h2 m
  all_goals exact .leaf (by rw [hk]; exact h) m

theorem Shape.grow {a b : List FormObj} (hg : Grows a b) {k : Kind} {v : Val} (h : Shape L a k v) : Shape L b k v := by
  cases k
  case list => obtain ⟨xs, rfl, hx⟩ := h; exact ⟨xs, rfl, fun x h => (hx x h).grow hg⟩
  case tuple =>
    obtain ⟨gs, xs, rfl, hs, hl, hx⟩ := h
    exact ⟨gs, xs, rfl, hs, hl, fun i g x h1 h2 => (hx i g x h1 h2).grow hg⟩
  case dict => obtain ⟨kvs, rfl, h1, h2⟩ := h; exact ⟨kvs, rfl, h1, fun p h => (h2 p h).grow hg⟩
  case subform =>
    obtain ⟨id, o, rfl, h1, h2⟩ := h
    obtain ⟨o', h', e⟩ := hg _ _ h1
    exact ⟨id, o', rfl, h', e.trans h2⟩
  case poly =>
    obtain ⟨id, o, rfl, h1, h2⟩ := h
    obtain ⟨o', h', e⟩ := hg _ _ h1
    exact ⟨id, o', rfl, h', e ▸ h2⟩
  case group => obtain ⟨ts, rfl, h1, h2⟩ := h; exact ⟨ts, rfl, h1, fun t h => (h2 t h).grow hg⟩
  all_goals exact h

/-- What the first step of `_map` gives. -/
def Raw (L : Lib) (forms : List FormObj) (f : Field) (v : Val) : Prop :=
  v.isIgnore = true ∨ v = .none ∨ f.Custom ∨ Defaults L f v ∨ Shape L forms f.kind v

/-- What mapping a field with the argument `v` gives. -/
def Ends (L : Lib) (forms : List FormObj) (f : Field) (v w : Val) : Prop :=
  w.isIgnore = true ∨ (Defaults L f w ∨ f.Meets w) ∧ (v.isNONE = true → Fits L forms f w)

theorem Ends.fits {forms : List FormObj} {f : Field} {w : Val} (h : Ends L forms f .NONE w) (hw : ¬ w.isIgnore = true) :
    Fits L forms f w := (h.resolve_left hw).2 rfl

/-- The recursive call. -/
def RecGood (L : Lib) (C : Classes) (K : P → Prop) (rec : Rec P) : Prop :=
  ∀ f : Field, f.All (HandsOff C) → ∀ v s, Good L C K s (rec f v) fun fs w => Ends L fs f v w

/-! ## Validation -/

theorem Good.reject {A : Prop} (msg : String) : Good L C K s (rejectWith I msg) fun _ b => b = true → A :=
  Good.bind (Aside.report _).good' fun _ _ _ _ => Good.pure fun h => by cases h

theorem badChars_alphabet {c : StrCfg} {x : String} (h : badChars c (.str x) = .ok []) :
    c.alphabet ≠ [] → ∀ ch ∈ x.toList, String.ofList [ch] ∈ c.alphabet := by
  obtain ⟨cs, hb, hcs⟩ := badChars_str c x
  rw [hb] at h
  injection h with h
  exact hcs.1 (List.map_eq_nil_iff.1 h)

theorem Good.stringValidate {f : Field} {c : StrCfg} {v : Val} :
    Good L C K s (stringValidate I L f c v) fun _ b => b = true → ∀ x, v = .str x →
      StringOK (c.widen f.core.translations) x := by
  unfold Pilo.stringValidate
  refine Good.bind (Q := fun _ bad => badChars c v = .ok bad) (Good.ofExcept fun _ h => h) fun bad s1 _ hbad => ?_
  split
  · exact Good.bind (Good.ofExcept (Q := fun _ _ => True) fun _ _ => trivial) fun _ _ _ _ => Good.reject _
  rename_i hb
  refine Good.bind (Q := fun _ b => lenBad c.minLength (fun n b => decide (n < b)) v = .ok b)
    (Good.ofExcept fun _ h => h) fun short s2 _ hshort => ?_
  split
  · exact Good.reject _
  rename_i hs
  refine Good.bind (Q := fun _ b => lenBad c.maxLength (fun n b => decide (b < n)) v = .ok b)
    (Good.ofExcept fun _ h => h) fun long s3 _ hlong => ?_
  split
  · exact Good.reject _
  rename_i hl
  refine Good.bind (Q := fun _ b => patternOk c v = .ok b) (Good.ofExcept fun _ h => h) fun pat s4 _ hpat => ?_
  split
  · exact Good.reject _
  rename_i hp
  split
  · split <;> exact Good.reject _
  rename_i hch
  refine Good.pure fun _ x hx => ?_
  subst hx
  have e1 : bad = [] := by cases bad with | nil => rfl | cons a as => simp at hb
  subst e1
  rw [Bool.not_eq_true] at hs hl
  subst hs hl
  have e4 : pat = true := by cases pat with | true => rfl | false => simp at hp
  subst e4
  refine ⟨badChars_alphabet hbad, fun n hn => ?_, fun n hn => ?_, fun m t hm => ?_, fun hc => ?_⟩
  · have hn' : c.minLength = some n := hn
    unfold lenBad at hshort
    rw [hn'] at hshort
    simp only [pyLen, Except.ok.injEq, decide_eq_false_iff_not, Nat.not_lt] at hshort
    exact hshort
  · have hn' : c.maxLength = some n := hn
    unfold lenBad at hlong
    rw [hn'] at hlong
    simp only [pyLen, Except.ok.injEq, decide_eq_false_iff_not, Nat.not_lt] at hlong
    exact hlong
  · have hm' : c.pattern = some (m, t) := hm
    unfold patternOk at hpat
    rw [hm'] at hpat
    injection hpat
  · unfold StrCfg.widen at hc ⊢
    dsimp only at hc ⊢
    have hne : c.choices ≠ [] := by intro h; rw [if_pos h] at hc; exact hc rfl
    rw [if_neg hne]
    have h1 : (!c.choices.isEmpty) = true := by cases h : c.choices with | nil => exact absurd h hne | cons _ _ => rfl
    rw [h1, Bool.true_and] at hch
    refine (str_inList x _).1 ?_
    cases h : (Val.str x).inList (c.choices ++ f.core.translations.map Prod.snd) with
    | true => rfl
    | false => rw [h] at hch; exact absurd rfl hch

theorem Good.rangeValidate {lo hi : Option Val} {a b : Val → Val → String} {v : Val} :
    Good L C K s (rangeValidate I L lo hi a b v) fun _ r => r = true →
      (∀ l, lo = some l → pyLt L v l = .ok false) ∧ (∀ h, hi = some h → pyLt L h v = .ok false) := by
  unfold Pilo.rangeValidate
  refine Good.bind (Q := fun _ r => boundBad (fun v b => pyLt L v b) lo v = .ok r) (Good.ofExcept fun _ h => h)
    fun low s1 _ hlow => ?_
  split
  · exact Good.reject _
  rename_i h1
  refine Good.bind (Q := fun _ r => boundBad (fun v b => pyLt L b v) hi v = .ok r) (Good.ofExcept fun _ h => h)
    fun high s2 _ hhigh => ?_
  split
  · exact Good.reject _
  rename_i h2
  rw [Bool.not_eq_true] at h1 h2
  subst h1 h2
  refine Good.pure fun _ => ⟨fun l hl => ?_, fun h hh => ?_⟩
  · subst hl; exact hlow
  · subst hh; exact hhigh

theorem pyLt_le {v w : Val} {x y : Num} (h : pyLt L v w = .ok false) (hv : v.num? = some x) (hw : w.num? = some y)
    (hx : x ≠ .nan) (hy : y ≠ .nan) : y.Le x := by
  rw [pyLt_num hv hw hx hy] at h
  injection h with h
  exact (Num.not_lt hx hy).1 h

theorem Good.numberValidate {c : NumCfg} {v : Val} :
    Good L C K s (numberValidate I L c v) fun _ r => r = true → c.Admits v := by
  refine Good.weaken Good.rangeValidate fun _ r h hr x hx hn => ?_
  obtain ⟨h1, h2⟩ := h hr
  exact ⟨fun lo y hl hy hy' => pyLt_le (h1 lo hl) hx hy hn hy', fun hi y hh hy hy' => pyLt_le (h2 hi hh) hy hx hy' hn⟩

theorem Good.dateValidate {c : DateCfg} {v : Val} :
    Good L C K s (dateValidate I L c v) fun _ r => r = true → c.Admits v := by
  refine Good.weaken Good.rangeValidate fun _ r h hr t d hv => ?_
  subst hv
  obtain ⟨h1, h2⟩ := h hr
  refine ⟨fun a ha => ?_, fun b hb => ?_⟩
  · have := h1 _ ha
    simp [pyLt] at this
    exact this
  · have := h2 _ hb
    simp [pyLt] at this
    exact this

theorem Good.listValidate {lo hi : Option Nat} {v : Val} :
    Good L C K s (listValidate I lo hi v) fun _ r => r = true → ∀ xs, v = .list xs →
      (∀ n, lo = some n → n ≤ xs.length) ∧ (∀ n, hi = some n → xs.length ≤ n) := by
  unfold Pilo.listValidate
  refine Good.bind (Q := fun _ b => lenBad lo (fun n b => decide (n < b)) v = .ok b)
    (Good.ofExcept fun _ h => h) fun short s2 _ hshort => ?_
  split
  · exact Good.reject _
  rename_i hs
  refine Good.bind (Q := fun _ b => lenBad hi (fun n b => decide (b < n)) v = .ok b)
    (Good.ofExcept fun _ h => h) fun long s3 _ hlong => ?_
  split
  · exact Good.reject _
  rename_i hl
  rw [Bool.not_eq_true] at hs hl
  subst hs hl
  refine Good.pure fun _ xs hx => ?_
  subst hx
  refine ⟨fun n hn => ?_, fun n hn => ?_⟩
  · subst hn
    unfold lenBad at hshort
    simp only [pyLen, Except.ok.injEq, decide_eq_false_iff_not, Nat.not_lt] at hshort
    exact hshort
  · subst hn
    unfold lenBad at hlong
    simp only [pyLen, Except.ok.injEq, decide_eq_false_iff_not, Nat.not_lt] at hlong
    exact hlong

theorem Good.dictValidate {req : Required} {mx : Option Nat} {v : Val} :
    Good L C K s (dictValidate I L req mx v) fun _ r => r = true → ∀ kvs, v = .dict kvs →
      (∀ ks, req = .set ks → ∀ k ∈ ks, ∃ p ∈ kvs, k.pyEq p.1 = true) ∧
      (∀ n, mx = some n → n ≠ 0 → kvs.length ≤ n) := by
  unfold Pilo.dictValidate
  refine Good.bind (Q := fun _ ms => missingKeys req v = .ok ms) (Good.ofExcept fun _ h => h) fun miss s1 _ hmiss => ?_
  split
  · split
    · exact Good.reject _
    · exact Good.raise
  rename_i hm
  have e : miss = [] := by cases miss with | nil => rfl | cons a as => simp at hm
  subst e
  have keys : ∀ kvs, v = .dict kvs → ∀ ks, req = .set ks → ∀ k ∈ ks, ∃ p ∈ kvs, k.pyEq p.1 = true := by
    intro kvs hv ks hr k hk
    subst hv hr
    cases ks with
    | nil => cases hk
    | cons a as =>
      unfold missingKeys at hmiss
      simp only [keysOf] at hmiss
      injection hmiss with hmiss
      have := (List.filter_eq_nil_iff.1 hmiss) k hk
      simp only [Bool.not_eq_true', Bool.not_eq_false] at this
      unfold Val.inList at this
      obtain ⟨y, hy, he⟩ := List.any_eq_true.1 this
      obtain ⟨p, hp, rfl⟩ := List.mem_map.1 hy
      exact ⟨p, hp, he⟩
  split
  · exact Good.pure fun _ kvs hv => ⟨keys kvs hv, fun n hn => by cases hn⟩
  · exact Good.pure fun _ kvs hv => ⟨keys kvs hv, fun n hn h0 => by cases hn; exact absurd rfl h0⟩
  · rename_i m _
    refine Good.bind (Q := fun _ n => pyLen v = .ok n) (Good.ofExcept fun _ h => h) fun n s2 _ hn => ?_
    split
    · exact Good.reject _
    · rename_i hle
      refine Good.pure fun _ kvs hv => ⟨keys kvs hv, fun n' hn' _ => ?_⟩
      subst hv
      cases hn'
      injection hn with hn
      omega

theorem Good.kindValidate {f : Field} {v : Val} :
    Good L C K s (kindValidate I L f v) fun _ r => r = true → (v = .none → f.core.nullable.truthy = true) ∧
      f.kind.Admits f.core.translations v := by
  unfold Pilo.kindValidate
  refine Good.bind (Q := fun _ r => r = true → (v = .none → f.core.nullable.truthy = true)) ?_ fun ok s1 _ hok => ?_
  · unfold baseValidate
    split
    · exact Good.reject _
    · rename_i h
      refine Good.pure fun _ hv => ?_
      subst hv
      simpa [Val.isNull] using h
  · split
    · exact Good.pure fun h => by cases h
    rename_i h
    have hok' := hok (by simpa using h)
    split
    · rename_i hn
      refine Good.pure fun _ => ⟨hok', ?_⟩
      have : v = .none := by cases v <;> first | rfl | cases hn
      subst this
      unfold Kind.Admits
      cases f.kind <;> first | trivial | (intro _ _ h; exact Val.noConfusion h) | (intro _ h; cases h)
    · cases f.kind
      case string c => exact Good.stringValidate.weaken fun _ r h hr => ⟨hok', h hr⟩
      case integer c => exact Good.numberValidate.weaken fun _ r h hr => ⟨hok', h hr⟩
      case float c => exact Good.numberValidate.weaken fun _ r h hr => ⟨hok', h hr⟩
      case decimal c => exact Good.numberValidate.weaken fun _ r h hr => ⟨hok', h hr⟩
      case date c => exact Good.dateValidate.weaken fun _ r h hr => ⟨hok', h hr⟩
      case time c => exact Good.dateValidate.weaken fun _ r h hr => ⟨hok', h hr⟩
      case datetime c => exact Good.dateValidate.weaken fun _ r h hr => ⟨hok', h hr⟩
      case list => exact Good.listValidate.weaken fun _ r h hr => ⟨hok', h hr⟩
      case dict => exact Good.dictValidate.weaken fun _ r h hr => ⟨hok', h hr⟩
      all_goals exact Good.pure fun _ => ⟨hok', trivial⟩

/-! ## Mapping a form -/

variable {rec : Rec P}

theorem Good.formReset {id : Nat} {tags : List String} : ∀ {fs : List Field} {s : St P},
    Good L C K s (formReset id tags fs : M P Unit) fun _ _ => True := by
  intro fs
  induction fs with
  | nil => intro s; exact Good.pure trivial
  | cons f fs ih =>
    intro s
    unfold Pilo.formReset
    refine Good.bind (Q := fun _ _ => True) ?_ fun _ s' _ _ => ih
    split
    · exact Good.formDel
    · exact Good.pure trivial

theorem Good.formCls (id : Nat) : Good L C K s (formCls id : M P Nat) fun fs cls =>
    ∃ o, fs[id]? = some o ∧ o.cls = cls := by
  refine (Aside.formCls id).good fun a h => ?_
  unfold Pilo.formCls at h
  cases ho : s.forms[id]? with
  | none => rw [ho] at h; cases h
  | some o =>
    rw [ho] at h
    cases h
    exact ⟨o, rfl, rfl⟩

theorem Good.mapFields (hr : RecGood L C K rec) {id : Nat} {tags : List String} : ∀ {fs : List Field} {s : St P},
    (∀ f ∈ fs, f.All (HandsOff C) ∧ HasField C s.forms id f) →
    Good L C K s (mapFields rec id tags fs) fun _ _ => True := by
  intro fs
  induction fs with
  | nil => intro s _; exact Good.pure trivial
  | cons f fs ih =>
    intro s h
    obtain ⟨hq, hd⟩ := h f (.head _)
    unfold Pilo.mapFields
    refine Good.bind (Q := fun _ _ => True) ?_ fun _ s' hg _ => ih fun g hg' =>
      ⟨(h g (.tail _ hg')).1, (h g (.tail _ hg')).2.grow hg⟩
    unfold mapOne
    split
    · refine Good.bind (hr f hq .NONE s) fun v s' hg hv => ?_
      split
      · exact Good.pure trivial
      · rename_i hi
        exact Good.formSet (hd.grow hg) (hv.fits hi)
    · exact Good.pure trivial

theorem Good.applyUnmapped {id : Nat} {u : Unmapped} (hu : u.HandsOff) :
    Good L C K s (applyUnmapped rec id u) fun _ _ => True := by
  unfold Pilo.applyUnmapped
  cases u with
  | str u => cases u <;> first | exact Good.pure trivial | exact Good.raise | exact absurd rfl hu
  | value => exact absurd hu fun h => h
  | pair => exact absurd hu fun h => h

variable (T : TypedPath I K)
include T

theorem Good.mapping : Good L C K s (readPath I.mapping) fun _ _ => True :=
  (Aside.onPath fun h => T.mapping h).good'

theorem Good.formMapBody (hr : RecGood L C K rec) (hC : C.All (HandsOff C)) {id : Nat} {tags : List String} {u : Unmapped}
    (hu : u.HandsOff) : Good L C K s (formMapBody I C rec id tags u) fun _ _ => True := by
  unfold Pilo.formMapBody
  refine Good.bind (Good.mapping T) fun _ s1 _ _ => Good.bind (Good.formCls id) fun cls s2 _ hcls => ?_
  obtain ⟨o, ho, rfl⟩ := hcls
  refine Good.bind (Q := fun _ _ => True) (Good.withPush T (Aside.pushVars _) fun s3 h3 => ?_) fun _ s4 _ _ =>
    Good.applyUnmapped hu
  exact Good.mapFields hr fun f hf => ⟨hC _ f hf, o, by rw [h3]; exact ho, hf⟩

/-- A source argument is of the right kind. -/
def SrcArg.Is (K : P → Prop) : SrcArg P → Prop
  | .source (.ok p) => K p
  | _ => True

theorem Good.rootSource {id : Nat} {src : SrcArg P} (hs : src.Is K) :
    Good L C K s (rootSource I C id src) fun _ mk => ∀ p, mk = .ok p → K p := by
  have nat : ∀ v al p, (Except.ok (I.native v al) : Except Exc P) = .ok p → K p := by
    intro v al p h; cases h; exact T.native
  unfold Pilo.rootSource
  split
  · exact Good.pure (nat _ _)
  · refine Good.pure fun p hp => ?_
    subst hp
    exact hs
  · exact Good.pure (nat _ _)
  · exact Good.bind (Good.formCls id) fun _ _ _ _ => Good.pure (nat _ _)
  · exact Good.bind (Good.formCls id) fun _ _ _ _ => Good.pure (nat _ _)
  · exact Good.raise

theorem Good.formMap (hr : RecGood L C K rec) (hC : C.All (HandsOff C)) {id : Nat} {src : SrcArg P} (hs : src.Is K)
    {tags : List String} {reset : Bool} {u : Unmapped} (hu : u.HandsOff) {raising : Bool} :
    Good L C K s (formMap I C rec id src tags reset u raising) fun _ _ => True := by
  have root : ∀ (src : SrcArg P) (tags : List String) (s : St P), src.Is K →
      Good L C K s (rootMap I C rec id src tags u raising) fun _ _ => True := by
    intro src tags s hs
    unfold Pilo.rootMap
    refine Good.bind (Good.rootSource T hs) fun mk s1 _ hmk => Good.bind (Aside.newErrs _).good' fun e s2 _ _ => ?_
    exact Good.bind (Good.withPush T (Aside.pushSource hmk _) fun _ _ => Good.formMapBody T hr hC hu) fun _ _ _ _ =>
      Good.pure trivial
  unfold Pilo.formMap
  refine Good.bind (Aside.ctxGet? _).good' fun tg s1 _ _ => Good.bind (Q := fun _ _ => True) ?_ fun _ s2 _ _ =>
    Good.bind (Aside.ctxGet _ _).good' fun cs s3 _ _ => Good.bind (Q := fun _ _ => True) ?_ fun e s4 _ _ => ?_
  · unfold formResetIf
    split
    · exact Good.bind (Good.formCls id) fun _ _ _ _ => Good.formReset
    · exact Good.pure trivial
  · unfold formMapAt
    split
    · split
      · unfold nestedMap
        refine Good.bind (Aside.newErrs _).good' fun e s4 _ _ => Good.bind (Good.withPush T (Aside.pushVars _) fun _ _ =>
          Good.formMapBody T hr hC hu) fun _ _ _ _ => Good.bind (Aside.ctxGet _ _).good' fun _ _ _ _ =>
            Good.bind (Aside.errItems _).good' fun _ _ _ _ => Good.bind (Aside.errExtend _ _).good' fun _ _ _ _ =>
              Good.pure trivial
      · exact root _ _ _ trivial
    · exact root _ _ _ hs
  · unfold formFinish
    split
    · refine Good.bind (Aside.errItems _).good' fun es _ _ _ => ?_
      split
      · exact Good.pure trivial
      · exact Good.raise
    · exact Good.pure trivial

/-! ## Attribute reads -/

/-- What reading an attribute gives: something that belongs in a field of that name. -/
def Reads? (L : Lib) (C : Classes) (forms : List FormObj) (id : Nat) (f : Field) (v : Val) : Prop :=
  v.isIgnore = true ∨ f.name = none ∨
    ∃ o, forms[id]? = some o ∧ ∃ g ∈ (C o.cls).fields, g.name = f.name ∧ Fits L forms g v

omit T in
theorem Good.getFinish {f : Field} {id : Nat} {v : Val} (hd : HasField C s.forms id f) (hv : Ends L s.forms f .NONE v) :
    Good L C K s (getFinish f id v) fun fs w => Reads? L C fs id f w := by
  unfold Pilo.getFinish
  split
  · exact Good.raise
  · rename_i hi
    refine Good.bind (Good.formSet hd (hv.fits hi)) fun _ s' hg _ => Good.pure ?_
    obtain ⟨o, ho, hf⟩ := hd.grow hg
    exact .inr (.inr ⟨o, ho, f, hf, rfl, (hv.fits hi).grow hg⟩)

theorem Good.fieldGet (hr : RecGood L C K rec) {f : Field} {id : Nat} (hq : f.All (HandsOff C))
    (hd : HasField C s.forms id f) : Good L C K s (Pilo.fieldGet I rec f id) fun fs w => Reads? L C fs id f w := by
  intro hs
  have nat : ∀ p, (Except.ok (I.native (.dict []) none) : Except Exc P) = .ok p → K p := by
    intro p h; cases h; exact T.native
  refine (?_ : Good L C K s (Pilo.fieldGet I rec f id) fun fs w => Reads? L C fs id f w) hs
  unfold Pilo.fieldGet
  refine Good.bind (Q := fun fs is => fs = s.forms ∧ (s.forms[id]?).elim [] FormObj.items = is)
    ((Aside.formItems id).good fun _ h => ⟨rfl, by cases h; rfl⟩) fun items s1 hg1 hi => ?_
  obtain ⟨hf1, hi⟩ := hi
  have hd1 := hd.grow hg1
  split
  · rename_i v hv
    refine Good.pure ?_
    cases hn : f.name with
    | none => exact .inr (.inl hn)
    | some n =>
      obtain ⟨o, ho, hf⟩ := hd
      rw [ho] at hi
      subst hi
      have hk : f.key = .str n := by unfold Field.key; rw [hn]
      rw [hk] at hv
      obtain ⟨g, hg, hgn, hfit⟩ := hs.forms id o ho n v hv ⟨f, hf, hn⟩
      exact .inr (.inr ⟨o, hf1 ▸ ho, g, hg, hgn.trans hn.symm, hf1 ▸ hfit⟩)
  · refine Good.bind (Aside.ctxGet? _).good' fun cf s2 hg2 _ => ?_
    cases cf with
    | none =>
      refine Good.bind (Aside.newErrs _).good' fun e s3 hg3 _ => Good.bind
        (Good.withPush T (Aside.pushSource nat _) fun _ _ => hr f hq .NONE _) fun v s4 hg4 hv =>
          Good.getFinish (((hd1.grow hg2).grow hg3).grow hg4) hv
    | some x =>
      refine Good.bind (Aside.ctxGet? _).good' fun par s3 hg3 _ => ?_
      have hd3 := (hd1.grow hg2).grow hg3
      split
      · exact Good.bind (hr f hq .NONE _) fun v s4 hg4 hv => Good.getFinish (hd3.grow hg4) hv
      · refine Good.tryCatch (Good.weaken (Q := fun fs w => HasField C fs id f ∧ Ends L fs f .NONE w) ?_ ?_) fun ex s4 hg4 => ?_
        · intro hs3
          obtain ⟨h1, h2, h3⟩ := (Good.withRewind (stop := isFormFrame id) T fun _ _ => hr f hq .NONE _) hs3
          exact ⟨h1, h2, fun a ha => ⟨hd3.grow h2, h3 a ha⟩⟩
        · intro fs w ⟨⟨o, ho, hf⟩, hw⟩
          rcases hw with h | h
          · exact .inl h
          · exact .inr (.inr ⟨o, ho, f, hf, rfl, h.2 rfl⟩)
        · split
          · exact Good.bind (Good.withPush T (Aside.pushSource nat _) fun _ _ => hr f hq .NONE _) fun v s5 hg5 hv =>
              Good.getFinish ((hd3.grow hg4).grow hg5) hv
          · exact Good.raise

theorem Good.formGetattr (hr : RecGood L C K rec) (hC : C.All (HandsOff C)) (id : Nat) (name : String) :
    Good L C K s (formGetattr I C rec id name) fun fs w => w.isIgnore = true ∨
      ∃ o, fs[id]? = some o ∧ ∃ g ∈ (C o.cls).fields, g.name = some name ∧ Fits L fs g w := by
  unfold Pilo.formGetattr
  refine Good.bind (Good.formCls id) fun cls s1 _ hcls => ?_
  obtain ⟨o, ho, rfl⟩ := hcls
  split
  · rename_i f hf
    have hmem := List.mem_of_find?_eq_some hf
    have hname : f.name = some name := by simpa using List.find?_some hf
    refine Good.weaken (Good.fieldGet T hr (hC _ f hmem) ⟨o, ho, hmem⟩) fun fs w h => ?_
    rcases h with h | h | h
    · exact .inl h
    · rw [hname] at h; cases h
    · rw [hname] at h; exact .inr h
  · exact Good.raise

/-! ## User code -/

omit T in
/-- Any reading of the current path. -/
theorem Good.onPath {α : Type} {f : P → Except Exc α × P} {Q : List FormObj → α → Prop} (h : ∀ {p}, K p → K (f p).2)
    (hq : ∀ p a, K p → (f p).1 = .ok a → Q s.forms a) : Good L C K s (readPath f) Q := by
  intro hs
  have ha : Aside (K := K) (readPath f) := Aside.onPath h
  refine ha.good (Q := Q) (fun a h => ?_) hs
  unfold readPath Pilo.onPath at h
  split at h
  · cases h
  · cases h
  · split at h
    · cases h
    · rename_i p hp
      exact hq p a (hs.paths p (List.mem_of_getElem? hp)) h

theorem Good.evalProg (hr : RecGood L C K rec) (hC : C.All (HandsOff C)) : ∀ {p : Prog} {s : St P}, p.HandsOff →
    Good L C K s (evalProg I L C rec p) fun _ _ => True := by
  have asF : ∀ (v : Val) (s : St P), Good L C K s (asForm v : M P Nat) fun _ _ => True := by
    intro v s
    unfold asForm
    split
    · exact Good.pure trivial
    · exact Good.raise
  have nat : ∀ d p, (Except.ok (I.native d none) : Except Exc P) = .ok p → K p := by
    intro d p h; cases h; exact T.native
  intro p
  induction p with
  | ret v => intro s _; exact Good.pure trivial
  | raise e => intro s _; exact Good.raise
  | bind p k ihp ihk => intro s h; exact Good.bind (ihp h.1) fun a s' _ _ => ihk a (h.2 a)
  | tryCatch p h ihp ihh => intro s hq; exact Good.tryCatch (ihp hq.1) fun e s' _ => ihh e (hq.2 e)
  | getattr obj name =>
    intro s _
    cases obj
    case form => exact (Good.formGetattr T hr hC _ name).any
    all_goals
      unfold Pilo.evalProg
      split
      · exact Good.pure trivial
      · exact Good.raise
  | ctxForm => intro s _; exact Good.bind (Aside.ctxGet _ _).good' fun _ _ _ _ => Good.pure trivial
  | setItem form k v => intro s h; exact h.elim
  | delItem form k =>
    intro s _
    refine Good.bind (asF _ _) fun id s1 _ _ => Good.bind (Aside.formItems id).good' fun items s2 _ _ => ?_
    split
    · exact Good.bind Good.formDel fun _ _ _ _ => Good.pure trivial
    · exact Good.raise
  | hasItem form k =>
    intro s _
    refine Good.bind (asF _ _) fun id s1 _ _ => Good.bind (Aside.formItems id).good' fun items s2 _ _ => ?_
    split
    · exact Good.pure trivial
    · exact Good.raise
  | invalid msg => intro s _; exact Good.bind (Aside.report _).good' fun _ _ _ _ => Good.pure trivial
  | missing => intro s _; exact Good.bind (Aside.report _).good' fun _ _ _ _ => Good.pure trivial
  | pathExists =>
    intro s _
    exact Good.bind (Aside.onPath fun h => T.exists_ h).good' fun _ _ _ _ => Good.pure trivial
  | pathIsNull =>
    intro s _
    exact Good.bind (Aside.onPath fun h => T.isNull h).good' fun _ _ _ _ => Good.pure trivial
  | pathValue => intro s _; exact (Aside.onPath fun h => T.value h).good'
  | pathPrimitive ty => intro s _; exact (Aside.onPath fun h => T.primitive h).good'
  | pathSequence =>
    intro s _
    exact Good.bind (Aside.onPath fun h => T.sequence h).good' fun _ _ _ _ => Good.pure trivial
  | pathMapping =>
    intro s _
    refine Good.bind (Good.mapping T) fun o _ _ _ => ?_
    cases o with
    | none => exact Good.pure trivial
    | some kv =>
      dsimp only
      split
      · exact Good.pure trivial
      · exact Good.raise
  | withVars v p ih => intro s h; exact Good.withPush T (Aside.pushVars _) fun _ _ => ih h
  | withKey k p ih => intro s h; exact Good.withPush T (Aside.pushKey T k {}) fun _ _ => ih h
  | withData d p ih => intro s h; exact Good.withPush T (Aside.pushSource (nat d) _) fun _ _ => ih h
  | withErrors raising p ih =>
    intro s h
    exact Good.bind (Aside.newErrs _).good' fun _ _ _ _ => Good.withPush T (Aside.pushVars _) fun _ _ => ih h
  | withReset p ih => intro s h; exact Good.withPush T Aside.pushReset fun _ _ => ih h
  | newForm cls => intro s _; exact Good.bind (Good.newForm cls) fun _ _ _ _ => Good.pure trivial
  | mapForm form src tags reset u raising =>
    intro s h
    exact Good.bind (asF _ _) fun id _ _ _ => Good.bind (Good.formMap T hr hC (src := .data src) trivial (u := .str u) h)
      fun e _ _ _ => Good.bind (Aside.errItems e).good' fun _ _ _ _ => Good.pure trivial
  | mapField cls i v =>
    intro s _
    unfold Pilo.evalProg
    split
    · rename_i f hf
      exact (hr f (hC cls f (List.mem_of_getElem? hf)) v s).any
    · exact Good.raise

theorem Good.callHook (hr : RecGood L C K rec) (hC : C.All (HandsOff C)) {h : Hook Prog} (hq : ∀ t, (h.body t).HandsOff) :
    Good L C K s (callHook I L C rec h) fun _ _ => True := by
  refine Good.bind (Q := fun _ _ => True) ?_ fun t _ _ _ => Good.evalProg T hr hC (hq t)
  unfold hookTarget
  split
  · exact Good.pure trivial
  · exact Good.bind (Aside.ctxGet _ _).good' fun _ _ _ _ => Good.pure trivial

theorem Good.callHook1 (hr : RecGood L C K rec) (hC : C.All (HandsOff C)) {h : Hook (Val → Prog)} {v : Val}
    (hq : ∀ t v, (h.body t v).HandsOff) : Good L C K s (callHook1 I L C rec h v) fun _ _ => True := by
  refine Good.bind (Q := fun _ _ => True) ?_ fun t _ _ _ => Good.evalProg T hr hC (hq t v)
  unfold hookTarget
  split
  · exact Good.pure trivial
  · exact Good.bind (Aside.ctxGet _ _).good' fun _ _ _ _ => Good.pure trivial

/-! ## Defaults and checks -/

omit T in
theorem Good.missingNotSet : Good L C K s (missingNotSet I) fun _ w => w.isIgnore = true := by
  refine Good.bind (Aside.ctxGet _ _).good' fun im _ _ _ => ?_
  split
  · exact Good.pure rfl
  · exact Good.bind (Aside.report _).good' fun _ _ _ _ => Good.pure rfl

theorem Good.fieldDefault (hr : RecGood L C K rec) (hC : C.All (HandsOff C)) {f : Field} (hq : HandsOff C f) :
    Good L C K s (fieldDefault I L C rec f) fun _ w => w.isIgnore = true ∨ Defaults L f w := by
  have mis : ∀ s : St P, Good L C K s (Pilo.missingNotSet I) fun _ w => w.isIgnore = true ∨ Defaults L f w := fun s =>
    Good.missingNotSet.weaken fun _ _ => .inl
  refine Good.bind (Aside.ctxGet _ _).good' fun ig s1 _ _ => ?_
  split
  · exact mis _
  · split
    · exact mis _
    · rename_i h hd
      exact (Good.callHook T hr hC (hq.default h hd)).weaken fun _ _ _ => .inr (.hook hd)
    · rename_i p hd
      exact (Good.evalProg T hr hC (hq.callable p hd)).weaken fun _ _ _ => .inr (.callable hd)
    · exact mis _
    · rename_i id hd
      exact Good.ofExcept fun a ha => .inr (.call hd ha)
    · rename_i v _ _ hd
      exact Good.pure (.inr (.value hd))

/-- What the munge step gives. -/
def Translated (f : Field) (v w : Val) : Prop :=
  f.core.munge ≠ none ∨ w ∈ f.core.translations.map Prod.snd ∨ w = v

theorem Good.mungeStep (hr : RecGood L C K rec) (hC : C.All (HandsOff C)) {f : Field} (hq : HandsOff C f) {v : Val} :
    Good L C K s (mungeStep I L C rec f v) fun _ w => Translated f v w := by
  refine Good.bind (Q := fun _ w => w ∈ f.core.translations.map Prod.snd ∨ w = v) (Good.ofExcept fun w hw => ?_)
    fun w s1 _ hw => ?_
  · unfold fieldMunge at hw
    split at hw
    · cases hw; exact .inr rfl
    · split at hw
      · cases hw
      · cases hw
        unfold dictGet?
        cases hf : f.core.translations.find? fun p => v.pyEq p.1 with
        | none => exact .inr rfl
        | some p => exact .inl (List.mem_map.2 ⟨p, List.mem_of_find?_eq_some hf, rfl⟩)
  · split
    · exact Good.pure (.inr hw)
    · split
      · rename_i h hm
        exact (Good.callHook1 T hr hC (hq.munge h hm)).weaken fun _ _ _ => .inl (by rw [hm]; exact fun h => by cases h)
      · exact Good.pure (.inr hw)

theorem Good.filterStep (hr : RecGood L C K rec) (hC : C.All (HandsOff C)) {f : Field} (hq : HandsOff C f) {v : Val} :
    Good L C K s (filterStep I L C rec f v) fun _ b => b = true → ∀ x ∈ f.core.ignores, v.pyEq x = false := by
  unfold Pilo.filterStep
  have kept : fieldFilter f v = true → ∀ x ∈ f.core.ignores, v.pyEq x = false := by
    intro h x hx
    unfold fieldFilter Val.inList at h
    rw [Bool.not_eq_true', Bool.eq_false_iff] at h
    rw [Bool.eq_false_iff]
    exact fun h' => h (List.any_eq_true.2 ⟨x, hx, h'⟩)
  split
  · rename_i hf
    split
    · rename_i h hfl
      exact Good.bind (Good.callHook1 T hr hC (hq.filter h hfl)) fun _ _ _ _ => Good.pure fun _ => kept hf
    · exact Good.pure fun _ => kept hf
  · exact Good.pure fun h => by cases h

theorem Good.validateStep (hr : RecGood L C K rec) (hC : C.All (HandsOff C)) {f : Field} (hq : HandsOff C f) {v : Val} :
    Good L C K s (validateStep I L C rec f v) fun _ b => b = true →
      (v = .none → f.core.nullable.truthy = true) ∧ f.kind.Admits f.core.translations v := by
  unfold Pilo.validateStep
  refine Good.bind Good.kindValidate fun ok s1 _ hok => ?_
  split
  · rename_i h
    split
    · rename_i h' hv
      exact Good.bind (Good.callHook1 T hr hC (hq.validate h' hv)) fun _ _ _ _ => Good.pure fun _ => hok h
    · exact Good.pure fun _ => hok h
  · exact Good.pure fun h => by cases h

theorem Good.fieldCheck (hr : RecGood L C K rec) (hC : C.All (HandsOff C)) {f : Field} (hq : HandsOff C f) {v : Val} :
    Good L C K s (fieldCheck I L C rec f v) fun _ w =>
      w.isIgnore = true ∨ Defaults L f w ∨ f.Meets w ∧ Translated f v w := by
  have dflt : ∀ s : St P, Good L C K s (Pilo.fieldDefault I L C rec f) fun _ w =>
      w.isIgnore = true ∨ Defaults L f w ∨ f.Meets w ∧ Translated f v w := fun s =>
    (Good.fieldDefault T hr hC hq).weaken fun _ _ h => h.imp_right .inl
  unfold Pilo.fieldCheck
  refine Good.bind (Good.mungeStep T hr hC hq) fun w s1 _ hw => ?_
  split
  · exact dflt _
  · split
    · rename_i h; exact Good.pure (.inl h)
    · refine Good.bind (Good.filterStep T hr hC hq) fun keep s2 _ hkeep => ?_
      split
      · exact dflt _
      · rename_i hk
        refine Good.bind (Good.validateStep T hr hC hq) fun ok s3 _ hok => Good.pure ?_
        cases ok with
        | false => exact .inl rfl
        | true =>
          have hk' : keep = true := by cases keep with | true => rfl | false => simp at hk
          exact .inr (.inr ⟨⟨hkeep hk', (hok rfl).1, (hok rfl).2⟩, hw⟩)

/-! ## Parsing -/

/-- What `_parse` gives. -/
def Parsed (L : Lib) (forms : List FormObj) (f : Field) (v : Val) : Prop :=
  v.isIgnore = true ∨ v = .none ∨ Defaults L f v ∨ Shape L forms f.kind v

omit T in
theorem Good.fail {f : Field} (msg : String) : Good L C K s (failWith I msg) fun fs w => Parsed L fs f w :=
  Good.bind (Aside.report _).good' fun _ _ _ _ => Good.pure (.inl rfl)

theorem Good.value : Good L C K s (readPath I.value) fun _ _ => True := (Aside.onPath fun h => T.value h).good'

theorem Good.prim {f : Field} (ty : PTy) (h : ∀ v fs, ty.Has v → Shape L fs f.kind v) :
    Good L C K s (readPath (I.primitive ty)) fun fs w => Parsed L fs f w :=
  (Good.primitive T ty).weaken fun _ _ hv => .inr (.inr (.inr (h _ _ hv)))

theorem Good.decimalParse {f : Field} {c : NumCfg} (hk : f.kind = .decimal c) :
    Good L C K s (decimalParse I L) fun fs w => Parsed L fs f w := by
  have dec : ∀ x fs, Parsed L fs f (.decimal x) := fun x fs => .inr (.inr (.inr (by rw [hk]; exact ⟨x, rfl⟩)))
  refine Good.bind (Good.value T) fun v _ _ _ => ?_
  split
  · exact Good.pure (dec _ _)
  · exact Good.pure (dec _ _)
  · exact Good.pure (dec _ _)
  · exact Good.pure (dec _ _)
  · refine Good.bind (Good.primitive T .str).any fun p _ _ _ => ?_
    split
    · split
      · exact Good.pure (dec _ _)
      · exact Good.raise
    · exact Good.raise

theorem Good.dateParse {f : Field} {c : DateCfg} (hk : f.kind = .date c) :
    Good L C K s (dateParse I L c) fun fs w => Parsed L fs f w := by
  have dt : ∀ d fs, Parsed L fs f (.ext .date d) := fun d fs => .inr (.inr (.inr (by rw [hk]; exact ⟨d, .inl rfl⟩)))
  have loop : ∀ x fs specs, Parsed L fs f (dateLoop L x specs) := by
    intro x fs specs
    induction specs with
    | nil => exact .inr (.inl rfl)
    | cons a as ih =>
      unfold dateLoop
      split
      · exact dt _ _
      · exact ih
  refine Good.bind (Good.value T) fun v _ _ _ => ?_
  split
  · exact Good.pure (dt _ _)
  · exact Good.pure (.inr (.inr (.inr (by rw [hk]; exact ⟨_, .inr rfl⟩))))
  · refine Good.bind (Good.primitive T .str).any fun p _ _ _ => ?_
    split
    · exact Good.fail _
    · split
      · exact Good.pure (loop _ _ _)
      · exact Good.raise

theorem Good.timeParse {f : Field} {c : DateCfg} (hk : f.kind = .time c) :
    Good L C K s (timeParse I L c) fun fs w => Parsed L fs f w := by
  have st : ∀ d fs, Parsed L fs f (.ext .structTime d) := fun d fs => .inr (.inr (.inr (by rw [hk]; exact ⟨d, .inr rfl⟩)))
  refine Good.bind (Good.value T) fun v _ _ _ => ?_
  split
  · exact Good.pure (st _ _)
  · exact Good.pure (.inr (.inr (.inr (by rw [hk]; exact ⟨_, .inl rfl⟩))))
  · refine Good.bind (Good.primitive T .str).any fun p _ _ _ => ?_
    split
    · exact Good.fail _
    · split
      · split
        · exact Good.pure (st _ _)
        · exact Good.raise
      · exact Good.raise

theorem Good.datetimeParse {f : Field} {c : DateCfg} (hk : f.kind = .datetime c) :
    Good L C K s (datetimeParse I L c) fun fs w => Parsed L fs f w := by
  have dt : ∀ d fs, Parsed L fs f (.ext .datetime d) := fun d fs => .inr (.inr (.inr (by rw [hk]; exact ⟨d, rfl⟩)))
  refine Good.bind (Good.value T) fun v _ _ _ => ?_
  split
  · exact Good.pure (dt _ _)
  · refine Good.bind (Good.primitive T .str).any fun p _ _ _ => ?_
    split
    · exact Good.fail _
    · split
      · split
        · split
          · exact Good.pure (dt _ _)
          · exact Good.fail _
        · split
          · exact Good.pure (dt _ _)
          · exact Good.raise
      · exact Good.raise

theorem Good.item (hr : RecGood L C K rec) {f : Field} (hq : f.All (HandsOff C)) (k : Val) :
    Good L C K s (Pilo.withPush I (Pilo.pushKey I k) (rec f .NONE)) fun fs w => Ends L fs f .NONE w :=
  Good.withPush T (Aside.pushKey T k {}) fun _ _ => hr f hq .NONE _

theorem Good.tupleLoop (hr : RecGood L C K rec) : ∀ {fs : List Field} {i : Nat} {s : St P},
    (∀ f ∈ fs, f.All (HandsOff C)) → Good L C K s (tupleLoop I rec i fs) fun forms xs =>
      ∃ gs : List Field, gs.Sublist fs ∧ gs.length = xs.length ∧
        ∀ (j : Nat) g x, gs[j]? = some g → xs[j]? = some x → Fits L forms g x := by
  intro fs
  induction fs with
  | nil =>
    intro i s _
    exact Good.pure ⟨[], .slnil, rfl, fun j g x h => by simp at h⟩
  | cons f fs ih =>
    intro i s h
    refine Good.bind (Good.item T hr (h f (.head _)) _) fun item s1 _ hi => Good.bind
      (ih fun g hg => h g (.tail _ hg)) fun rest s2 hg hrest => Good.pure ?_
    obtain ⟨gs, h1, h2, h3⟩ := hrest
    split
    · exact ⟨gs, h1.cons _, h2, h3⟩
    · rename_i hn
      refine ⟨f :: gs, h1.cons_cons _, by simp [h2], fun j g x hj hx => ?_⟩
      cases j with
      | zero => cases hj; cases hx; exact (hi.fits hn).grow hg
      | succ j => exact h3 j g x hj hx

theorem Good.listLoop (hr : RecGood L C K rec) {f : Field} (hq : f.All (HandsOff C)) : ∀ {n i : Nat} {s : St P},
    Good L C K s (listLoop I rec f i n) fun forms xs => ∀ x ∈ xs, Fits L forms f x := by
  intro n
  induction n with
  | zero => intro i s; exact Good.pure fun x h => by cases h
  | succ n ih =>
    intro i s
    refine Good.bind (Good.item T hr hq _) fun item s1 _ hi => Good.bind ih fun rest s2 hg hrest => Good.pure ?_
    split
    · exact hrest
    · rename_i hn
      intro x hx
      rcases List.mem_cons.1 hx with rfl | hx
      · exact (hi.fits hn).grow hg
      · exact hrest x hx

theorem Good.seqTry : Good L C K s (seqTry I) fun _ _ => True := by
  refine Good.tryCatch (Good.bind (Aside.onPath fun h => T.sequence h).good' fun _ _ _ _ => Good.pure trivial)
    fun e s1 _ => Good.bind (Aside.onPath (f := fun p => (.ok (I.hasSrc p), p)) fun h => h).good' fun hs _ _ _ => ?_
  split
  · exact Good.raise
  · split
    · exact Good.pure trivial
    · exact Good.raise

theorem Good.listParse (hr : RecGood L C K rec) {f g : Field} {lo hi : Option Nat} {a : Bool}
    (hk : f.kind = .list g lo hi a) (hq : g.All (HandsOff C)) :
    Good L C K s (listParse I rec g a) fun fs w => Parsed L fs f w := by
  have lst : ∀ fs xs, (∀ x ∈ xs, Fits L fs g x) → Parsed L fs f (.list xs) := fun fs xs h =>
    .inr (.inr (.inr (by rw [hk]; exact ⟨xs, rfl, h⟩)))
  refine Good.bind (Good.seqTry T) fun r _ _ _ => ?_
  split
  · exact Good.bind (Good.listLoop T hr hq) fun xs _ _ h => Good.pure (lst _ _ h)
  · split
    · exact Good.raise
    · refine Good.bind (hr g hq .NONE _) fun v s' _ hv => Good.pure ?_
      split
      · rename_i h; exact .inl h
      · rename_i h
        exact lst _ _ fun x hx => by cases List.mem_singleton.1 hx; exact hv.fits h

omit T in
theorem mem_dictSet {d : List (Val × Val)} {k v : Val} {p : Val × Val} (h : p ∈ dictSet d k v) :
    p ∈ d ∨ p.2 = v ∧ (p.1 = k ∨ ∃ q ∈ d, q.1 = p.1) := by
  induction d with
  | nil => cases List.mem_singleton.1 h; exact .inr ⟨rfl, .inl rfl⟩
  | cons x d ih =>
    unfold dictSet at h
    split at h
    · rcases List.mem_cons.1 h with rfl | h
      · exact .inr ⟨rfl, .inr ⟨x, .head _, rfl⟩⟩
      · exact .inl (.tail _ h)
    · rcases List.mem_cons.1 h with rfl | h
      · exact .inl (.head _)
      · rcases ih h with h | ⟨h1, h2 | ⟨q, hq, h2⟩⟩
        · exact .inl (.tail _ h)
        · exact .inr ⟨h1, .inl h2⟩
        · exact .inr ⟨h1, .inr ⟨q, .tail _ hq, h2⟩⟩

theorem Good.dictLoop (hr : RecGood L C K rec) (hC : C.All (HandsOff C)) {kf vf : Field} (hkf : kf.All (HandsOff C))
    (hvf : vf.All (HandsOff C)) {kfl : Option (Hook (Val → Prog))} (hfl : ∀ h, kfl = some h → ∀ t v, (h.body t v).HandsOff) :
    ∀ {ks : List Val} {acc : List (Val × Val)} {s : St P},
      (∀ p ∈ acc, Defaults L kf p.1 ∨ kf.Meets p.1) → (∀ p ∈ acc, Fits L s.forms vf p.2) →
      Good L C K s (dictLoop I L C rec kf vf kfl ks acc) fun fs kvs =>
        (∀ p ∈ kvs, Defaults L kf p.1 ∨ kf.Meets p.1) ∧ ∀ p ∈ kvs, Fits L fs vf p.2 := by
  intro ks
  induction ks with
  | nil => intro acc s h1 h2; exact Good.pure ⟨h1, h2⟩
  | cons k ks ih =>
    intro acc s h1 h2
    have keep : Good L C K s (keepKey I L C rec kfl k) fun _ _ => True := by
      unfold keepKey
      split
      · exact Good.pure trivial
      · exact Good.bind (Good.callHook1 T hr hC (hfl _ rfl)) fun _ _ _ _ => Good.pure trivial
    refine Good.bind keep fun b s1 hg1 _ => ?_
    split
    · exact ih h1 fun p hp => (h2 p hp).grow hg1
    · refine Good.bind (Good.item T hr hvf k) fun v s2 hg2 hv => ?_
      have h2' : ∀ p ∈ acc, Fits L s2.forms vf p.2 := fun p hp => ((h2 p hp).grow hg1).grow hg2
      split
      · exact ih h1 h2'
      · rename_i hn
        refine Good.bind (hr kf hkf k _) fun k' s3 hg3 hk' => ?_
        have h3' : ∀ p ∈ acc, Fits L s3.forms vf p.2 := fun p hp => (h2' p hp).grow hg3
        split
        · exact ih h1 h3'
        · rename_i hkn
          split
          · exact Good.raise
          · refine ih (fun p hp => ?_) fun p hp => ?_
            · rcases mem_dictSet hp with h | ⟨_, h | ⟨q, hq, h⟩⟩
              · exact h1 p h
              · rw [h]; exact (hk'.resolve_left hkn).1
              · rw [← h]; exact h1 q hq
            · rcases mem_dictSet hp with h | ⟨h, _⟩
              · exact h3' p h
              · rw [h]; exact (hv.fits hn).grow hg3

omit T in
theorem Good.iterKeys {kv : KeysView} : Good L C K s (iterKeys kv : M P _) fun _ _ => True := by
  unfold Pilo.iterKeys
  split
  · exact Good.pure trivial
  · exact Good.raise

theorem Good.dictParse (hr : RecGood L C K rec) (hC : C.All (HandsOff C)) {f kf vf : Field}
    {kfl : Option (Hook (Val → Prog))} {req : Required} {mx : Option Nat} (hk : f.kind = .dict kf vf kfl req mx)
    (hq : f.All (HandsOff C)) (hkf : kf.All (HandsOff C)) (hvf : vf.All (HandsOff C)) :
    Good L C K s (dictParse I L C rec f kf vf kfl) fun fs w => Parsed L fs f w := by
  refine Good.bind (Good.mapping T) fun o _ _ _ => ?_
  split
  · exact (Good.fieldDefault T hr hC hq.node).weaken fun _ _ h => h.imp_right fun h => .inr (.inl h)
  · refine Good.bind Good.iterKeys fun ks _ _ _ => Good.bind (Good.dictLoop T hr hC hkf hvf (fun h e t v => ?_)
      (fun p hp => by cases hp) fun p hp => by cases hp) fun m _ _ hm => Good.pure ?_
    · subst e; exact hq.node.keyFilter kf vf h req mx hk t v
    · exact .inr (.inr (.inr (by rw [hk]; exact ⟨m, rfl, hm.1, hm.2⟩)))

theorem Good.codeParse {f : Field} (hk : f.kind = .code) :
    Good L C K s (codeParse I L) fun fs w => Parsed L fs f w := by
  have any : ∀ v fs, Parsed L fs f v := fun d fs => .inr (.inr (.inr (by rw [hk]; exact trivial)))
  refine Good.bind (Good.primitive T .auto).any fun v _ _ _ => ?_
  split
  · split
    · split
      · exact Good.pure (any _ _)
      · exact Good.fail _
    · split
      · split
        · exact Good.pure (any _ _)
        · exact Good.fail _
      · exact Good.fail _
  · exact Good.pure (any _ _)

theorem Good.uuidParse {f : Field} (hk : f.kind = .uuid) :
    Good L C K s (uuidParse I L) fun fs w => Parsed L fs f w := by
  have uid : ∀ n fs, Parsed L fs f (.ext .uuid n) := fun n fs => .inr (.inr (.inr (by rw [hk]; exact ⟨n, rfl⟩)))
  refine Good.bind (Good.primitive T .auto).any fun v _ _ _ => ?_
  split
  · exact Good.pure (uid _ _)
  · refine Good.bind (Good.primitive T .str).any fun p _ _ _ => ?_
    split
    · split
      · exact Good.pure (uid _ _)
      · exact Good.raise
    · exact Good.raise

theorem Good.subParse (hr : RecGood L C K rec) (hC : C.All (HandsOff C)) {cls : Nat} {reset : Bool} {u : Unmapped}
    (hu : u.HandsOff) : Good L C K s (subParse I C rec cls reset u) fun fs w =>
      w.isIgnore = true ∨ ∃ id o, w = .form id ∧ fs[id]? = some o ∧ o.cls = cls := by
  refine Good.bind (Good.newForm cls) fun id s1 _ hid => Good.bind (Good.formMap T hr hC (src := .none) trivial hu)
    fun e s2 hg2 _ => Good.bind (Aside.errItems e).good' fun es s3 hg3 _ => Good.pure ?_
  obtain ⟨o, ho, rfl⟩ := hid
  obtain ⟨o', ho', hc⟩ := (hg2.trans hg3) id o ho
  split
  · exact .inr ⟨id, o', rfl, ho', hc⟩
  · exact .inl rfl

theorem Good.polyType (hr : RecGood L C K rec) (hC : C.All (HandsOff C)) {tf : Field} {pc : Nat} {types : List (Val × Nat)}
    (htf : tf ∈ (C pc).fields) : Good L C K s (polyType I L C rec tf pc types) fun _ r =>
      ∀ cls, r = some (some cls) → cls ∈ types.map Prod.snd := by
  refine Good.bind (Q := fun _ _ => True) (Good.tryCatch ?_ fun e s1 _ => ?_) fun identity _ _ _ => ?_
  · refine Good.bind (Q := fun _ src => src.Is K) ?_ fun src s1 _ hsrc => Good.bind (Q := fun _ _ => True) ?_
      fun _ _ _ _ => Good.pure trivial
    · refine Good.bind (Good.value T) fun v s1 _ _ => Good.onPath (fun h => h) fun p a hp ha => ?_
      cases ha
      cases hj : I.joinPath p with
      | none => exact trivial
      | some mk =>
        cases mk with
        | error e => exact trivial
        | ok q => exact T.joinPath hp hj
    · refine Good.bind (Good.newForm pc) fun id s2 _ hid => Good.bind (Good.formMap T hr hC hsrc
        (u := .str .ignore) fun h => by cases h) fun e s3 hg3 _ => Good.bind (Aside.errItems e).good' fun es s4 hg4 _ => ?_
      obtain ⟨o, ho, rfl⟩ := hid
      obtain ⟨o', ho', hc⟩ := (hg3.trans hg4) id o ho
      split
      · exact (Good.fieldGet T hr (hC _ tf htf) ⟨o', ho', hc ▸ htf⟩).any
      · exact Good.raise
  · split
    · exact Good.bind (Aside.report _).good' fun _ _ _ _ => Good.pure trivial
    · exact Good.raise
  · split
    · exact Good.pure fun cls h => by cases h
    · exact Good.pure fun cls h => by cases h
    · split
      · exact Good.raise
      · split
        · rename_i p hp
          exact Good.pure fun cls h => by
            cases h
            exact List.mem_map.2 ⟨p, List.mem_of_find?_eq_some hp, rfl⟩
        · exact Good.bind (Aside.report _).good' fun _ _ _ _ => Good.pure fun cls h => by cases h

theorem Good.groupLoop (hr : RecGood L C K rec) {gs : List (GSrc × Field)} (hq : ∀ x ∈ gs, x.2.All (HandsOff C)) :
    ∀ {ks : List Val} {b : Bool} {acc : List (Val × Val × Val × Field)} {s : St P},
      (∀ t ∈ acc, ∃ src, (src, t.2.2.2) ∈ gs) → (∀ t ∈ acc, Fits L s.forms t.2.2.2 t.2.2.1) →
      Good L C K s (groupLoop I rec gs ks b (acc.map fun t => .tuple [t.1, t.2.1, t.2.2.1])) fun fs r =>
        ∀ vs, r = some vs → ∃ ts : List (Val × Val × Val × Field), vs = ts.map (fun t => .tuple [t.1, t.2.1, t.2.2.1]) ∧
          (∀ t ∈ ts, ∃ src, (src, t.2.2.2) ∈ gs) ∧ ∀ t ∈ ts, Fits L fs t.2.2.2 t.2.2.1 := by
  intro ks
  induction ks with
  | nil =>
    intro b acc s h1 h2
    refine Good.pure fun vs h => ?_
    cases b with
    | true => cases h; exact ⟨acc, rfl, h1, h2⟩
    | false => cases h
  | cons k ks ih =>
    intro b acc s h1 h2
    refine Good.bind (Q := fun _ r => groupMatch gs k = .ok r) (Good.ofExcept fun _ h => h) fun r s1 hg1 hm => ?_
    split
    · exact ih h1 fun t ht => (h2 t ht).grow hg1
    · rename_i f cap
      obtain ⟨src, hmem⟩ := groupMatch_mem hm
      refine Good.bind (Good.item T hr (hq _ hmem) k) fun v s2 hg2 hv => ?_
      have h2' : ∀ t ∈ acc, Fits L s2.forms t.2.2.2 t.2.2.1 := fun t ht => ((h2 t ht).grow hg1).grow hg2
      split
      · exact ih h1 h2'
      · rename_i hn
        have := ih (b := true) (acc := acc ++ [(k, cap, v, f)]) (s := s2) (fun t ht => ?_) fun t ht => ?_
        · rw [List.map_append] at this; exact this
        · rcases List.mem_append.1 ht with h | h
          · exact h1 t h
          · cases List.mem_singleton.1 h; exact ⟨src, hmem⟩
        · rcases List.mem_append.1 ht with h | h
          · exact h2' t h
          · cases List.mem_singleton.1 h; exact hv.fits hn

theorem Good.kindParse (hr : RecGood L C K rec) (hC : C.All (HandsOff C)) {f : Field} (hq : f.All (HandsOff C)) :
    Good L C K s (kindParse I L C rec f) fun fs w => Parsed L fs f w := by
  unfold Pilo.kindParse
  have hkids := hq.kind
  cases hk : f.kind <;> rw [hk] at hkids <;> dsimp only
  case base => exact Good.prim T _ fun v fs _ => by rw [hk]; exact trivial
  case string => exact Good.prim T _ fun v fs h => by rw [hk]; exact h
  case integer => exact Good.prim T _ fun v fs h => by rw [hk]; exact h
  case float => exact Good.prim T _ fun v fs h => by rw [hk]; exact h
  case decimal => exact Good.decimalParse T hk
  case boolean => exact Good.prim T _ fun v fs h => by rw [hk]; exact h
  case date => exact Good.dateParse T hk
  case time => exact Good.timeParse T hk
  case datetime => exact Good.datetimeParse T hk
  case tuple fs =>
    cases hkids with
    | tuple h =>
      refine Good.bind (Aside.onPath fun h => T.sequence h).good' fun n _ _ _ => ?_
      split
      · exact Good.fail _
      · refine Good.bind (Good.tupleLoop T hr h) fun xs s' _ hx => Good.pure ?_
        obtain ⟨gs, h1, h2, h3⟩ := hx
        exact .inr (.inr (.inr (by rw [hk]; exact ⟨gs, xs, rfl, h1, h2, h3⟩)))
  case list g lo hi a =>
    cases hkids with
    | list h => exact Good.listParse T hr hk h
  case dict =>
    cases hkids with
    | dict h1 h2 => exact Good.dictParse T hr hC hk hq h1 h2
  case code => exact Good.codeParse T hk
  case uuid => exact Good.uuidParse T hk
  case subform cls r u =>
    refine (Good.subParse T hr hC (hq.node.subform cls r u hk)).weaken fun fs w h => h.imp_right fun h => .inr (.inr ?_)
    rw [hk]; exact h
  case poly tf pc ts r u =>
    obtain ⟨hu, htf, _⟩ := hq.node.poly tf pc ts r u hk
    refine Good.bind (Good.polyType T hr hC htf) fun res _ _ hres => ?_
    split
    · exact Good.pure (.inl rfl)
    · exact Good.pure (.inl rfl)
    · refine (Good.subParse T hr hC hu).weaken fun fs w h => h.imp_right fun ⟨id, o, h1, h2, h3⟩ => .inr (.inr ?_)
      rw [hk]; exact ⟨id, o, h1, h2, h3 ▸ hres _ rfl⟩
  case group gs =>
    cases hkids with
    | group h =>
      refine Good.bind (Good.mapping T) fun o _ _ _ => ?_
      split
      · exact (Good.fieldDefault T hr hC hq.node).weaken fun _ _ h => h.imp_right fun h => .inr (.inl h)
      · refine Good.bind Good.iterKeys fun ks _ _ _ => Good.bind (Good.groupLoop T hr h (acc := [])
          (fun t ht => by cases ht) fun t ht => by cases ht) fun r _ _ hr' => ?_
        split
        · obtain ⟨ts, h1, h2, h3⟩ := hr' _ rfl
          exact Good.pure (.inr (.inr (.inr (by rw [hk]; exact ⟨ts, by rw [h1], h2, h3⟩))))
        · exact Good.pure (.inl rfl)

/-! ## Mapping a field -/

theorem Good.computeStep (hr : RecGood L C K rec) (hC : C.All (HandsOff C)) {f : Field} (hq : f.All (HandsOff C)) :
    Good L C K s (computeStep I L C rec f) fun fs w => Raw L fs f w := by
  unfold Pilo.computeStep
  split
  · rename_i h hc
    exact (Good.callHook T hr hC (hq.node.compute h hc)).weaken fun _ _ _ => .inr (.inr (.inl (.inl (by
      rw [hc]; exact fun h => by cases h))))
  · refine Good.bind (Aside.onPath fun h => T.exists_ h).good' fun ex _ _ _ => ?_
    split
    · exact Good.pure (.inl rfl)
    · refine Good.bind (Aside.onPath fun h => T.isNull h).good' fun nl _ _ _ => ?_
      split
      · exact Good.pure (.inr (.inl rfl))
      · refine Good.tryCatch ?_ fun e s' _ => ?_
        · unfold fieldParse
          split
          · rename_i h hp
            exact (Good.callHook T hr hC (hq.node.parse h hp)).weaken fun _ _ _ => .inr (.inr (.inl (.inr (.inl (by
              rw [hp]; exact fun h => by cases h)))))
          · exact (Good.kindParse T hr hC hq).weaken fun _ _ h => h.imp_right fun h => h.imp_right .inr
        · split
          · exact Good.bind (Aside.report _).good' fun _ _ _ _ => Good.pure (.inl rfl)
          · exact Good.raise

theorem Good.fieldStart (hr : RecGood L C K rec) (hC : C.All (HandsOff C)) {f : Field} (hq : f.All (HandsOff C)) :
    Good L C K s (fieldStart I L C rec f) fun fs w => Ends L fs f .NONE w := by
  have dflt : ∀ fs w, Defaults L f w → Ends L fs f .NONE w := fun fs w h => .inr ⟨.inl h, fun _ => .default h⟩
  refine Good.bind (Good.computeStep T hr hC hq) fun v s1 _ hv => ?_
  split
  · split
    · rename_i h hd
      exact (Good.callHook T hr hC (hq.node.default h hd)).weaken fun _ _ _ => dflt _ _ (.hook hd)
    · exact (Good.fieldDefault T hr hC hq.node).weaken fun _ _ h => h.elim .inl (dflt _ _)
  · split
    · rename_i h; exact Good.pure (.inl h)
    · rename_i hn
      intro hs1
      obtain ⟨h1, h2, h3⟩ := (Good.fieldCheck T hr hC hq.node (v := v)) hs1
      refine ⟨h1, h2, fun w hw => ?_⟩
      rcases h3 w hw with h | h | ⟨hm, h | h | rfl⟩
      · exact .inl h
      · exact dflt _ _ h
      · exact .inr ⟨.inr hm, fun _ => .custom (.inr (.inr h)) hm⟩
      · exact .inr ⟨.inr hm, fun _ => .translated h hm⟩
      · refine .inr ⟨.inr hm, fun _ => ?_⟩
        rcases hv with h | rfl | h | h | h
        · exact absurd h hn
        · exact .null hm
        · exact .custom h hm
        · exact .default h
        · exact (h.grow h2).fits hm

theorem Good.withResolve (hr : RecGood L C K rec) (hC : C.All (HandsOff C)) {f : Field} (hq : HandsOff C f) {body : M P α}
    {Q : List FormObj → α → Prop} (hb : ∀ s, Good L C K s body Q) : Good L C K s (withResolve I L C rec f body) Q := by
  unfold Pilo.withResolve
  split
  · rename_i h hres
    refine Good.bind (Good.callHook T hr hC (hq.key h hres)) fun k _ _ _ => ?_
    split
    · exact hb _
    · exact Good.withPush T (Aside.pushKey T k {}) fun _ _ => hb _
  · rename_i h hres
    refine Good.bind (Good.callHook T hr hC (hq.data h hres)) fun d _ _ _ => ?_
    split
    · exact hb _
    · exact Good.withPush T (Aside.pushSource (fun p h => by cases h; exact T.native) _) fun _ _ => hb _
  · split
    · exact hb _
    · split
      · exact hb _
      · exact Good.withPush T (Aside.pushKey T _ {}) fun _ _ => hb _

omit T in
theorem Good.setParent (v : Val) : Good L C K s (setParent v) fun _ _ => True := by
  refine Good.bind (Aside.ctxGet? _).good' fun par _ _ _ => ?_
  split
  · exact Good.modify (fun _ => rfl) fun o _ n v h => .inl h
  · exact Good.pure trivial
  · exact Good.pure trivial
  · exact Good.raise

omit T in
theorem Ends.grow {a b : List FormObj} (hg : Grows a b) {f : Field} {v w : Val} (h : Ends L a f v w) : Ends L b f v w :=
  h.imp_right fun h => ⟨h.1, fun hv => (h.2 hv).grow hg⟩

theorem Good.mapFieldF (hr : RecGood L C K rec) (hC : C.All (HandsOff C)) : RecGood L C K (mapFieldF I L C rec) := by
  intro f hq v s
  refine Good.bind (Q := fun fs w => Ends L fs f v w) (Good.withPush T (Aside.pushVars _) fun s1 _ => ?_) fun w s1 _ hw => ?_
  · unfold fieldMapInner
    split
    · refine Good.withResolve T hr hC hq.node fun s2 => (Good.fieldStart T hr hC hq).weaken fun fs w h => ?_
      exact h.imp_right fun h => ⟨h.1, fun _ => h.2 rfl⟩
    · rename_i hn
      refine (Good.fieldCheck T hr hC hq.node).weaken fun fs w h => ?_
      rcases h with h | h | ⟨h, _⟩
      · exact .inl h
      · exact .inr ⟨.inl h, fun e => absurd e hn⟩
      · exact .inr ⟨.inr h, fun e => absurd e hn⟩
  · split
    · exact Good.bind (Good.setParent w) fun _ _ hg _ => Good.pure (hw.grow hg)
    · exact Good.pure hw

theorem Good.mapField (hC : C.All (HandsOff C)) (n : Nat) : RecGood L C K (mapField I L C n) := by
  induction n with
  | zero => exact fun _ _ _ _ => Good.raise
  | succ n ih => exact Good.mapFieldF T ih hC

end
end Pilo
