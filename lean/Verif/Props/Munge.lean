import Verif.FormOps
import Verif.Props.FormsDemo

/-!
# C35, C36: `form.munge` and `form.filter`
-/

namespace Pilo
variable {P : Type} {C : Classes}

/-! ### The specification -/

/-- How a value and what `munge` stores for it are related: a form becomes a form, a list or tuple a list whose items
that are forms became forms, anything else is kept. `R` relates forms. -/
def MungedVal (R : Nat → Nat → Prop) (v w : Val) : Prop :=
  match v with
  | .form a => ∃ b, w = .form b ∧ R a b
  | .list xs => ∃ ys, w = .list ys ∧ MungedItems R xs ys
  | .tuple xs => ∃ ys, w = .list ys ∧ MungedItems R xs ys
  | v => w = v
where
  /-- item by item -/
  MungedItems (R : Nat → Nat → Prop) : List Val → List Val → Prop
    | [], ys => ys = []
    | .form a :: xs, ys => ∃ b ys', ys = .form b :: ys' ∧ R a b ∧ MungedItems R xs ys'
    | x :: xs, ys => ∃ ys', ys = x :: ys' ∧ MungedItems R xs ys'

/-- Form `b` of the heap `h'` is form `a` of the heap `h` munged with `g`: it has the same class; its entries are, in
the order of declaration, the declared fields for which `g` gives something other than `NONE`, each with the value
`g` gives for it, munged in turn (into forms younger than `b`). -/
def Munged (C : Classes) (g : Field → Val → Val) (h h' : List FormObj) : Nat → Nat → Nat → Prop
  | 0, _, _ => False
  | n + 1, a, b => ∃ oa ob, h[a]? = some oa ∧ h'[b]? = some ob ∧ ob.cls = oa.cls ∧
      ∃ ps : List (Field × Val),
        ps.map Prod.fst = (C oa.cls).fields.filter (fun f => !(g f (lookField oa.items f)).isNONE) ∧
        ob.items = ps.map (fun p => (p.1.key, p.2)) ∧
        ∀ p ∈ ps, MungedVal (fun x y => b < y ∧ Munged C g h h' n x y) (g p.1 (lookField oa.items p.1)) p.2

/-- The forms a value refers to directly or as items are below `N`. -/
def RefsBelow (N : Nat) (v : Val) : Prop :=
  match v with
  | .form a => a < N
  | .list xs => ∀ a, Val.form a ∈ xs → a < N
  | .tuple xs => ∀ a, Val.form a ∈ xs → a < N
  | _ => True

/-- No form of the heap refers to a form that does not exist. -/
def HeapOK (h : List FormObj) : Prop := ∀ o ∈ h, ∀ kv ∈ o.items, RefsBelow h.length kv.2

/-- No class declares two fields of the same name. -/
def Distinct (C : Classes) : Prop := ∀ cls, ((C cls).fields.map Field.key).Nodup

/-! ### Lemmas -/

theorem MungedItems.imp {R S : Nat → Nat → Prop} (h : ∀ a b, R a b → S a b) : ∀ {xs ys : List Val},
    MungedVal.MungedItems R xs ys → MungedVal.MungedItems S xs ys
  | [], ys, hx => hx
  | x :: xs, ys, hx => by
    cases x with
    | form a =>
      obtain ⟨b, ys', h1, h2, h3⟩ := hx
      exact ⟨b, ys', h1, h _ _ h2, MungedItems.imp h h3⟩
    | _ =>
      obtain ⟨ys', h1, h3⟩ := hx
      exact ⟨ys', h1, MungedItems.imp h h3⟩

theorem MungedVal.imp {R S : Nat → Nat → Prop} (h : ∀ a b, R a b → S a b) {v w : Val} (hv : MungedVal R v w) :
    MungedVal S v w := by
  cases v with
  | form a => obtain ⟨b, h1, h2⟩ := hv; exact ⟨b, h1, h _ _ h2⟩
  | list xs => obtain ⟨ys, h1, h2⟩ := hv; exact ⟨ys, h1, MungedItems.imp h h2⟩
  | tuple xs => obtain ⟨ys, h1, h2⟩ := hv; exact ⟨ys, h1, MungedItems.imp h h2⟩
  | _ => exact hv

theorem Munged.mono {g : Field → Val → Val} {h h1 h2 : List FormObj} : ∀ {n a b : Nat},
    (∀ i o, b ≤ i → h1[i]? = some o → h2[i]? = some o) → Munged C g h h1 n a b → Munged C g h h2 n a b
  | 0, _, _, _, hm => hm
  | n + 1, a, b, hh, hm => by
    obtain ⟨oa, ob, ha, hb, hc, ps, h3, h4, h5⟩ := hm
    refine ⟨oa, ob, ha, hh _ _ (Nat.le_refl _) hb, hc, ps, h3, h4, fun p hp => (h5 p hp).imp ?_⟩
    rintro x y ⟨hlt, hxy⟩
    exact ⟨hlt, Munged.mono (fun i o hi => hh i o (by omega)) hxy⟩

theorem key_pyEq (f f' : Field) : Val.pyEq f.key f'.key = true ↔ f'.key = f.key := by
  unfold Field.key
  cases f.name with
  | some n => exact pyEq_str
  | none =>
    cases f'.name with
    | some m => constructor <;> intro h <;> first | (unfold Val.pyEq at h; cases h) | cases h
    | none => constructor <;> intro _ <;> first | rfl | (unfold Val.pyEq; rfl)

theorem dictSet_fresh {k v : Val} : ∀ {d : List (Val × Val)}, (∀ kv ∈ d, k.pyEq kv.1 = false) →
    dictSet d k v = d ++ [(k, v)]
  | [], _ => rfl
  | (k', v') :: d, h => by
    have := h _ List.mem_cons_self
    unfold dictSet
    rw [this]
    simp only [Bool.false_eq_true, if_false, List.cons_append]
    rw [dictSet_fresh fun kv hkv => h kv (List.mem_cons_of_mem _ hkv)]

/-- Every form of `h` is still in `h'`, unchanged. -/
def Kept (h h' : List FormObj) : Prop := ∀ (i : Nat) o, h[i]? = some o → h'[i]? = some o

theorem Kept.refl (h : List FormObj) : Kept h h := fun _ _ e => e

theorem Kept.trans {a b c : List FormObj} (h : Kept a b) (h' : Kept b c) : Kept a c := fun i o e => h' i o (h i o e)

theorem Kept.append (h e : List FormObj) : Kept h (h ++ e) := by
  intro i o hi
  rw [List.getElem?_append_left (List.getElem?_eq_some_iff.1 hi).1]
  exact hi

theorem Kept.length {h h' : List FormObj} (k : Kept h h') : h.length ≤ h'.length := by
  refine Nat.le_of_not_lt fun hlt => ?_
  have := k h'.length _ (List.getElem?_eq_getElem hlt)
  rw [List.getElem?_eq_none (Nat.le_refl _)] at this
  cases this

section
variable {g : Field → Val → Val} {h0 : List FormObj} {n : Nat} {rec : Nat → M P Nat}

/-- What a recursive call of `munge` has to do. -/
def MungeSpec (C : Classes) (g : Field → Val → Val) (h0 : List FormObj) (n : Nat) (rec : Nat → M P Nat) : Prop :=
  ∀ id s b s', id < h0.length → Kept h0 s.forms → rec id s = (.ok b, s') →
    b = s.forms.length ∧ s' = { s with forms := s'.forms } ∧ Kept s.forms s'.forms ∧ Munged C g h0 s'.forms n id b

theorem mungeItems_spec (hr : MungeSpec C g h0 n rec) : ∀ {xs ys : List Val} {s s' : St P},
    (∀ a, Val.form a ∈ xs → a < h0.length) → Kept h0 s.forms → mungeItems rec xs s = (.ok ys, s') →
    s' = { s with forms := s'.forms } ∧ Kept s.forms s'.forms ∧
      MungedVal.MungedItems (fun x y => s.forms.length ≤ y ∧ Munged C g h0 s'.forms n x y) xs ys := by
  intro xs
  induction xs with
  | nil => intro ys s s' _ _ h; cases h; exact ⟨rfl, .refl _, rfl⟩
  | cons x xs ih =>
    intro ys s s' hx hk h
    have other : (∀ a, x ≠ .form a) → (mungeItems rec xs >>= fun ys => M.pure (x :: ys)) s = (.ok ys, s') →
        s' = { s with forms := s'.forms } ∧ Kept s.forms s'.forms ∧ ∃ ys', ys = x :: ys' ∧
        MungedVal.MungedItems (fun x y => s.forms.length ≤ y ∧ Munged C g h0 s'.forms n x y) xs ys' := by
      intro _ h
      obtain ⟨ys', s1, h1, h2⟩ := bindOk h
      cases h2
      obtain ⟨e1, e2, e3⟩ := ih (fun a ha => hx a (List.mem_cons_of_mem _ ha)) hk h1
      exact ⟨e1, e2, ys', rfl, e3⟩
    cases x with
    | form a =>
      unfold mungeItems at h
      obtain ⟨b, s1, h1, h2⟩ := bindOk h
      obtain ⟨ys', s2, h3, h4⟩ := bindOk h2
      cases h4
      obtain ⟨c1, c2, c3, c4⟩ := hr a s b s1 (hx a List.mem_cons_self) hk h1
      obtain ⟨e1, e2, e3⟩ := ih (fun a ha => hx a (List.mem_cons_of_mem _ ha)) (hk.trans c3) h3
      refine ⟨?_, c3.trans e2, b, ys', rfl, ⟨by omega, c4.mono fun i o _ => e2 i o⟩, ?_⟩
      · rw [e1, c2]
      · exact MungedItems.imp (fun x y ⟨p, q⟩ => ⟨Nat.le_trans c3.length p, q⟩) e3
    | _ => exact other (fun a e => by cases e) h

theorem mungeVal_spec (hr : MungeSpec C g h0 n rec) {v w : Val} {s s' : St P} (hv : RefsBelow h0.length v)
    (hk : Kept h0 s.forms) (h : mungeVal rec v s = (.ok w, s')) :
    s' = { s with forms := s'.forms } ∧ Kept s.forms s'.forms ∧
      MungedVal (fun x y => s.forms.length ≤ y ∧ Munged C g h0 s'.forms n x y) v w := by
  cases v with
  | form a =>
    obtain ⟨b, s1, h1, h2⟩ := bindOk (show (rec a >>= fun b => M.pure (Val.form b)) s = (.ok w, s') from h)
    cases h2
    obtain ⟨c1, c2, c3, c4⟩ := hr a s b _ hv hk h1
    exact ⟨c2, c3, b, rfl, by omega, c4⟩
  | list xs =>
    obtain ⟨ys, s1, h1, h2⟩ := bindOk (show (mungeItems rec xs >>= fun ys => M.pure (Val.list ys)) s = (.ok w, s') from h)
    cases h2
    obtain ⟨c1, c2, c3⟩ := mungeItems_spec hr hv hk h1
    exact ⟨c1, c2, ys, rfl, c3⟩
  | tuple xs =>
    obtain ⟨ys, s1, h1, h2⟩ := bindOk (show (mungeItems rec xs >>= fun ys => M.pure (Val.list ys)) s = (.ok w, s') from h)
    cases h2
    obtain ⟨c1, c2, c3⟩ := mungeItems_spec hr hv hk h1
    exact ⟨c1, c2, ys, rfl, c3⟩
  | _ => cases h; exact ⟨rfl, .refl _, rfl⟩

/-- The state of the loop: the fields `done` are munged into `ps`. -/
structure MungeLoop (C : Classes) (g : Field → Val → Val) (h0 : List FormObj) (n : Nat) (oa : FormObj) (new : Nat)
    (done : List Field) (h : List FormObj) (ps : List (Field × Val)) : Prop where
  kept : Kept h0 h
  fresh : h0.length ≤ new
  obj : ∃ ob, h[new]? = some ob ∧ ob.cls = oa.cls ∧ ob.items = ps.map fun p => (p.1.key, p.2)
  fields : ps.map Prod.fst = done.filter (fun f => !(g f (lookField oa.items f)).isNONE)
  vals : ∀ p ∈ ps, MungedVal (fun x y => new < y ∧ Munged C g h0 h n x y) (g p.1 (lookField oa.items p.1)) p.2

theorem mungeLoop_spec (hr : MungeSpec C g h0 n rec) {id new : Nat} {oa : FormObj} (ha : h0[id]? = some oa)
    (hrefs : ∀ f, RefsBelow h0.length (g f (lookField oa.items f))) :
    ∀ {fs done : List Field} {s s' : St P} {ps : List (Field × Val)} {u : Unit},
      ((done ++ fs).map Field.key).Nodup → MungeLoop C g h0 n oa new done s.forms ps →
      mungeLoop rec (fun _ f v => M.pure (g f v)) id new fs s = (.ok u, s') →
      s' = { s with forms := s'.forms } ∧ (∀ i o, i ≠ new → s.forms[i]? = some o → s'.forms[i]? = some o) ∧
      ∃ ps', MungeLoop C g h0 n oa new (done ++ fs) s'.forms ps' := by
  intro fs
  induction fs with
  | nil => intro done s s' ps u _ hl h; cases h; exact ⟨rfl, fun _ _ _ e => e, ps, by simpa using hl⟩
  | cons f fs ih =>
    intro done s s' ps u hnd hl h
    unfold mungeLoop at h
    have hit : formItems id s = (.ok oa.items, s) := by
      unfold formItems
      rw [hl.kept _ _ ha]
      rfl
    rw [M.bind_ok hit, M.bind_ok (show M.pure (g f (lookField oa.items f)) s = (.ok _, s) from rfl)] at h
    have hsplit : done ++ f :: fs = (done ++ [f]) ++ fs := by simp
    rw [hsplit] at hnd ⊢
    split at h
    · rename_i hn
      refine ih hnd ⟨hl.kept, hl.fresh, hl.obj, ?_, hl.vals⟩ h
      rw [List.filter_append, hl.fields]
      simp [hn]
    · rename_i hn
      obtain ⟨w, s1, h1, h2⟩ := bindOk h
      obtain ⟨⟨⟩, s2, h3, h4⟩ := bindOk h2
      obtain ⟨c1, c2, c3⟩ := mungeVal_spec hr (hrefs f) hl.kept h1
      obtain ⟨ob, hob, hcls, hitems⟩ := hl.obj
      have hob1 := c2 _ _ hob
      have hlen : new < s.forms.length := (List.getElem?_eq_some_iff.1 hob).1
      have hs2 : s2 = { s1 with forms := s1.forms.modify new fun o => { o with items := dictSet o.items f.key w } } := by
        cases h3; rfl
      have hne : ∀ i o, i ≠ new → s1.forms[i]? = some o → s2.forms[i]? = some o := by
        intro i o hi ho
        rw [hs2]
        show (s1.forms.modify new _)[i]? = _
        rw [List.getElem?_modify, ho]
        simp [Ne.symm hi]
      have hfresh : ∀ kv ∈ ob.items, f.key.pyEq kv.1 = false := by
        intro kv hkv
        rw [hitems] at hkv
        obtain ⟨p, hp, rfl⟩ := List.mem_map.1 hkv
        have hp1 : p.1 ∈ done := by
          have : p.1 ∈ ps.map Prod.fst := List.mem_map_of_mem hp
          rw [hl.fields] at this
          exact (List.mem_filter.1 this).1
        rw [Bool.eq_false_iff, ne_eq, key_pyEq]
        intro e
        rw [List.map_append, List.map_append, List.append_assoc, List.nodup_append] at hnd
        exact hnd.2.2 _ (List.mem_map_of_mem hp1) f.key (by simp) e
      have hloop : MungeLoop C g h0 n oa new (done ++ [f]) s2.forms (ps ++ [(f, w)]) := by
        constructor
        · intro i o hi
          refine hne i o ?_ (c2 _ _ (hl.kept _ _ hi))
          have := (List.getElem?_eq_some_iff.1 hi).1
          have := hl.fresh
          omega
        · exact hl.fresh
        · refine ⟨{ ob with items := dictSet ob.items f.key w }, ?_, hcls, ?_⟩
          · rw [hs2]
            show (s1.forms.modify new _)[new]? = _
            rw [List.getElem?_modify, hob1]
            simp
          · show dictSet ob.items f.key w = _
            rw [dictSet_fresh hfresh, hitems]
            simp
        · rw [List.filter_append, List.map_append, hl.fields]
          simp [hn]
        · intro p hp
          rcases List.mem_append.1 hp with hp | hp
          · refine (hl.vals p hp).imp ?_
            rintro x y ⟨p1, p2⟩
            exact ⟨p1, p2.mono fun i o hi ho => hne i o (by omega) (c2 _ _ ho)⟩
          · simp at hp
            subst hp
            refine c3.imp ?_
            rintro x y ⟨p1, p2⟩
            exact ⟨by omega, p2.mono fun i o hi ho => hne i o (by omega) ho⟩
      obtain ⟨d1, d2, d3⟩ := ih hnd hloop h4
      refine ⟨?_, fun i o hi ho => d2 i o hi (hne i o hi (c2 _ _ ho)), d3⟩
      rw [d1, hs2, c1]

theorem formMunge_spec (hK : Distinct C) (hH : HeapOK h0)
    (hg : ∀ f v, RefsBelow h0.length v → RefsBelow h0.length (g f v)) :
    ∀ n, MungeSpec C g h0 n (formMunge (P := P) C (fun _ f v => M.pure (g f v)) n)
  | 0 => by intro id s b s' _ _ h; cases h
  | n + 1 => by
    intro id s b s' hid hk h
    obtain ⟨oa, ha⟩ : ∃ oa, h0[id]? = some oa := ⟨_, List.getElem?_eq_getElem hid⟩
    unfold formMunge at h
    have hc : formCls id s = (.ok oa.cls, s) := by unfold formCls; rw [hk _ _ ha]
    rw [M.bind_ok hc, M.bind_ok (show newForm oa.cls s = (.ok s.forms.length,
      { s with forms := s.forms ++ [{ cls := oa.cls, items := [] }] }) from rfl)] at h
    obtain ⟨u, s1, h1, h2⟩ := bindOk h
    cases h2
    have hrefs : ∀ f, RefsBelow h0.length (g f (lookField oa.items f)) := by
      intro f
      refine hg f _ ?_
      unfold lookField
      cases he : dictGet? oa.items f.key with
      | none => exact trivial
      | some v =>
        obtain ⟨kv, hkv, rfl⟩ := dictGet_mem he
        exact hH oa (List.mem_of_getElem? ha) kv hkv
    obtain ⟨c1, c2, ps, c3⟩ := mungeLoop_spec (formMunge_spec hK hH hg n) ha hrefs (done := []) (ps := [])
      (by simpa using hK oa.cls)
      { kept := hk.trans (.append _ _)
        fresh := hk.length
        obj := ⟨{ cls := oa.cls, items := [] }, by simp, rfl, rfl⟩
        fields := rfl
        vals := fun _ h => by cases h } h1
    refine ⟨rfl, c1, ?_, ?_⟩
    · intro i o hi
      refine c2 i o ?_ (Kept.append _ _ i o hi)
      have := (List.getElem?_eq_some_iff.1 hi).1
      omega
    · obtain ⟨ob, h3, h4, h5⟩ := c3.obj
      exact ⟨oa, ob, ha, h3, h4, ps, c3.fields, h5, c3.vals⟩
end

/-! ### C36 -/

theorem dictGet?_ofFields {ps : List (Field × Val)} (hnd : (ps.map fun p => p.1.key).Nodup) {p : Field × Val}
    (hp : p ∈ ps) : dictGet? (ps.map fun p => (p.1.key, p.2)) p.1.key = some p.2 := by
  induction ps with
  | nil => cases hp
  | cons q ps ih =>
    unfold dictGet? at ih ⊢
    simp only [List.map_cons, List.find?_cons]
    rw [List.map_cons, List.nodup_cons] at hnd
    rcases List.mem_cons.1 hp with rfl | hp'
    · rw [(key_pyEq p.1 p.1).2 rfl]
    · have : p.1.key.pyEq q.1.key = false := by
        rw [Bool.eq_false_iff, ne_eq, key_pyEq]
        intro e
        exact hnd.1 (List.mem_map.2 ⟨p, hp', e.symm⟩)
      rw [this]
      exact ih hnd.2 hp'

theorem dictGet?_ofFields_none {ps : List (Field × Val)} {f : Field} (h : ∀ p ∈ ps, p.1.key ≠ f.key) :
    dictGet? (ps.map fun p => (p.1.key, p.2)) f.key = none := by
  induction ps with
  | nil => rfl
  | cons q ps ih =>
    unfold dictGet? at ih ⊢
    simp only [List.map_cons, List.find?_cons]
    have : f.key.pyEq q.1.key = false := by
      rw [Bool.eq_false_iff, ne_eq, key_pyEq]
      exact h q List.mem_cons_self
    rw [this]
    exact ih fun p hp => h p (List.mem_cons_of_mem _ hp)

/-- C36.  `form.munge(func)` for a function of the field and the value, of any form in any heap: the result is a new
form, nothing else changes, and the new form is the munged one. -/
theorem C36_munge (hK : Distinct C) {g : Field → Val → Val} {s s' : St P} (hH : HeapOK s.forms)
    (hg : ∀ f v, RefsBelow s.forms.length v → RefsBelow s.forms.length (g f v)) {n id b : Nat}
    (hid : id < s.forms.length)
    (h : formMunge C (fun _ f v => M.pure (g f v)) n id s = (.ok b, s')) :
    b = s.forms.length ∧ s' = { s with forms := s'.forms } ∧ Kept s.forms s'.forms ∧
      Munged C g s.forms s'.forms n id b :=
  formMunge_spec hK hH hg n id s b s' hid (.refl _) h

/-- The entries of a munged form, by field: those for which the function gives `NONE` are left out, the others hold
what it gives, munged; no other keys. -/
theorem Munged.entry (hK : Distinct C) {g : Field → Val → Val} {h h' : List FormObj} {n a b : Nat}
    (hm : Munged C g h h' n a b) : ∃ oa ob, h[a]? = some oa ∧ h'[b]? = some ob ∧ ob.cls = oa.cls ∧
      (∀ f ∈ (C oa.cls).fields,
        ((g f (lookField oa.items f)).isNONE = true → dictGet? ob.items f.key = none) ∧
        ((g f (lookField oa.items f)).isNONE = false → ∃ w, dictGet? ob.items f.key = some w ∧
          MungedVal (fun x y => ∃ n, Munged C g h h' n x y) (g f (lookField oa.items f)) w)) ∧
      (∀ kv ∈ ob.items, ∃ f ∈ (C oa.cls).fields, kv.1 = f.key ∧ (g f (lookField oa.items f)).isNONE = false) := by
  cases n with
  | zero => exact hm.elim
  | succ n =>
    obtain ⟨oa, ob, h1, h2, h3, ps, h4, h5, h6⟩ := hm
    have hnd := hK oa.cls
    have hmem : ∀ p ∈ ps, p.1 ∈ (C oa.cls).fields ∧ (g p.1 (lookField oa.items p.1)).isNONE = false := by
      intro p hp
      have : p.1 ∈ ps.map Prod.fst := List.mem_map_of_mem hp
      rw [h4, List.mem_filter] at this
      simpa using this
    have hps : (ps.map fun p => p.1.key).Nodup := by
      have e : (ps.map fun p => p.1.key) = (ps.map Prod.fst).map Field.key := by simp
      rw [e, h4]
      exact hnd.sublist (List.filter_sublist.map _)
    have huniq : ∀ f ∈ (C oa.cls).fields, ∀ f' ∈ (C oa.cls).fields, f.key = f'.key → f = f' := by
      intro f hf f' hf' e
      obtain ⟨i, hi⟩ := List.getElem?_of_mem hf
      obtain ⟨j, hj⟩ := List.getElem?_of_mem hf'
      have hi' : ((C oa.cls).fields.map Field.key)[i]? = some f.key := by simp [hi]
      have hj' : ((C oa.cls).fields.map Field.key)[j]? = some f.key := by simp [hj, e]
      have hij : i = j := (List.getElem?_inj (List.getElem?_eq_some_iff.1 hi').1 hnd).1 (hi'.trans hj'.symm)
      subst hij
      exact Option.some.inj (hi.symm.trans hj)
    refine ⟨oa, ob, h1, h2, h3, fun f hf => ⟨fun hn => ?_, fun hn => ?_⟩, fun kv hkv => ?_⟩
    · rw [h5]
      refine dictGet?_ofFields_none fun p hp e => ?_
      have := hmem p hp
      rw [huniq p.1 this.1 f hf e, hn] at this
      cases this.2
    · have : f ∈ ps.map Prod.fst := by
        rw [h4, List.mem_filter]
        exact ⟨hf, by simp [hn]⟩
      obtain ⟨p, hp, rfl⟩ := List.mem_map.1 this
      refine ⟨p.2, by rw [h5]; exact dictGet?_ofFields hps hp, (h6 p hp).imp ?_⟩
      rintro x y ⟨-, hxy⟩
      exact ⟨n, hxy⟩
    · rw [h5] at hkv
      obtain ⟨p, hp, rfl⟩ := List.mem_map.1 hkv
      exact ⟨p.1, (hmem p hp).1, rfl, (hmem p hp).2⟩

/-- C36, the identity: every declared field that holds a value holds it in the result (a form munged, a tuple as a
list); there are no other entries. -/
theorem C36_identity (hK : Distinct C) {s s' : St P} (hH : HeapOK s.forms) {n id b : Nat} (hid : id < s.forms.length)
    (h : formMunge C (fun _ _ v => M.pure v) n id s = (.ok b, s')) :
    ∃ oa ob, s.forms[id]? = some oa ∧ s'.forms[b]? = some ob ∧ ob.cls = oa.cls ∧
      (∀ f ∈ (C oa.cls).fields, ∀ v, dictGet? oa.items f.key = some v → v.isNONE = false →
        ∃ w, dictGet? ob.items f.key = some w ∧
          MungedVal (fun x y => ∃ n, Munged C (fun _ v => v) s.forms s'.forms n x y) v w) ∧
      (∀ kv ∈ ob.items, ∃ f ∈ (C oa.cls).fields, kv.1 = f.key ∧ (dictGet? oa.items f.key).isSome) := by
  obtain ⟨-, -, -, hm⟩ := C36_munge (g := fun _ v => v) hK hH (fun _ _ h => h) hid h
  obtain ⟨oa, ob, h1, h2, h3, h4, h5⟩ := hm.entry hK
  refine ⟨oa, ob, h1, h2, h3, fun f hf v hv hn => ?_, fun kv hkv => ?_⟩
  · have e : lookField oa.items f = v := by unfold lookField; rw [hv]; rfl
    have := (h4 f hf).2
    rw [e] at this
    exact this hn
  · obtain ⟨f, hf, h6, h7⟩ := h5 kv hkv
    refine ⟨f, hf, h6, ?_⟩
    unfold lookField at h7
    cases hd : dictGet? oa.items f.key with
    | some v => rfl
    | none => rw [hd] at h7; cases h7

/-- The forms below form `a` that `g` lets `munge` see are at most `n` deep. -/
def Shallow (C : Classes) (g : Field → Val → Val) (h : List FormObj) : Nat → Nat → Prop
  | 0, _ => False
  | n + 1, a => ∃ oa, h[a]? = some oa ∧ ∀ f ∈ (C oa.cls).fields, ∀ b, Below b (g f (lookField oa.items f)) →
      Shallow C g h n b
where
  /-- the forms a value refers to directly or as items -/
  Below (b : Nat) (v : Val) : Prop :=
    match v with
    | .form a => a = b
    | .list xs => Val.form b ∈ xs
    | .tuple xs => Val.form b ∈ xs
    | _ => False

theorem mungeItems_total {g : Field → Val → Val} {h0 : List FormObj} {n : Nat} {rec : Nat → M P Nat}
    (hr : MungeSpec C g h0 n rec) : ∀ {xs : List Val} {s : St P}, (∀ a, Val.form a ∈ xs → a < h0.length) →
    (∀ a, Val.form a ∈ xs → ∀ s : St P, Kept h0 s.forms → ∃ b s', rec a s = (.ok b, s')) → Kept h0 s.forms →
    ∃ ys s', mungeItems rec xs s = (.ok ys, s')
  | [], s, _, _, _ => ⟨[], s, rfl⟩
  | x :: xs, s, hx, ht, hk => by
    cases x with
    | form a =>
      obtain ⟨b, s1, h1⟩ := ht a List.mem_cons_self s hk
      obtain ⟨-, -, c3, -⟩ := hr a s b s1 (hx a List.mem_cons_self) hk h1
      obtain ⟨ys, s2, h2⟩ := mungeItems_total hr (xs := xs) (fun a ha => hx a (List.mem_cons_of_mem _ ha))
        (fun a ha => ht a (List.mem_cons_of_mem _ ha)) (hk.trans c3)
      refine ⟨.form b :: ys, s2, ?_⟩
      unfold mungeItems
      rw [M.bind_ok h1, M.bind_ok h2]
      rfl
    | _ =>
      obtain ⟨ys, s2, h2⟩ := mungeItems_total hr (xs := xs) (fun a ha => hx a (List.mem_cons_of_mem _ ha))
        (fun a ha => ht a (List.mem_cons_of_mem _ ha)) hk
      exact ⟨_ :: ys, s2, by unfold mungeItems; rw [M.bind_ok h2]; rfl⟩

theorem formMunge_total (hK : Distinct C) {g : Field → Val → Val} {h0 : List FormObj} (hH : HeapOK h0)
    (hg : ∀ f v, RefsBelow h0.length v → RefsBelow h0.length (g f v)) : ∀ {n id : Nat} {s : St P},
    Shallow C g h0 n id → Kept h0 s.forms →
    ∃ b s', formMunge C (fun _ f v => M.pure (g f v)) n id s = (.ok b, s')
  | 0, _, _, hsh, _ => hsh.elim
  | n + 1, id, s, hsh, hk => by
    obtain ⟨oa, ha, hsub⟩ := hsh
    have hr := formMunge_spec (P := P) (g := g) hK hH hg n
    have ih := fun {id : Nat} {s : St P} => formMunge_total (g := g) hK hH hg (n := n) (id := id) (s := s)
    have hrefs : ∀ f, RefsBelow h0.length (g f (lookField oa.items f)) := by
      intro f
      refine hg f _ ?_
      unfold lookField
      cases he : dictGet? oa.items f.key with
      | none => exact trivial
      | some v =>
        obtain ⟨kv, hkv, rfl⟩ := dictGet_mem he
        exact hH oa (List.mem_of_getElem? ha) kv hkv
    have hc : formCls id s = (.ok oa.cls, s) := by unfold formCls; rw [hk _ _ ha]
    unfold formMunge
    rw [M.bind_ok hc, M.bind_ok (show newForm oa.cls s = (.ok s.forms.length,
      { s with forms := s.forms ++ [{ cls := oa.cls, items := [] }] }) from rfl)]
    have loop : ∀ (fs : List Field) (t : St P), (∀ f ∈ fs, f ∈ (C oa.cls).fields) → Kept h0 t.forms →
        ∃ s', mungeLoop (formMunge C (fun _ f v => M.pure (g f v)) n) (fun _ f v => M.pure (g f v)) id s.forms.length
          fs t = (.ok (), s') := by
      intro fs
      induction fs with
      | nil => intro t _ _; exact ⟨t, rfl⟩
      | cons f fs ihf =>
        intro t hf hkt
        unfold mungeLoop
        have hit : formItems id t = (.ok oa.items, t) := by
          unfold formItems
          rw [hkt _ _ ha]
          rfl
        rw [M.bind_ok hit, M.bind_ok (show M.pure (g f (lookField oa.items f)) t = (.ok _, t) from rfl)]
        have hf' : ∀ f ∈ fs, f ∈ (C oa.cls).fields := fun x hx => hf x (List.mem_cons_of_mem _ hx)
        have hb := hsub f (hf f List.mem_cons_self)
        have hrf := hrefs f
        generalize g f (lookField oa.items f) = v at hb hrf
        split
        · exact ihf t hf' hkt
        · obtain ⟨w, t1, h1⟩ : ∃ w t1, mungeVal (formMunge C (fun _ f v => M.pure (g f v)) n) v t = (.ok w, t1) := by
            have items : ∀ xs, (∀ a, Val.form a ∈ xs → a < h0.length) → (∀ b, Val.form b ∈ xs → Shallow C g h0 n b) →
                ∃ w t1, (mungeItems (formMunge C (fun _ f v => M.pure (g f v)) n) xs >>= fun ys => M.pure (Val.list ys)) t =
                  (.ok w, t1) := by
              intro xs h1 h2
              obtain ⟨ys, t1, h3⟩ := mungeItems_total hr h1 (fun a ha s hs => ih (h2 a ha) hs) hkt
              exact ⟨_, t1, by rw [M.bind_ok h3]; rfl⟩
            cases v with
            | form a =>
              obtain ⟨b, t1, h1⟩ := ih (hb a rfl) hkt
              exact ⟨.form b, t1, M.bind_ok h1⟩
            | list xs => exact items xs hrf hb
            | tuple xs => exact items xs hrf hb
            | _ => exact ⟨_, t, rfl⟩
          obtain ⟨-, c2, -⟩ := mungeVal_spec hr hrf hkt h1
          rw [M.bind_ok h1, M.bind_ok (show formSet s.forms.length f.key w t1 = (.ok (), { t1 with
            forms := t1.forms.modify s.forms.length fun o => { o with items := dictSet o.items f.key w } }) from rfl)]
          refine ihf _ hf' ?_
          intro i o hi
          have hlt := (List.getElem?_eq_some_iff.1 hi).1
          have := hk.length
          show (t1.forms.modify _ _)[i]? = _
          rw [List.getElem?_modify, (hkt.trans c2) _ _ hi]
          have : s.forms.length ≠ i := by omega
          simp [this]
    obtain ⟨s', h1⟩ := loop (C oa.cls).fields { s with forms := s.forms ++ [{ cls := oa.cls, items := [] }] }
      (fun _ h => h) (hk.trans (.append s.forms _))
    exact ⟨s.forms.length, s', by rw [M.bind_ok h1]; rfl⟩

/-- C36: on a finite tree of forms `munge` returns. -/
theorem C36_total (hK : Distinct C) {g : Field → Val → Val} {s : St P} (hH : HeapOK s.forms)
    (hg : ∀ f v, RefsBelow s.forms.length v → RefsBelow s.forms.length (g f v)) {n id : Nat}
    (hsh : Shallow C g s.forms n id) :
    ∃ b s', formMunge C (fun _ f v => M.pure (g f v)) n id s = (.ok b, s') :=
  formMunge_total hK hH hg hsh (.refl _)

/-! ### C35 -/

theorem filterFunc_refs {N : Nat} (tags : List String) (inv : Bool) (f : Field) (v : Val) (h : RefsBelow N v) :
    RefsBelow N (filterFunc tags inv f v) := by
  have : filterFunc tags inv f v = v ∨ filterFunc tags inv f v = .NONE := by
    unfold filterFunc
    cases hasAnyTag f tags <;> cases inv <;> simp
  rcases this with e | e <;> rw [e]
  · exact h
  · trivial

/-- C35.  `form.filter(*tags)` and `form.filter(*tags, inv=True)` of the same form.  Both have
the class of the form; a field of the form that holds a value is an entry of exactly one of the two: of the first if
it has one of the tags, of the second if it has none, with that value (forms in it filtered in turn); nothing else is an entry of either. -/
theorem C35_partition (hK : Distinct C) {s s1 s2 : St P} (hH : HeapOK s.forms) {tags : List String} {n m id a b : Nat}
    (hid : id < s.forms.length) (h1 : formFilter C tags false n id s = (.ok a, s1))
    (h2 : formFilter C tags true m id s = (.ok b, s2)) :
    ∃ o oa ob, s.forms[id]? = some o ∧ s1.forms[a]? = some oa ∧ s2.forms[b]? = some ob ∧
      oa.cls = o.cls ∧ ob.cls = o.cls ∧
      (∀ f ∈ (C o.cls).fields, ∀ v, dictGet? o.items f.key = some v → v.isNONE = false →
        ((∃ t ∈ tags, t ∈ f.core.tags) → (∃ w, dictGet? oa.items f.key = some w ∧ MungedVal
            (fun x y => ∃ n, Munged C (filterFunc tags false) s.forms s1.forms n x y) v w) ∧
          dictGet? ob.items f.key = none) ∧
        ((∀ t ∈ tags, t ∉ f.core.tags) → (∃ w, dictGet? ob.items f.key = some w ∧ MungedVal
            (fun x y => ∃ n, Munged C (filterFunc tags true) s.forms s2.forms n x y) v w) ∧
          dictGet? oa.items f.key = none)) ∧
      (∀ kv ∈ oa.items ++ ob.items, ∃ f ∈ (C o.cls).fields, kv.1 = f.key ∧ (dictGet? o.items f.key).isSome) := by
  obtain ⟨-, -, -, m1⟩ := C36_munge hK hH (filterFunc_refs tags false) hid h1
  obtain ⟨-, -, -, m2⟩ := C36_munge hK hH (filterFunc_refs tags true) hid h2
  obtain ⟨o, oa, a1, a2, a3, a4, a5⟩ := m1.entry hK
  obtain ⟨o', ob, b1, b2, b3, b4, b5⟩ := m2.entry hK
  cases a1.symm.trans b1
  have hsome : ∀ {inv : Bool} {f : Field}, (filterFunc tags inv f (lookField o.items f)).isNONE = false →
      (dictGet? o.items f.key).isSome := by
    intro inv f h
    cases hd : dictGet? o.items f.key with
    | some v => rfl
    | none =>
      have e : filterFunc tags inv f (lookField o.items f) = .NONE := by
        unfold filterFunc lookField
        rw [hd]
        simp
      rw [e] at h
      cases h
  refine ⟨o, oa, ob, a1, a2, b2, a3, b3, fun f hf v hv hn => ⟨?_, ?_⟩, ?_⟩
  · rintro ⟨t, ht, hft⟩
    have hh : hasAnyTag f tags = true := by
      unfold hasAnyTag
      rw [List.any_eq_true]
      exact ⟨t, ht, by simpa using hft⟩
    have e1 : filterFunc tags false f (lookField o.items f) = v := by
      unfold filterFunc lookField; rw [hv]; simp [hh]
    have e2 : filterFunc tags true f (lookField o.items f) = .NONE := by
      unfold filterFunc; simp [hh]
    obtain ⟨w, hw, hv⟩ := (a4 f hf).2 (by rw [e1]; exact hn)
    rw [e1] at hv
    exact ⟨⟨w, hw, hv⟩, (b4 f hf).1 (by rw [e2]; rfl)⟩
  · intro ht
    have hh : hasAnyTag f tags = false := by
      unfold hasAnyTag
      rw [List.any_eq_false]
      intro t h
      simpa using ht t h
    have e1 : filterFunc tags true f (lookField o.items f) = v := by
      unfold filterFunc lookField; rw [hv]; simp [hh]
    have e2 : filterFunc tags false f (lookField o.items f) = .NONE := by
      unfold filterFunc; simp [hh]
    obtain ⟨w, hw, hv⟩ := (b4 f hf).2 (by rw [e1]; exact hn)
    rw [e1] at hv
    exact ⟨⟨w, hw, hv⟩, (a4 f hf).1 (by rw [e2]; rfl)⟩
  · intro kv hkv
    rcases List.mem_append.1 hkv with hkv | hkv
    · obtain ⟨f, hf, h6, h7⟩ := a5 kv hkv
      exact ⟨f, hf, h6, hsome h7⟩
    · obtain ⟨f, hf, h6, h7⟩ := b5 kv hkv
      exact ⟨f, hf, h6, hsome h7⟩

end Pilo
