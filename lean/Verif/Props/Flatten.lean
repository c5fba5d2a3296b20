import Verif.Props.Munge

/-!
# C37, C38: `form.copy` and `form.flatten`
-/

namespace Pilo
variable {P : Type} {C : Classes}

/-! ### C37 -/

/-- What programs do to the entries of forms: `form[k] = v`, `del form[k]`, `form.clear()`. -/
inductive Update where
  | set (id : Nat) (k v : Val)
  | del (id : Nat) (k : Val)
  | clear (id : Nat)

/-- The form an update is made to. -/
def Update.form : Update → Nat
  | .set id _ _ => id
  | .del id _ => id
  | .clear id => id

/-- Its effect. -/
def Update.run : Update → M P Unit
  | .set id k v => formSet id k v
  | .del id k => formDel id k
  | .clear id => formModify id fun _ => []

def runUpdates : List Update → M P Unit
  | [] => M.pure ()
  | u :: us => do
    u.run
    runUpdates us

/-- The keys of a dict: no two are equal. -/
def DictKeys (d : List (Val × Val)) : Prop := d.Pairwise fun x y => y.1.pyEq x.1 = false

theorem copyLoop_run {dst : Nat} : ∀ {kvs : List (Val × Val)} {s : St P} {o : FormObj},
    s.forms[dst]? = some o → DictKeys (o.items ++ kvs) →
    copyLoop dst kvs s = (.ok (), { s with forms := s.forms.set dst { o with items := o.items ++ kvs } })
  | [], s, o, ho, _ => by
    have : s.forms.set dst { o with items := o.items ++ [] } = s.forms := by
      rw [List.append_nil]
      refine List.ext_getElem? fun i => ?_
      rw [List.getElem?_set]
      split
      · rename_i h; subst h
        split
        · exact ho.symm
        · rename_i h
          exact absurd (List.getElem?_eq_some_iff.1 ho).1 h
      · rfl
    rw [this]
    rfl
  | (k, v) :: kvs, s, o, ho, hk => by
    have hlt := (List.getElem?_eq_some_iff.1 ho).1
    have hsplit : o.items ++ (k, v) :: kvs = (o.items ++ [(k, v)]) ++ kvs := by simp
    have hfresh : dictSet o.items k v = o.items ++ [(k, v)] := by
      refine dictSet_fresh fun kv hkv => ?_
      rw [hsplit] at hk
      exact (List.pairwise_append.1 (List.pairwise_append.1 hk).1).2.2 _ hkv _ List.mem_cons_self
    have h1 : formSet dst k v s = (.ok (), { s with forms := s.forms.set dst { o with items := o.items ++ [(k, v)] } }) := by
      show ((.ok (), { s with forms := s.forms.modify dst _ }) : Except Exc Unit × St P) = _
      congr 2
      refine List.ext_getElem? fun i => ?_
      rw [List.getElem?_modify, List.getElem?_set]
      split
      · rename_i h; subst h
        simp [hlt, (List.getElem?_eq_some_iff.1 ho).2, hfresh]
      · simp
    unfold copyLoop
    rw [M.bind_ok h1]
    have := copyLoop_run (kvs := kvs) (s := { s with forms := s.forms.set dst { o with items := o.items ++ [(k, v)] } })
      (o := { o with items := o.items ++ [(k, v)] }) (dst := dst) (by simp [hlt]) (by rw [← hsplit]; exact hk)
    rw [this]
    simp [List.set_set]

theorem formCopy_run {id : Nat} {s : St P} {o : FormObj} (ho : s.forms[id]? = some o) (hk : DictKeys o.items) :
    formCopy id s = (.ok s.forms.length, { s with forms := s.forms ++ [{ cls := o.cls, items := o.items }] }) := by
  have hlt := (List.getElem?_eq_some_iff.1 ho).1
  unfold formCopy
  have hc : formCls id s = (.ok o.cls, s) := by unfold formCls; rw [ho]
  rw [M.bind_ok hc, M.bind_ok (show newForm o.cls s = (.ok s.forms.length,
    { s with forms := s.forms ++ [{ cls := o.cls, items := [] }] }) from rfl)]
  have hi : formItems id { s with forms := s.forms ++ [{ cls := o.cls, items := [] }] } =
      (.ok o.items, { s with forms := s.forms ++ [{ cls := o.cls, items := [] }] }) := by
    unfold formItems
    dsimp only
    rw [List.getElem?_append_left hlt, ho]
    rfl
  rw [M.bind_ok hi, M.bind_ok (copyLoop_run (o := { cls := o.cls, items := [] }) (by simp) (by simpa using hk))]
  simp [M.pure]

theorem runUpdates_other {b : Nat} : ∀ {us : List Update} {s : St P}, (∀ u ∈ us, u.form ≠ b) →
    (runUpdates us s).1 = .ok () ∧ (runUpdates us s).2.forms[b]? = s.forms[b]?
  | [], s, _ => ⟨rfl, rfl⟩
  | u :: us, s, h => by
    obtain ⟨f, hf⟩ : ∃ f, u.run (P := P) = formModify u.form f := by
      cases u with
      | set id k v => exact ⟨(dictSet · k v), rfl⟩
      | del id k => exact ⟨(dictDel · k), rfl⟩
      | clear id => exact ⟨fun _ => [], rfl⟩
    have h1 : u.run s = (.ok (), { s with forms := s.forms.modify u.form fun o => { o with items := f o.items } }) := by
      rw [hf]; rfl
    unfold runUpdates
    rw [M.bind_ok h1]
    obtain ⟨h2, h3⟩ := runUpdates_other (us := us)
      (s := { s with forms := s.forms.modify u.form fun o => { o with items := f o.items } })
      fun u hu => h u (List.mem_cons_of_mem _ hu)
    refine ⟨h2, h3.trans ?_⟩
    have := h u List.mem_cons_self
    simp [this]

/-- C37.  `form.copy()` of any form gives a new form of the same class with the same entries, and changes nothing
else.  Whatever is then done to the entries of either, the other keeps its own. -/
theorem C37_copy {id : Nat} {s : St P} {o : FormObj} (ho : s.forms[id]? = some o) (hk : DictKeys o.items) :
    ∃ b s', formCopy id s = (.ok b, s') ∧ b ≠ id ∧ s.forms[b]? = none ∧ s' = { s with forms := s'.forms } ∧
      Kept s.forms s'.forms ∧ (∃ c, s'.forms[b]? = some c ∧ c.cls = o.cls ∧ c.items = o.items) ∧
      (∀ us : List Update, (∀ u ∈ us, u.form ≠ b) → (runUpdates us s').2.forms[b]? = s'.forms[b]?) ∧
      (∀ us : List Update, (∀ u ∈ us, u.form ≠ id) → (runUpdates us s').2.forms[id]? = some o) := by
  have hlt := (List.getElem?_eq_some_iff.1 ho).1
  refine ⟨_, _, formCopy_run ho hk, by omega, by simp, rfl, .append _ _, ⟨{ cls := o.cls, items := o.items }, by simp, rfl, rfl⟩, fun us h => ?_, fun us h => ?_⟩
  · exact (runUpdates_other h).2
  · rw [(runUpdates_other h).2]
    exact Kept.append _ _ _ _ ho

/-! ### C38 -/

/-- `v` is reached from form `a` through the declared fields at the positions `is`, which are the fields `p`; it is
neither a form nor one of the constants. -/
inductive LeafAt (C : Classes) (h : List FormObj) : Nat → List Nat → List Field → Val → Prop
  | here {a i : Nat} {o : FormObj} {f : Field} {v : Val} (ho : h[a]? = some o) (hf : (C o.cls).fields[i]? = some f)
      (hv : dictGet? o.items f.key = some v) (hi : v.isIgnore = false) (hn : ∀ b, v ≠ .form b) : LeafAt C h a [i] [f] v
  | deep {a i b : Nat} {o : FormObj} {f : Field} {is : List Nat} {p : List Field} {v : Val} (ho : h[a]? = some o)
      (hf : (C o.cls).fields[i]? = some f) (hv : dictGet? o.items f.key = some (.form b))
      (hb : LeafAt C h b is p v) : LeafAt C h a (i :: is) (f :: p) v

/-- Depth first, in the order of declaration. -/
abbrev Earlier : List Nat → List Nat → Prop := List.Lex (· < ·)

/-- `out` lists, in order, the leaves reached from `a`, with `path` put in front of their fields; only those whose
first position is at least `from_`. -/
def Lists (C : Classes) (h : List FormObj) (a : Nat) (path : List Field) (from_ : Nat)
    (out : List (List Field × Val)) : Prop :=
  ∃ ls : List (List Nat × List Field × Val), out = ls.map (fun l => (path ++ l.2.1, l.2.2)) ∧
    (ls.map Prod.fst).Pairwise Earlier ∧
    ∀ is p v, (is, p, v) ∈ ls ↔ LeafAt C h a is p v ∧ ∃ j t, is = j :: t ∧ from_ ≤ j

theorem LeafAt.unique {h : List FormObj} {a : Nat} {is : List Nat} {p p' : List Field} {v v' : Val}
    (h1 : LeafAt C h a is p v) (h2 : LeafAt C h a is p' v') : p = p' ∧ v = v' := by
  induction h1 generalizing p' v' with
  | here ho hf hv hi hn =>
    cases h2 with
    | here ho' hf' hv' hi' hn' =>
      cases ho.symm.trans ho'
      cases hf.symm.trans hf'
      cases hv.symm.trans hv'
      exact ⟨rfl, rfl⟩
    | deep ho' hf' hv' hb' => cases hb'
  | deep ho hf hv hb ih =>
    cases h2 with
    | here => cases hb
    | deep ho' hf' hv' hb' =>
      cases ho.symm.trans ho'
      cases hf.symm.trans hf'
      cases hv.symm.trans hv'
      obtain ⟨rfl, rfl⟩ := ih hb'
      exact ⟨rfl, rfl⟩

theorem LeafAt.cons_iff {h : List FormObj} {a j : Nat} {o : FormObj} {f : Field} (ho : h[a]? = some o)
    (hf : (C o.cls).fields[j]? = some f) {t : List Nat} {p : List Field} {v : Val} :
    LeafAt C h a (j :: t) p v ↔
      (t = [] ∧ p = [f] ∧ dictGet? o.items f.key = some v ∧ v.isIgnore = false ∧ ∀ b, v ≠ .form b) ∨
      (∃ b p', p = f :: p' ∧ dictGet? o.items f.key = some (.form b) ∧ LeafAt C h b t p' v) := by
  constructor
  · intro hl
    cases hl with
    | here ho' hf' hv hi hn =>
      cases ho.symm.trans ho'
      cases hf.symm.trans hf'
      exact .inl ⟨rfl, rfl, hv, hi, hn⟩
    | deep ho' hf' hv hb =>
      cases ho.symm.trans ho'
      cases hf.symm.trans hf'
      exact .inr ⟨_, _, rfl, hv, hb⟩
  · rintro (⟨rfl, rfl, hv, hi, hn⟩ | ⟨b, p', rfl, hv, hb⟩)
    · exact .here ho hf hv hi hn
    · exact .deep ho hf hv hb

/-- The leaves from position `i` on are those at `i` and those from `i + 1` on. -/
theorem Lists.step {h : List FormObj} {a i : Nat} {path : List Field} {rest out : List (List Field × Val)}
    {ls : List (List Nat × List Field × Val)} (hout : out = ls.map (fun l => (path ++ l.2.1, l.2.2)))
    (hord : (ls.map Prod.fst).Pairwise Earlier)
    (hls : ∀ is p v, (is, p, v) ∈ ls ↔ LeafAt C h a is p v ∧ ∃ t, is = i :: t)
    (hr : Lists C h a path (i + 1) rest) : Lists C h a path i (out ++ rest) := by
  obtain ⟨ms, h1, h2, h3⟩ := hr
  refine ⟨ls ++ ms, by rw [hout, h1, List.map_append], ?_, fun is p v => ?_⟩
  · rw [List.map_append, List.pairwise_append]
    refine ⟨hord, h2, fun x hx y hy => ?_⟩
    obtain ⟨⟨is, p, v⟩, hm, rfl⟩ := List.mem_map.1 hx
    obtain ⟨⟨js, q, w⟩, hn, rfl⟩ := List.mem_map.1 hy
    obtain ⟨-, t, e⟩ := (hls _ _ _).1 hm
    obtain ⟨-, j, u, e', hj⟩ := (h3 _ _ _).1 hn
    dsimp only
    rw [e, e']
    exact .rel (by omega)
  · rw [List.mem_append, hls, h3]
    constructor
    · rintro (⟨hl, t, rfl⟩ | ⟨hl, j, t, rfl, hj⟩)
      · exact ⟨hl, i, t, rfl, Nat.le_refl _⟩
      · exact ⟨hl, j, t, rfl, by omega⟩
    · rintro ⟨hl, j, t, rfl, hj⟩
      by_cases e : j = i
      · subst e; exact .inl ⟨hl, t, rfl⟩
      · exact .inr ⟨hl, j, t, rfl, by omega⟩

theorem flattenLoop_spec {rec : Nat → List Field → M P (List (List Field × Val))} {s : St P} {id : Nat} {o : FormObj}
    (ho : s.forms[id]? = some o) {path : List Field}
    (hr : ∀ b q out s', rec b q s = (.ok out, s') → s' = s ∧ Lists C s.forms b q 0 out) :
    ∀ {fs : List Field} {i : Nat} {out : List (List Field × Val)} {s' : St P}, (C o.cls).fields.drop i = fs →
      flattenLoop rec id path fs s = (.ok out, s') → s' = s ∧ Lists C s.forms id path i out := by
  intro fs
  induction fs with
  | nil =>
    intro i out s' hd h
    cases h
    refine ⟨rfl, [], rfl, .nil, fun is p v => ⟨fun h => (by cases h), ?_⟩⟩
    rintro ⟨hl, j, t, rfl, hj⟩
    have hnone : (C o.cls).fields[j]? = none := by
      rw [List.getElem?_eq_none_iff]
      have := List.drop_eq_nil_iff.1 hd
      omega
    cases hl with
    | here ho' hf => cases ho.symm.trans ho'; rw [hnone] at hf; cases hf
    | deep ho' hf => cases ho.symm.trans ho'; rw [hnone] at hf; cases hf
  | cons f fs ih =>
    intro i out s' hd h
    have hf : (C o.cls).fields[i]? = some f := by
      have := congrArg List.head? hd
      rwa [List.head?_drop] at this
    have hd' : (C o.cls).fields.drop (i + 1) = fs := by
      rw [← List.drop_drop, hd]
      rfl
    unfold flattenLoop at h
    have hit : formItems id s = (.ok o.items, s) := by
      unfold formItems
      rw [ho]
      rfl
    rw [M.bind_ok hit] at h
    -- a field that gives nothing
    have skip : (∀ t p v, ¬ LeafAt C s.forms id (i :: t) p v) → flattenLoop rec id path fs s = (.ok out, s') →
        s' = s ∧ Lists C s.forms id path i out := by
      intro hno h
      obtain ⟨e, hl⟩ := ih hd' h
      refine ⟨e, ?_⟩
      have := Lists.step (out := []) (ls := []) (i := i) rfl .nil (fun is p v => ⟨fun h => (by cases h), ?_⟩) hl
      · simpa using this
      · rintro ⟨hl, t, rfl⟩
        exact (hno _ _ _ hl).elim
    cases hg : dictGet? o.items f.key with
    | none =>
      rw [hg] at h
      refine skip (fun t p v hl => ?_) h
      rcases (LeafAt.cons_iff ho hf).1 hl with ⟨-, -, e, -⟩ | ⟨b, p', -, e, -⟩ <;> rw [hg] at e <;> cases e
    | some v =>
      rw [hg] at h
      dsimp only at h
      split at h
      · rename_i hi
        refine skip (fun t p w hl => ?_) h
        rcases (LeafAt.cons_iff ho hf).1 hl with ⟨-, -, e, e', -⟩ | ⟨b, p', -, e, -⟩ <;> rw [hg] at e <;> cases e
        · rw [hi] at e'; cases e'
        · cases hi
      · rename_i hi
        have leaf : (∀ b, v ≠ .form b) →
            (flattenLoop rec id path fs >>= fun ys => M.pure ((path ++ [f], v) :: ys)) s = (.ok out, s') →
            s' = s ∧ Lists C s.forms id path i out := by
          intro hn h
          obtain ⟨ys, s1, h1, h2⟩ := bindOk h
          cases h2
          obtain ⟨e, hl⟩ := ih hd' h1
          refine ⟨e, ?_⟩
          have := Lists.step (out := [(path ++ [f], v)]) (ls := [([i], [f], v)]) (i := i) rfl
            (List.pairwise_singleton _ _) (fun is p w => ?_) hl
          · exact this
          · constructor
            · intro h
              cases List.mem_singleton.1 h
              exact ⟨.here ho hf hg (by simpa using hi) hn, [], rfl⟩
            · rintro ⟨hl, t, rfl⟩
              rcases (LeafAt.cons_iff ho hf).1 hl with ⟨rfl, rfl, e, -⟩ | ⟨b, p', -, e, -⟩ <;> rw [hg] at e <;> cases e
              · exact List.mem_cons_self
              · exact (hn _ rfl).elim
        cases v with
        | form b =>
          obtain ⟨xs, s1, h1, h2⟩ := bindOk
            (show (rec b (path ++ [f]) >>= fun xs => flattenLoop rec id path fs >>= fun ys => M.pure (xs ++ ys)) s =
              (.ok out, s') from h)
          obtain ⟨rfl, ls, hx1, hx2, hx3⟩ := hr _ _ _ _ h1
          obtain ⟨ys, s2, h3, h4⟩ := bindOk h2
          cases h4
          obtain ⟨e, hl⟩ := ih hd' h3
          refine ⟨e, ?_⟩
          refine Lists.step (ls := ls.map fun l => (i :: l.1, f :: l.2.1, l.2.2)) (i := i) ?_ ?_ (fun is p w => ?_) hl
          · rw [hx1]
            simp
          · rw [List.map_map]
            rw [List.pairwise_map] at hx2 ⊢
            exact hx2.imp fun h => .cons h
          · rw [List.mem_map]
            constructor
            · rintro ⟨⟨js, q, u⟩, hm, e⟩
              cases e
              exact ⟨.deep ho hf hg ((hx3 _ _ _).1 hm).1, js, rfl⟩
            · rintro ⟨hl, t, rfl⟩
              rcases (LeafAt.cons_iff ho hf).1 hl with ⟨-, -, e, -, hn⟩ | ⟨b', p', rfl, e, hb⟩ <;> rw [hg] at e <;> cases e
              · exact (hn _ rfl).elim
              · refine ⟨(t, p', w), (hx3 _ _ _).2 ⟨hb, ?_⟩, rfl⟩
                cases hb <;> exact ⟨_, _, rfl, Nat.zero_le _⟩
        | _ => exact leaf (fun b e => by cases e) h

theorem flattenFrom_spec : ∀ {n id : Nat} {path : List Field} {s s' : St P} {out : List (List Field × Val)},
    flattenFrom C n id path s = (.ok out, s') → s' = s ∧ Lists C s.forms id path 0 out
  | 0, _, _, _, _, _, h => by cases h
  | n + 1, id, path, s, s', out, h => by
    unfold flattenFrom at h
    cases ho : s.forms[id]? with
    | none =>
      have hc : formCls id s = (.error (.other "ReferenceError" "dangling form"), s) := by unfold formCls; rw [ho]
      rw [M.bind_error hc] at h
      cases h
    | some o =>
      have hc : formCls id s = (.ok o.cls, s) := by unfold formCls; rw [ho]
      rw [M.bind_ok hc] at h
      exact flattenLoop_spec ho (fun b q out s' h => flattenFrom_spec h) (i := 0) rfl h

/-- C38.  `form.flatten()`, of any form in any heap, changes nothing and yields the leaves reached through declared
fields, each exactly once, with the fields leading to it, depth first in the order of declaration: `places` are the
positions of those fields. -/
theorem C38_flatten {n id : Nat} {s s' : St P} {out : List (List Field × Val)}
    (h : formFlatten C n id s = (.ok out, s')) :
    s' = s ∧ ∃ ls : List (List Nat × List Field × Val), out = ls.map Prod.snd ∧
      (ls.map Prod.fst).Pairwise Earlier ∧ ∀ is p v, (is, p, v) ∈ ls ↔ LeafAt C s.forms id is p v := by
  obtain ⟨e, ls, h1, h2, h3⟩ := flattenFrom_spec h
  refine ⟨e, ls, by rw [h1]; simp, h2, fun is p v => ?_⟩
  rw [h3]
  constructor
  · exact fun h => h.1
  · intro hl
    refine ⟨hl, ?_⟩
    cases hl <;> exact ⟨_, _, rfl, Nat.zero_le _⟩

/-- C38: the names along the paths are distinct when classes do not declare a name twice. -/
theorem C38_distinct (hK : Distinct C) {h : List FormObj} {a : Nat} {is js : List Nat} {p q : List Field} {v w : Val}
    (h1 : LeafAt C h a is p v) (h2 : LeafAt C h a js q w) (e : p.map Field.key = q.map Field.key) : is = js := by
  have pos : ∀ {cls i j : Nat} {f g : Field}, (C cls).fields[i]? = some f → (C cls).fields[j]? = some g →
      f.key = g.key → i = j := by
    intro cls i j f g hi hj e
    have hi' : ((C cls).fields.map Field.key)[i]? = some f.key := by simp [hi]
    have hj' : ((C cls).fields.map Field.key)[j]? = some f.key := by simp [hj, e]
    exact (List.getElem?_inj (List.getElem?_eq_some_iff.1 hi').1 (hK cls)).1 (hi'.trans hj'.symm)
  induction h1 generalizing js q w with
  | here ho hf hv hi hn =>
    cases h2 with
    | here ho' hf' =>
      cases ho.symm.trans ho'
      simp at e
      rw [pos hf hf' e]
    | deep ho' hf' hv' hb' => cases hb' <;> simp at e
  | deep ho hf hv hb ih =>
    cases h2 with
    | here => cases hb <;> simp at e
    | deep ho' hf' hv' hb' =>
      cases ho.symm.trans ho'
      simp only [List.map_cons, List.cons.injEq] at e
      obtain rfl := pos hf hf' e.1
      cases hf.symm.trans hf'
      cases hv.symm.trans hv'
      rw [ih hb' e.2]

theorem flattenFrom_total : ∀ {n id : Nat} {path : List Field} {s : St P}, Shallow C (fun _ v => v) s.forms n id →
    ∃ out, flattenFrom C n id path s = (.ok out, s)
  | 0, _, _, _, h => h.elim
  | n + 1, id, path, s, h => by
    obtain ⟨o, ho, hsub⟩ := h
    unfold flattenFrom
    have hc : formCls id s = (.ok o.cls, s) := by unfold formCls; rw [ho]
    rw [M.bind_ok hc]
    have loop : ∀ fs : List Field, (∀ f ∈ fs, f ∈ (C o.cls).fields) →
        ∃ out, flattenLoop (flattenFrom C n) id path fs s = (.ok out, s) := by
      intro fs
      induction fs with
      | nil => exact fun _ => ⟨[], rfl⟩
      | cons f fs ih =>
        intro hf
        obtain ⟨ys, hys⟩ := ih fun x hx => hf x (List.mem_cons_of_mem _ hx)
        unfold flattenLoop
        have hit : formItems id s = (.ok o.items, s) := by
          unfold formItems
          rw [ho]
          rfl
        rw [M.bind_ok hit]
        cases hg : dictGet? o.items f.key with
        | none => exact ⟨ys, hys⟩
        | some v =>
          dsimp only
          split
          · exact ⟨ys, hys⟩
          · cases v with
            | form b =>
              have hb := hsub f (hf f List.mem_cons_self) b (by unfold lookField; rw [hg]; rfl)
              obtain ⟨xs, hxs⟩ := flattenFrom_total (path := path ++ [f]) hb
              exact ⟨xs ++ ys, by dsimp only; rw [M.bind_ok hxs, M.bind_ok hys]; rfl⟩
            | _ => exact ⟨_ :: ys, by dsimp only; rw [M.bind_ok hys]; rfl⟩
    exact loop _ fun _ h => h

/-- C38: on a finite tree of forms `flatten` ends. -/
theorem C38_total {n id : Nat} {s : St P} (h : Shallow C (fun _ v => v) s.forms n id) :
    ∃ out, formFlatten C n id s = (.ok out, s) := flattenFrom_total h

/-! ### Examples -/

namespace Demo

/-- `class Leaf: a = Integer(tags=['x']); b = Field()`, `class Tree: l = SubForm(Leaf, tags=['x']); ms = Field(); n = Field()`. -/
def treeTable : Classes
  | 0 => { fields := [.mk { name := some "a", src := .str "a", tags := ["x"] } (.integer {}), field "b" .base] }
  | 1 => { fields := [.mk { name := some "l", src := .str "l", tags := ["x"] } (.subform 0 false (.str .ignore)),
      field "ms" .base, field "n" .base] }
  | _ => { fields := [] }

theorem treeTable_distinct : Distinct treeTable := by
  intro cls
  match cls with
  | 0 => simp [treeTable, field, Field.key, Field.name, Field.core]
  | 1 => simp [treeTable, field, Field.key, Field.name, Field.core]
  | n + 2 => simp [treeTable]

/-- Form 0 is a `Tree` with a `Leaf` in `l`, a tuple with a `Leaf` in `ms` and an undeclared entry. -/
def treeHeap : List FormObj :=
  [⟨1, [(.str "n", .int 7), (.str "ms", .tuple [.form 2, .int 3]), (.str "l", .form 1), (.str "z", .int 0)], none⟩,
   ⟨0, [(.str "a", .int 1), (.str "b", .str "q")], none⟩, ⟨0, [(.str "b", .int 2)], none⟩]

def treeSt : St Path := { stack := [rootFrame], paths := [], errs := [], forms := treeHeap }

theorem treeHeap_ok : HeapOK treeHeap := by
  intro o ho kv hkv
  simp [treeHeap] at ho
  rcases ho with rfl | rfl | rfl <;> simp at hkv
  · rcases hkv with rfl | rfl | rfl | rfl <;> simp [RefsBelow, treeHeap]
  · rcases hkv with rfl | rfl <;> simp [RefsBelow]
  · subst hkv; simp [RefsBelow]

theorem treeHeap_shallow (g : Field → Val → Val) (hg : ∀ f v, g f v = v ∨ g f v = .NONE) :
    Shallow treeTable g treeHeap 2 0 := by
  have leaf : ∀ k, k = 1 ∨ k = 2 → Shallow treeTable g treeHeap 1 k := by
    intro k hk
    rcases hk with rfl | rfl
    all_goals
      refine ⟨_, rfl, fun f hf b hb => ?_⟩
      simp [treeTable] at hf
      rcases hf with rfl | rfl
      all_goals
        rcases hg _ (lookField _ _) with e | e <;> rw [e] at hb <;> exact (show False from hb).elim
  refine ⟨_, rfl, fun f hf b hb => leaf b ?_⟩
  simp [treeTable] at hf
  rcases hf with rfl | rfl | rfl
  all_goals rcases hg _ (lookField _ _) with e | e <;> rw [e] at hb
  · exact .inl hb.symm
  · exact hb.elim
  · have : Val.form b ∈ [Val.form 2, Val.int 3] := hb
    simp at this
    exact .inr this
  · exact hb.elim
  · exact hb.elim
  · exact hb.elim

end Demo

open Demo

/-- The identity reproduces the declared entries, with the tuple as a list, in declaration order. -/
example : ((formMunge treeTable (fun _ _ v => M.pure v) 2 0 treeSt).1,
    ((formMunge treeTable (fun _ _ v => M.pure v) 2 0 treeSt).2.forms.drop 3).map fun o => (o.cls, o.items)) =
    (.ok 3, [(1, [(.str "l", .form 4), (.str "ms", .list [.form 5, .int 3]), (.str "n", .int 7)]),
      (0, [(.str "a", .int 1), (.str "b", .str "q")]), (0, [(.str "b", .int 2)])]) := by decide +kernel

example : ∃ b s', formMunge treeTable (fun _ _ v => M.pure v) 2 0 treeSt = (.ok b, s') :=
  C36_total (g := fun _ v => v) treeTable_distinct treeHeap_ok (fun _ _ h => h) (treeHeap_shallow _ fun _ _ => .inl rfl)

example {b : Nat} {s' : St Path} (h : formMunge treeTable (fun _ _ v => M.pure v) 2 0 treeSt = (.ok b, s')) :=
  C36_identity treeTable_distinct treeHeap_ok (by decide) h

/-- `filter('x')` and its inverse. -/
example : ((formFilter treeTable ["x"] false 2 0 treeSt).2.forms.drop 3).map FormObj.items =
    [[(.str "l", .form 4)], [(.str "a", .int 1)]] := by decide +kernel
example : ((formFilter treeTable ["x"] true 2 0 treeSt).2.forms.drop 3).map FormObj.items =
    [[(.str "ms", .list [.form 4, .int 3]), (.str "n", .int 7)], [(.str "b", .int 2)]] := by decide +kernel

example {a b : Nat} {s1 s2 : St Path} (h1 : formFilter treeTable ["x"] false 2 0 treeSt = (.ok a, s1))
    (h2 : formFilter treeTable ["x"] true 2 0 treeSt = (.ok b, s2)) :=
  C35_partition treeTable_distinct treeHeap_ok (by decide) h1 h2

/-- `copy` keeps the undeclared entry too. -/
example := C37_copy (P := Path) (s := treeSt) (id := 0) (o := treeHeap[0]) rfl (by
  unfold DictKeys
  simp [treeHeap, Val.pyEq])

example : (formFlatten treeTable 2 0 treeSt).1.toOption.map (List.map fun l => (l.1.map Field.key, l.2)) =
    some [([.str "l", .str "a"], .int 1), ([.str "l", .str "b"], .str "q"),
      ([.str "ms"], .tuple [.form 2, .int 3]), ([.str "n"], .int 7)] := by decide +kernel

example : ∃ out, formFlatten treeTable 2 0 treeSt = (.ok out, treeSt) :=
  C38_total (treeHeap_shallow _ fun _ _ => .inl rfl)

end Pilo
