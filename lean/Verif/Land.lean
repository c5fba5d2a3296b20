import Verif.Dump

/-!
# Mapping the data of a value

The lexical semantics maps the data of a value (`Dumps`) to a value with the same data.
-/

namespace Pilo
open Capture

/-! ## Bookkeeping -/

/-- The forms made since there were `m` of them. -/
def newer (m : Nat) (forms : List FormObj) (i : Nat) : Option FormObj := if m ≤ i then forms[i]? else none

/-- Nothing but the path differs, and new forms. -/
structure Grown (τ τ' : TSt Path) : Prop where
  errs : τ'.errs = τ.errs
  npaths : τ'.npaths = τ.npaths
  len : τ.forms.length ≤ τ'.forms.length
  old : ∀ i < τ.forms.length, τ'.forms[i]? = τ.forms[i]?

theorem Grown.refl (τ : TSt Path) : Grown τ τ := ⟨rfl, rfl, Nat.le_refl _, fun _ _ => rfl⟩

theorem Grown.trans {a b c : TSt Path} (h : Grown a b) (h' : Grown b c) : Grown a c where
  errs := h'.errs.trans h.errs
  npaths := h'.npaths.trans h.npaths
  len := Nat.le_trans h.len h'.len
  old i hi := (h'.old i (Nat.lt_of_lt_of_le hi h.len)).trans (h.old i hi)

theorem _root_.Pilo.Capture.Calm.grown {a b : TSt Path} (h : Calm a b) : Grown a b where
  errs := h.errs
  npaths := h.npaths
  len := Nat.le_of_eq (by rw [h.forms])
  old i _ := by rw [h.forms]

theorem newer_mono {m m' : Nat} {fs fs' : List FormObj} (hm : m ≤ m') (h : ∀ i < fs.length, m' ≤ i → fs'[i]? = fs[i]?) :
    ∀ i o, newer m' fs i = some o → newer m fs' i = some o := by
  intro i o hi
  unfold newer at hi ⊢
  split at hi
  · rename_i hle
    rw [if_pos (Nat.le_trans hm hle), h i (List.getElem?_eq_some_iff.1 hi).1 hle, hi]
  · cases hi

theorem Grown.newer {a b : TSt Path} (h : Grown a b) {m m' : Nat} (hm : m ≤ m') :
    ∀ i o, newer m' a.forms i = some o → newer m b.forms i = some o :=
  newer_mono hm fun i hi _ => h.old i hi

/-- In a nested mapping, of all tags, that uses defaults. -/
structure EnvOK (env : Env) : Prop where
  src : env.src = some true
  tags : env.tags.getD [] = []
  ignoreDefault : env.ignoreDefault = some false

section
variable (L : Lib) (d : DocKind) (C : Classes)

/-- A field, at data `w`, makes a value with that data, and nothing else. -/
def Lands (n : Nat) (f : Field) (w : Val) : Prop :=
  ∀ (root : Val) (ks : List Val) (r : Nat) (env : Env) (τ : TSt Path) (b : ErrBuf), EnvOK env → τ.errs = some b →
    Standing L d root ks r τ → d.Sees L root ks w →
    ∃ v τ', Lex.fieldStart (Path.ops L) L C (Lex.mapField (Path.ops L) L C n) f env τ = (.ok v, τ') ∧
      Standing L d root ks r τ' ∧ v.isIgnore = false ∧ Grown τ τ' ∧ Dumps L d C (newer τ.forms.length τ'.forms) f v w

end

section
variable {L : Lib} {d : DocKind} {root : Val} {ks : List Val} {r : Nat} {C : Classes} {f : Field} {env : Env} {τ : TSt Path}
  {b : ErrBuf} {n : Nat}

theorem mapField_start (hf : f.Undecorated) {m : T Path Val} {v : Val} {τ' : TSt Path}
    (hm : Lex.fieldMapInner (Path.ops L) L C (Lex.mapField (Path.ops L) L C n) f .NONE = m)
    (h : m { env with field := some f.name, parent := some .field } τ = (.ok v, τ')) :
    Lex.mapField (Path.ops L) L C (n + 1) f .NONE env τ = (.ok v, τ') := by
  show Lex.mapFieldF (Path.ops L) L C _ f .NONE env τ = _
  unfold Lex.mapFieldF
  rw [hm]
  refine (T.bind_ok (a := v) (τ' := τ') (show T.withEnv (fun env => { env with field := some f.name, parent := some .field })
    m env τ = _ from h)).trans ?_
  simp only [hf.attach, Bool.false_and, Bool.false_eq_true, if_false]
  rfl

theorem mapField_at (hf : f.Undecorated) (hs : noSrc f.core.src = true) {v : Val} {τ' : TSt Path}
    (h : Lex.fieldStart (Path.ops L) L C (Lex.mapField (Path.ops L) L C n) f
      { env with field := some f.name, parent := some .field } τ = (.ok v, τ')) :
    Lex.mapField (Path.ops L) L C (n + 1) f .NONE env τ = (.ok v, τ') := by
  refine mapField_start hf ?_ h
  unfold Lex.fieldMapInner Lex.withResolve
  rw [if_pos (show Val.isNONE .NONE = true from rfl), hf.free.resolve]
  cases f.kind <;> simp only [hs, if_true]

theorem mapField_in {k : String} (hf : f.Undecorated) (hs : f.Own k) {v : Val} {τ' : TSt Path}
    (h : T.withKey (Path.ops L) (.str k) (Lex.fieldStart (Path.ops L) L C (Lex.mapField (Path.ops L) L C n) f)
      { env with field := some f.name, parent := some .field } τ = (.ok v, τ')) :
    Lex.mapField (Path.ops L) L C (n + 1) f .NONE env τ = (.ok v, τ') := by
  refine mapField_start hf ?_ h
  have hn : noSrc (Val.str k) = false := rfl
  unfold Lex.fieldMapInner Lex.withResolve
  rw [if_pos (show Val.isNONE .NONE = true from rfl), hf.free.resolve, hs.src]
  cases hk : f.kind with
  | group fs => exact absurd hk (hs.group fs)
  | _ => simp only [hn, Bool.false_eq_true, if_false]

/-- An item, read at its key. -/
theorem item_run {k w : Val} (hf : f.Undecorated) (hs : noSrc f.core.src = true) (hl : Lands L d C n f w)
    (he : EnvOK env) (hb : τ.errs = some b) (h : Standing L d root ks r τ) (hk : k.isNull = false)
    (hw : d.Sees L root (ks ++ [k]) w) :
    ∃ v τ', T.withKey (Path.ops L) k (Lex.mapField (Path.ops L) L C (n + 1) f .NONE) env τ = (.ok v, τ') ∧
      Standing L d root ks r τ' ∧ v.isIgnore = false ∧ Grown τ τ' ∧
      Dumps L d C (newer τ.forms.length τ'.forms) f v w := by
  obtain ⟨v, τ', τ2, e, s, c, hv, hg, hd⟩ := h.into (R := fun v τ2 => v.isIgnore = false ∧ Grown τ τ2 ∧
      Dumps L d C (newer τ.forms.length τ2.forms) f v w) (k := k)
      (m := Lex.mapField (Path.ops L) L C (n + 1) f .NONE) env (by
    intro τ1 s1 c1
    obtain ⟨v, τ2, e2, s2, hv, hg, hd⟩ := hl root _ r
      { env with src := some (!k.isNull), field := some f.name, parent := some .field } τ1 b
      ⟨by rw [hk]; rfl, he.tags, he.ignoreDefault⟩ (by rw [c1.errs, hb]) s1 hw
    exact ⟨v, τ2, mapField_at hf hs e2, s2, hv, c1.grown.trans hg, by rw [c1.forms] at hd; exact hd⟩)
  exact ⟨v, τ', e, s, hv, hg.trans c.grown, by rw [c.forms]; exact hd⟩

/-- A field of a form, read from the entry of its name. -/
theorem field_run {k : String} {w : Val} (hf : f.Undecorated) (hs : f.Own k) (hl : Lands L d C n f w)
    (he : EnvOK env) (hb : τ.errs = some b) (h : Standing L d root ks r τ)
    (hw : d.Sees L root (ks ++ [.str k]) w) :
    ∃ v τ', Lex.mapField (Path.ops L) L C (n + 1) f .NONE env τ = (.ok v, τ') ∧
      Standing L d root ks r τ' ∧ v.isIgnore = false ∧ Grown τ τ' ∧
      Dumps L d C (newer τ.forms.length τ'.forms) f v w := by
  obtain ⟨v, τ', τ2, e, s, c, hv, hg, hd⟩ := h.into (R := fun v τ2 => v.isIgnore = false ∧ Grown τ τ2 ∧
      Dumps L d C (newer τ.forms.length τ2.forms) f v w) (k := .str k)
      (m := Lex.fieldStart (Path.ops L) L C (Lex.mapField (Path.ops L) L C n) f)
      { env with field := some f.name, parent := some .field } (by
    intro τ1 s1 c1
    obtain ⟨v, τ2, e2, s2, hv, hg, hd⟩ := hl root _ r
      { env with src := some (!(Val.str k).isNull), field := some f.name, parent := some .field } τ1 b
      ⟨rfl, he.tags, he.ignoreDefault⟩ (by rw [c1.errs, hb]) s1 hw
    exact ⟨v, τ2, e2, s2, hv, c1.grown.trans hg, by rw [c1.forms] at hd; exact hd⟩)
  exact ⟨v, τ', mapField_in hf hs e, s, hv, hg.trans c.grown, by rw [c.forms]; exact hd⟩

/-- An optional field of a form, without an entry of its name. -/
theorem absent_run {k : String} (hf : f.Undecorated) (hs : f.Own k) (hd : f.core.default = .value .NONE)
    (he : EnvOK env) (h : Standing L d root ks r τ) (hw : d.Sees L root (ks ++ [.str k]) .NONE) :
    ∃ τ', Lex.mapField (Path.ops L) L C (n + 1) f .NONE env τ = (.ok .NONE, τ') ∧ Standing L d root ks r τ' ∧
      Calm τ τ' := by
  obtain ⟨v, τ', τ2, e, s, c, hv, hc⟩ := h.into (R := fun v τ2 => v = .NONE ∧ Calm τ τ2) (k := .str k)
      (m := Lex.fieldStart (Path.ops L) L C (Lex.mapField (Path.ops L) L C n) f)
      { env with field := some f.name, parent := some .field } (by
    intro τ1 s1 c1
    obtain ⟨τ2, e2, s2, c2⟩ := s1.exists_
      { env with src := some (!(Val.str k).isNull), field := some f.name, parent := some .field } hw
    refine ⟨.NONE, τ2, ?_, s2, rfl, c1.trans c2⟩
    have hcomp : Lex.fieldCompute (Path.ops L) L C (Lex.mapField (Path.ops L) L C n) f
        { env with src := some (!(Val.str k).isNull), field := some f.name, parent := some .field } τ1 = (.ok .NONE, τ2) := by
      unfold Lex.fieldCompute
      refine (T.bind_ok e2).trans ?_
      rfl
    rw [hf.free.fieldStart]
    refine (T.bind_ok hcomp).trans ?_
    exact default_value hd ⟨by simp, by simp⟩ he.ignoreDefault)
  subst hv
  exact ⟨τ', mapField_in hf hs e, s, hc.trans c⟩

/-! ## Loops -/

theorem list_loop (hf : f.Undecorated) (hs : noSrc f.core.src = true) (he : EnvOK env) (ws : List Val) :
    ∀ (i : Nat) (τ : TSt Path), τ.errs = some b → Standing L d root ks r τ →
    (∀ (j : Nat) w, ws[j]? = some w → d.Sees L root (ks ++ [.int ((i + j : Nat) : Int)]) w ∧ Lands L d C n f w) →
    ∃ xs τ', Lex.listLoop (Path.ops L) (Lex.mapField (Path.ops L) L C (n + 1)) f i ws.length env τ = (.ok xs, τ') ∧
      Standing L d root ks r τ' ∧ Grown τ τ' ∧ xs.length = ws.length ∧
      ∀ (j : Nat) x w, xs[j]? = some x → ws[j]? = some w → Dumps L d C (newer τ.forms.length τ'.forms) f x w := by
  induction ws with
  | nil =>
    intro i τ hb h _
    exact ⟨[], τ, rfl, h, .refl τ, rfl, fun j x w hx => by simp at hx⟩
  | cons w ws ih =>
    intro i τ hb h hl
    obtain ⟨h1, h2⟩ := hl 0 w rfl
    obtain ⟨x, τ1, e1, s1, hx, g1, d1⟩ := item_run hf hs h2 he hb h rfl h1
    obtain ⟨xs, τ2, e2, s2, g2, hlen, d2⟩ := ih (i + 1) τ1 (by rw [g1.errs, hb]) s1 (by
      intro j w' hj
      have := hl (j + 1) w' (by simpa using hj)
      rw [show i + 1 + j = i + (j + 1) by omega]
      exact this)
    refine ⟨x :: xs, τ2, ?_, s2, g1.trans g2, by simp [hlen], ?_⟩
    · refine (T.bind_ok e1).trans ((T.bind_ok e2).trans ?_)
      rw [hx]
      rfl
    · intro j x' w' hj hj'
      cases j with
      | zero =>
        simp only [List.getElem?_cons_zero, Option.some.injEq] at hj hj'
        subst hj hj'
        exact d1.mono (g2.newer (Nat.le_refl _))
      | succ j =>
        simp only [List.getElem?_cons_succ] at hj hj'
        exact (d2 j x' w' hj hj').mono (newer_mono g1.len fun _ _ _ => rfl)

theorem tuple_loop (he : EnvOK env) (fs : List Field) : ∀ (ws : List Val) (i : Nat) (τ : TSt Path), τ.errs = some b →
    Standing L d root ks r τ → fs.length = ws.length →
    (∀ g ∈ fs, g.Undecorated ∧ noSrc g.core.src = true) →
    (∀ (j : Nat) g w, fs[j]? = some g → ws[j]? = some w →
      d.Sees L root (ks ++ [.int ((i + j : Nat) : Int)]) w ∧ Lands L d C n g w) →
    ∃ xs τ', Lex.tupleLoop (Path.ops L) (Lex.mapField (Path.ops L) L C (n + 1)) i fs env τ = (.ok xs, τ') ∧
      Standing L d root ks r τ' ∧ Grown τ τ' ∧ xs.length = ws.length ∧
      ∀ (j : Nat) g x w, fs[j]? = some g → xs[j]? = some x → ws[j]? = some w →
        Dumps L d C (newer τ.forms.length τ'.forms) g x w := by
  induction fs with
  | nil =>
    intro ws i τ hb h hlen _ _
    cases ws with
    | cons => simp at hlen
    | nil => exact ⟨[], τ, rfl, h, .refl τ, rfl, fun j g x w hg => by simp at hg⟩
  | cons f fs ih =>
    intro ws i τ hb h hlen hfs hl
    cases ws with
    | nil => simp at hlen
    | cons w ws =>
      obtain ⟨h1, h2⟩ := hl 0 f w rfl rfl
      obtain ⟨hf, hs⟩ := hfs f (by simp)
      obtain ⟨x, τ1, e1, s1, hx, g1, d1⟩ := item_run hf hs h2 he hb h rfl h1
      obtain ⟨xs, τ2, e2, s2, g2, hlen', d2⟩ := ih ws (i + 1) τ1 (by rw [g1.errs, hb]) s1 (by simpa using hlen)
        (fun g hg => hfs g (by simp [hg])) (by
        intro j g w' hj hj'
        have := hl (j + 1) g w' (by simpa using hj) (by simpa using hj')
        rw [show i + 1 + j = i + (j + 1) by omega]
        exact this)
      refine ⟨x :: xs, τ2, ?_, s2, g1.trans g2, by simp [hlen'], ?_⟩
      · refine (T.bind_ok e1).trans ((T.bind_ok e2).trans ?_)
        rw [hx]
        rfl
      · intro j g x' w' hg hj hj'
        cases j with
        | zero =>
          simp only [List.getElem?_cons_zero, Option.some.injEq] at hg hj hj'
          subst hg hj hj'
          exact d1.mono (g2.newer (Nat.le_refl _))
        | succ j =>
          simp only [List.getElem?_cons_succ] at hg hj hj'
          exact (d2 j g x' w' hg hj hj').mono (newer_mono g1.len fun _ _ _ => rfl)

theorem dict_loop' {kf vf : Field} (hkf : kf.Undecorated) (hvf : vf.Undecorated) (hs : noSrc vf.core.src = true)
    (he : EnvOK env) (kws : List (Val × Val)) : ∀ (acc : List (Val × Val)) (τ : TSt Path), τ.errs = some b →
    Standing L d root ks r τ →
    (∀ kw ∈ kws, kw.1.isStr = true ∧ kf.kind.Keeps kw.1 ∧ kf.Lets kw.1 ∧ d.Sees L root (ks ++ [kw.1]) kw.2 ∧
      Lands L d C n vf kw.2) →
    (kws.map Prod.fst).Nodup → (∀ kv ∈ kws, ∀ x ∈ acc, x.1 ≠ kv.1) →
    ∃ (ts : List (Val × Val × Val)) (τ' : TSt Path), Lex.dictLoop (Path.ops L) L C (Lex.mapField (Path.ops L) L C (n + 1)) kf vf none (kws.map Prod.fst) acc env τ =
        (.ok (acc ++ ts.map fun t => (t.1, t.2.1)), τ') ∧
      Standing L d root ks r τ' ∧ Grown τ τ' ∧ (ts.map fun t => (t.1, t.2.2)) = kws ∧
      ∀ t ∈ ts, Dumps L d C (newer τ.forms.length τ'.forms) vf t.2.1 t.2.2 := by
  induction kws with
  | nil =>
    intro acc τ hb h _ _ _
    exact ⟨[], τ, by simp [Lex.dictLoop, T.pure], h, .refl τ, rfl, fun t ht => by cases ht⟩
  | cons kw kws ih =>
    intro acc τ hb h hl hnd hacc
    obtain ⟨k, w⟩ := kw
    obtain ⟨hk, hkeep, hlet, hsee, hland⟩ := hl (k, w) (by simp)
    simp only [List.map_cons, List.nodup_cons] at hnd
    obtain ⟨hnk, hnd⟩ := hnd
    cases k <;> simp [Val.isStr] at hk
    rename_i k
    obtain ⟨x, τ1, e1, s1, hx, g1, d1⟩ := item_run hvf hs hland he hb h rfl hsee
    obtain ⟨ts, τ2, e2, s2, g2, hts, d2⟩ := ih (acc ++ [(.str k, x)]) τ1 (by rw [g1.errs, hb]) s1
      (fun kv hkv => hl kv (by simp [hkv])) hnd (by
        intro kv hkv y hy
        rw [List.mem_append, List.mem_singleton] at hy
        rcases hy with hy | rfl
        · exact hacc kv (by simp [hkv]) y hy
        · intro he
          exact hnk (List.mem_map.2 ⟨kv, hkv, he.symm⟩))
    refine ⟨(.str k, x, w) :: ts, τ2, ?_, s2, g1.trans g2, by simp [hts], ?_⟩
    · simp only [List.map_cons, Lex.dictLoop]
      refine (T.bind_ok (show Lex.keepKey (Path.ops L) L C _ none (.str k) env τ = (.ok true, τ) from rfl)).trans ?_
      simp only [Bool.not_true, Bool.false_eq_true, if_false]
      refine (T.bind_ok e1).trans ?_
      simp only [hx, Bool.false_eq_true, if_false]
      refine (T.bind_ok (given_run (f := kf) n hkf hkeep hlet)).trans ?_
      have hfresh : dictSet acc (.str k) x = acc ++ [(.str k, x)] := by
        refine dictSet_fresh fun kv hkv => ?_
        cases hp : Val.pyEq (.str k) kv.1 with
        | false => rfl
        | true => exact absurd (pyEq_str.1 hp) (hacc (.str k, w) (by simp) kv hkv)
      show Lex.dictLoop (Path.ops L) L C _ kf vf none (kws.map Prod.fst) (dictSet acc (.str k) x) env τ1 = _
      rw [hfresh, e2]
      simp
    · intro t ht
      rcases List.mem_cons.1 ht with rfl | ht
      · exact d1.mono (g2.newer (Nat.le_refl _))
      · exact (d2 t ht).mono (newer_mono g1.len fun _ _ _ => rfl)

/-! ## Forms -/

/-- Nothing but the path differs, and new forms, and the form `id`. -/
structure Within (id : Nat) (τ τ' : TSt Path) : Prop where
  errs : τ'.errs = τ.errs
  npaths : τ'.npaths = τ.npaths
  len : τ.forms.length ≤ τ'.forms.length
  old : ∀ i < τ.forms.length, i ≠ id → τ'.forms[i]? = τ.forms[i]?

theorem Within.refl (id : Nat) (τ : TSt Path) : Within id τ τ := ⟨rfl, rfl, Nat.le_refl _, fun _ _ _ => rfl⟩

theorem Within.trans {id : Nat} {a b c : TSt Path} (h : Within id a b) (h' : Within id b c) : Within id a c where
  errs := h'.errs.trans h.errs
  npaths := h'.npaths.trans h.npaths
  len := Nat.le_trans h.len h'.len
  old i hi hn := (h'.old i (Nat.lt_of_lt_of_le hi h.len) hn).trans (h.old i hi hn)

theorem Grown.within {id : Nat} {a b : TSt Path} (h : Grown a b) : Within id a b :=
  ⟨h.errs, h.npaths, h.len, fun i hi _ => h.old i hi⟩

theorem Within.newer {id m m' : Nat} {a b : TSt Path} (h : Within id a b) (hm : m ≤ m') (hi : id < m') :
    ∀ i o, newer m' a.forms i = some o → newer m b.forms i = some o :=
  newer_mono hm fun i hl hle => h.old i hl (by omega)

/-- What the source has for a field: `w`, in an entry of its name, or nothing. -/
def Supplied (L : Lib) (d : DocKind) (C : Classes) (n : Nat) (kvs : List (Val × Val)) (g : Field) : Option Val → Prop
  | some w => (g.key, w) ∈ kvs ∧ Lands L d C n g w
  | none => g.core.default = .value .NONE ∧ d.step L (.dict kvs) g.key = .ok .NONE

theorem fields_loop {id : Nat} {kvs : List (Val × Val)} {D : Field → Option Val} (hk : Legible d kvs)
    (hsee : d.Sees L root ks (.dict kvs)) (he : EnvOK env) (fs : List Field) : ∀ (τ : TSt Path) (o : FormObj),
    τ.errs = some b → Standing L d root ks r τ → τ.forms[id]? = some o →
    (∀ g ∈ fs, g.Undecorated ∧ (∃ k, g.Own k) ∧ Supplied L d C n kvs g (D g)) → (fs.map Field.name).Nodup →
    (∀ g ∈ fs, dictGet? o.items g.key = none) →
    ∃ τ' o', Lex.mapFields (Lex.mapField (Path.ops L) L C (n + 1)) id [] fs env τ = (.ok (), τ') ∧
      Standing L d root ks r τ' ∧ Within id τ τ' ∧ τ'.forms[id]? = some o' ∧ o'.cls = o.cls ∧
      (∀ g ∈ fs, ∀ w, D g = some w → ∃ x, dictGet? o'.items g.key = some x ∧
        Dumps L d C (newer (id + 1) τ'.forms) g x w) ∧
      (∀ g ∈ fs, D g = none → dictGet? o'.items g.key = none) ∧
      (∀ k, (∀ g ∈ fs, g.key ≠ .str k) → dictGet? o'.items (.str k) = dictGet? o.items (.str k)) ∧
      (∀ p ∈ o'.items, p ∈ o.items ∨ ∃ g ∈ fs, p.1 = g.key) := by
  induction fs with
  | nil =>
    intro τ o hb h ho _ _ _
    exact ⟨τ, o, rfl, h, .refl id τ, ho, rfl, (fun g hg => by cases hg), (fun g hg => by cases hg), (fun _ _ => rfl),
      fun p hp => .inl hp⟩
  | cons g fs ih =>
    intro τ o hb h ho hfs hnd hfree
    obtain ⟨hg, ⟨k, hown⟩, hsup⟩ := hfs g (by simp)
    simp only [List.map_cons, List.nodup_cons] at hnd
    obtain ⟨hng, hnd⟩ := hnd
    have hkey := hown.key
    have hid : id < τ.forms.length := (List.getElem?_eq_some_iff.1 ho).1
    have hother : ∀ g' ∈ fs, g'.key ≠ g.key := by
      intro g' hg' he
      obtain ⟨k', hown'⟩ := (hfs g' (by simp [hg'])).2.1
      rw [hown'.key, hkey] at he
      cases he
      exact hng (List.mem_map.2 ⟨g', hg', hown'.name.trans hown.name.symm⟩)
    have hfs' : ∀ g ∈ fs, g.Undecorated ∧ (∃ k, g.Own k) ∧ Supplied L d C n kvs g (D g) :=
      fun g' hg' => hfs g' (by simp [hg'])
    have hsel : selected [] g = true := rfl
    have hN : ((Val.dict kvs).isNONE) = false := rfl
    cases hD : D g with
    | none =>
      rw [hD] at hsup
      obtain ⟨hdef, hstep⟩ := hsup
      rw [hkey] at hstep
      obtain ⟨τ1, e1, s1, c1⟩ := absent_run (n := n) (C := C) hg hown hdef he h (hsee.snoc rfl hN hstep)
      obtain ⟨τ2, o2, e2, s2, w2, ho2, hc2, hp2, ha2, hk2, hi2⟩ := ih τ1 o (by rw [c1.errs, hb]) s1
        (by rw [c1.forms, ho]) hfs' hnd (fun g' hg' => hfree g' (by simp [hg']))
      refine ⟨τ2, o2, ?_, s2, c1.grown.within.trans w2, ho2, hc2, ?_, ?_, ?_, ?_⟩
      · refine (T.bind_ok (a := ()) (τ' := τ1) ?_).trans e2
        unfold Lex.mapOne
        rw [if_pos hsel]
        exact (T.bind_ok e1).trans rfl
      · intro g' hg' w hw
        rcases List.mem_cons.1 hg' with rfl | hg'
        · rw [hD] at hw; cases hw
        · exact hp2 g' hg' w hw
      · intro g' hg' hw
        rcases List.mem_cons.1 hg' with rfl | hg'
        · rw [hkey, hk2 k (fun g'' hg'' => by rw [← hkey]; exact hother g'' hg''), ← hkey]
          exact hfree g' (by simp)
        · exact ha2 g' hg' hw
      · intro k' hk'
        exact hk2 k' fun g' hg' => hk' g' (by simp [hg'])
      · intro p hp
        rcases hi2 p hp with h | ⟨g', hg', h⟩
        · exact .inl h
        · exact .inr ⟨g', by simp [hg'], h⟩
    | some w =>
      rw [hD] at hsup
      obtain ⟨hmem, hland⟩ := hsup
      rw [hkey] at hmem
      obtain ⟨x, τ1, e1, s1, hx, g1, d1⟩ := field_run hg hown hland he hb h (hk.sees hsee _ hmem).2.2
      let τ2 : TSt Path := { τ1 with forms := τ1.forms.modify id fun o => { o with items := dictSet o.items g.key x } }
      have ho1 : τ1.forms[id]? = some o := by rw [g1.old id hid, ho]
      let o2 : FormObj := { o with items := dictSet o.items g.key x }
      have ho2 : τ2.forms[id]? = some o2 := by
        show (List.modify _ _ _)[id]? = _
        rw [List.getElem?_modify_eq, ho1]; rfl
      have hfresh : dictSet o.items g.key x = o.items ++ [(g.key, x)] := by
        refine dictSet_fresh fun kv hkv => ?_
        have := hfree g (by simp)
        unfold dictGet? at this
        split at this
        · cases this
        · rename_i hnone
          have := List.find?_eq_none.1 hnone kv hkv
          simpa using this
      have w2 : Within id τ1 τ2 := ⟨rfl, rfl, by simp [τ2], fun i _ hi => by
        show (List.modify _ _ _)[i]? = _
        rw [List.getElem?_modify_ne _ _ (fun h => hi h.symm)]⟩
      have hget : ∀ k', dictGet? o2.items (.str k') = if k = k' then some x else dictGet? o.items (.str k') := by
        intro k'
        show dictGet? (dictSet o.items g.key x) _ = _
        rw [hkey]
        exact dictGet?_dictSet _ _ _ _
      obtain ⟨τ3, o3, e3, s3, w3, ho3, hc3, hp3, ha3, hk3, hi3⟩ := ih τ2 o2 (by show τ1.errs = _; rw [g1.errs, hb])
        (by obtain ⟨p, hp, hr⟩ := s1; exact ⟨p, hp, hr⟩) ho2 hfs' hnd (by
          intro g' hg'
          obtain ⟨k', hown'⟩ := (hfs g' (by simp [hg'])).2.1
          have hne := hother g' hg'
          have hf' := hfree g' (by simp [hg'])
          rw [hown'.key] at hne hf' ⊢
          rw [hget, if_neg (by intro h; subst h; exact hne hkey.symm)]
          exact hf')
      have hstay : dictGet? o3.items g.key = some x := by
        rw [hkey, hk3 k (fun g'' hg'' => by rw [← hkey]; exact hother g'' hg''), hget, if_pos rfl]
      refine ⟨τ3, o3, ?_, s3, (g1.within.trans w2).trans w3, ho3, hc3, ?_, ?_, ?_, ?_⟩
      · refine (T.bind_ok (a := ()) (τ' := τ2) ?_).trans e3
        unfold Lex.mapOne
        rw [if_pos hsel]
        refine (T.bind_ok e1).trans ?_
        simp only [hx, Bool.false_eq_true, if_false]
        rfl
      · intro g' hg' w' hw'
        rcases List.mem_cons.1 hg' with rfl | hg'
        · rw [hD] at hw'; cases hw'
          exact ⟨x, hstay, (d1.mono ((w2.trans w3).newer (Nat.le_refl _) hid)).mono (newer_mono hid fun _ _ _ => rfl)⟩
        · exact hp3 g' hg' w' hw'
      · intro g' hg' hw'
        rcases List.mem_cons.1 hg' with rfl | hg'
        · rw [hD] at hw'; cases hw'
        · exact ha3 g' hg' hw'
      · intro k' hk'
        rw [hk3 k' fun g' hg' => hk' g' (by simp [hg']), hget, if_neg]
        intro h
        subst h
        exact hk' g (by simp) hkey
      · intro p hp
        rcases hi3 p hp with h | ⟨g', hg', h⟩
        · have h' : p ∈ dictSet o.items g.key x := h
          rw [hfresh, List.mem_append, List.mem_singleton] at h'
          rcases h' with h' | rfl
          · exact .inl h'
          · exact .inr ⟨g, by simp, rfl⟩
        · exact .inr ⟨g', by simp [hg'], h⟩

/-- `Form._map` of an empty form, at the data of a form. -/
theorem body_run {id : Nat} {kvs : List (Val × Val)} {D : Field → Option Val} {o : FormObj} {u : Unmapped}
    (hu : u = .str .ignore ∨ u = .str .none) (hk : Legible d kvs) (hsee : d.Sees L root ks (.dict kvs)) (he : EnvOK env)
    (hb : τ.errs = some b) (h : Standing L d root ks r τ) (ho : τ.forms[id]? = some o) (hempty : o.items = [])
    (hfs : ∀ g ∈ (C o.cls).fields, g.Undecorated ∧ (∃ k, g.Own k) ∧ Supplied L d C n kvs g (D g))
    (hnd : ((C o.cls).fields.map Field.name).Nodup) :
    ∃ τ' o', Lex.formMapBody (Path.ops L) C (Lex.mapField (Path.ops L) L C (n + 1)) id [] u env τ = (.ok (), τ') ∧
      Standing L d root ks r τ' ∧ Within id τ τ' ∧ τ'.forms[id]? = some o' ∧ o'.cls = o.cls ∧
      (∀ g ∈ (C o.cls).fields, ∀ w, D g = some w → ∃ x, dictGet? o'.items g.key = some x ∧
        Dumps L d C (newer (id + 1) τ'.forms) g x w) ∧
      (∀ g ∈ (C o.cls).fields, D g = none → dictGet? o'.items g.key = none) ∧
      (∀ p ∈ o'.items, ∃ g ∈ (C o.cls).fields, p.1 = g.key) := by
  obtain ⟨τ1, e1, s1, c1⟩ := h.mapping env hsee
  obtain ⟨τ2, o2, e2, s2, w2, ho2, hc2, hp2, ha2, hk2, hi2⟩ := fields_loop (D := D) (n := n) (C := C)
    (env := { env with form := some id, parent := some (.form id) }) (b := b) hk hsee ⟨he.src, he.tags, he.ignoreDefault⟩
    (C o.cls).fields τ1 o (by rw [c1.errs, hb]) s1 (by rw [c1.forms, ho]) hfs hnd (by
      intro g _
      rw [hempty]; rfl)
  refine ⟨τ2, o2, ?_, s2, c1.grown.within.trans w2, ho2, hc2, hp2, ha2, ?_⟩
  · unfold Lex.formMapBody
    refine (T.bind_ok e1).trans ?_
    have ecls : T.formCls id env τ1 = (.ok o.cls, τ1) := by
      unfold T.formCls
      rw [c1.forms, ho]
    refine (T.bind_ok ecls).trans ?_
    refine (T.bind_ok (a := ()) (τ' := τ2) (show T.withEnv (fun env => { env with form := some id, parent := some (.form id) })
      _ env τ1 = _ from e2)).trans ?_
    rcases hu with rfl | rfl <;> rfl
  · intro p hp
    rcases hi2 p hp with h | h
    · rw [hempty] at h; cases h
    · exact h

theorem reset_run {id : Nat} (fs : List Field) : ∀ (τ : TSt Path) (o : FormObj), τ.forms[id]? = some o → o.items = [] →
    (Lex.formReset id [] fs : T Path Unit) env τ = (.ok (), τ) := by
  induction fs with
  | nil => intro τ o _ _; rfl
  | cons g fs ih =>
    intro τ o ho hempty
    have hsel : selected [] g = true := rfl
    unfold Lex.formReset
    rw [if_pos hsel]
    have e : (T.formModify id (dictDel · g.key) : T Path Unit) env τ = (.ok (), τ) := by
      unfold T.formModify
      have : τ.forms.modify id (fun o => { o with items := dictDel o.items g.key }) = τ.forms := by
        apply List.ext_getElem?
        intro i
        rw [List.getElem?_modify]
        by_cases hi : id = i
        · subst hi
          rw [ho]
          simp only [if_true]
          cases o
          simp only at hempty
          subst hempty
          rfl
        · simp [hi]
      rw [this]
    exact (T.bind_ok e).trans (ih τ o ho hempty)

/-- A `SubForm` field at the data of a form. -/
theorem subform_run {cls : Nat} {reset : Bool} {kvs : List (Val × Val)} {D : Field → Option Val} {u : Unmapped}
    (hu : u = .str .ignore ∨ u = .str .none) (hk : Legible d kvs) (hsee : d.Sees L root ks (.dict kvs)) (he : EnvOK env)
    (hb : τ.errs = some b) (h : Standing L d root ks r τ)
    (hfs : ∀ g ∈ (C cls).fields, g.Undecorated ∧ (∃ k, g.Own k) ∧ Supplied L d C n kvs g (D g))
    (hnd : ((C cls).fields.map Field.name).Nodup) :
    ∃ τ' o', Lex.subParse (Path.ops L) C (Lex.mapField (Path.ops L) L C (n + 1)) cls reset u env τ =
        (.ok (.form τ.forms.length), τ') ∧
      Standing L d root ks r τ' ∧ Grown τ τ' ∧ τ'.forms[τ.forms.length]? = some o' ∧ o'.cls = cls ∧
      (∀ g ∈ (C cls).fields, ∀ w, D g = some w → ∃ x, dictGet? o'.items g.key = some x ∧
        Dumps L d C (newer τ.forms.length τ'.forms) g x w) ∧
      (∀ g ∈ (C cls).fields, D g = none → dictGet? o'.items g.key = none) ∧
      (∀ p ∈ o'.items, ∃ g ∈ (C cls).fields, p.1 = g.key) := by
  let o0 : FormObj := { cls := cls, items := [] }
  let τ0 : TSt Path := { τ with forms := τ.forms ++ [o0] }
  let τ1 : TSt Path := { τ0 with errs := some { raising := false, items := [] } }
  have ho0 : τ1.forms[τ.forms.length]? = some o0 := by
    show (τ.forms ++ [o0])[τ.forms.length]? = _
    simp
  have s1 : Standing L d root ks r τ1 := by
    obtain ⟨p, hp, hr⟩ := h
    exact ⟨p, hp, hr⟩
  obtain ⟨τ2, o', e2, s2, w2, ho2, hc2, hp2, ha2, hi2⟩ := body_run (D := D) (n := n) (C := C) (u := u) (o := o0) hu hk hsee he
    (b := { raising := false, items := [] }) (τ := τ1) rfl s1 ho0 rfl hfs hnd
  let τ3 : TSt Path := { τ2 with errs := τ.errs }
  refine ⟨τ3, o', ?_, ?_, ?_, ho2, hc2, ?_, ha2, hi2⟩
  · unfold Lex.subParse
    refine (T.bind_ok (show T.newForm cls env τ = (.ok τ.forms.length, τ0) from rfl)).trans ?_
    have eform : Lex.formMap (Path.ops L) C (Lex.mapField (Path.ops L) L C (n + 1)) τ.forms.length .none [] reset u false
        env τ0 = (.ok [], τ3) := by
      unfold Lex.formMap
      refine (T.bind_ok (show T.ctxGet? Env.tags env τ0 = (.ok env.tags, τ0) from rfl)).trans ?_
      have ht : pickTags [] env.tags = [] := he.tags
      rw [ht]
      have er : (Lex.formResetIf C τ.forms.length [] reset : T Path Unit) env τ0 = (.ok (), τ0) := by
        unfold Lex.formResetIf
        cases reset with
        | false => rfl
        | true =>
          simp only [if_true]
          have ecls : T.formCls τ.forms.length env τ0 = (.ok cls, τ0) := by
            unfold T.formCls
            have : τ0.forms[τ.forms.length]? = some o0 := ho0
            rw [this]
          exact (T.bind_ok ecls).trans (reset_run _ _ o0 ho0 rfl)
      refine (T.bind_ok er).trans ?_
      have es : T.ctxGet Env.src "src" env τ0 = (.ok true, τ0) := by
        unfold T.ctxGet
        rw [he.src]
      refine (T.bind_ok es).trans ?_
      have en : Lex.nestedMap (Path.ops L) C (Lex.mapField (Path.ops L) L C (n + 1)) τ.forms.length [] u false env τ0 =
          (.ok [], τ3) := by
        unfold Lex.nestedMap
        have ew : T.withErrs false (Lex.formMapBody (Path.ops L) C (Lex.mapField (Path.ops L) L C (n + 1)) τ.forms.length [] u)
            env τ0 = (.ok ((), []), τ3) := by
          unfold T.withErrs
          have : Lex.formMapBody (Path.ops L) C (Lex.mapField (Path.ops L) L C (n + 1)) τ.forms.length [] u env
            { τ0 with errs := some { raising := false, items := [] } } = (.ok (), τ2) := e2
          rw [this]
          simp only [w2.errs]
          rfl
        refine (T.bind_ok ew).trans ?_
        have ex : (T.extend [] : T Path Unit) env τ3 = (.ok (), τ3) := by
          unfold T.extend
          have : τ3.errs = some b := hb
          rw [this]
          simp only [List.append_nil]
          show (_, ({ τ3 with errs := some b } : TSt Path)) = _
          rw [← this]
        exact (T.bind_ok ex).trans rfl
      have eat : Lex.formMapAt (Path.ops L) C (Lex.mapField (Path.ops L) L C (n + 1)) τ.forms.length .none [] u false true
          env τ0 = (.ok [], τ3) := en
      exact (T.bind_ok eat).trans rfl
    exact (T.bind_ok eform).trans rfl
  · obtain ⟨p, hp, hr⟩ := s2
    exact ⟨p, hp, hr⟩
  · have hlen : τ1.forms.length = τ.forms.length + 1 := by simp [τ1, τ0]
    refine ⟨rfl, w2.npaths, ?_, fun i hi => ?_⟩
    · have := w2.len
      rw [hlen] at this
      show τ.forms.length ≤ τ2.forms.length
      omega
    · show τ2.forms[i]? = _
      rw [w2.old i (by omega) (by omega)]
      show (τ.forms ++ [o0])[i]? = _
      rw [List.getElem?_append_left hi]
  · intro g hg w hw
    obtain ⟨x, hx, hdx⟩ := hp2 g hg w hw
    exact ⟨x, hx, hdx.mono (newer_mono (Nat.le_succ _) fun _ _ _ => rfl)⟩

end

/-! ## All fields -/

theorem bound {α : Type} {p : α → Nat → Prop} (l : List α) (h : ∀ a ∈ l, ∃ N, ∀ n ≥ N, p a n) :
    ∃ N, ∀ a ∈ l, ∀ n ≥ N, p a n := by
  induction l with
  | nil => exact ⟨0, fun a ha => by cases ha⟩
  | cons a l ih =>
    obtain ⟨N, hN⟩ := ih fun b hb => h b (by simp [hb])
    obtain ⟨M, hM⟩ := h a (by simp)
    refine ⟨max M N, fun b hb n hn => ?_⟩
    rcases List.mem_cons.1 hb with rfl | hb
    · exact hM n (by omega)
    · exact hN b hb n (by omega)

theorem step_index {L : Lib} {d : DocKind} {ws : List Val} {w v : Val} {j : Nat} (hv : v = .tuple ws ∨ v = .list ws)
    (hj : ws[j]? = some w) (hw : w.isIgnore = false) : d.step L v (.int (j : Int)) = .ok w := by
  have hN : w.isNONE = false := by cases w <;> first | rfl | (cases hw)
  have hg : getItem v (.int (j : Int)) = .ok w := by
    rcases hv with rfl | rfl <;> simp [getItem, Val.index?, seqGet?, hj]
  cases d with
  | json s l => simp only [DocKind.step, resolveJson, hg]
  | native l =>
    have ha : asItem v (.int (j : Int)) = w := by unfold asItem; rw [hg]
    simp only [DocKind.step, resolveDefault, resolveAtom, DefaultCfg.ignore, List.any_nil, Bool.false_eq_true, if_false, ha, hN,
      Bool.not_false, if_true]

theorem Field.All.undecorated {f : Field} (h : f.All Field.Undecorated) : f.Undecorated := h.node

theorem lets_nil {f : Field} (h : f.core.ignores = []) (v : Val) : f.Lets v := by
  intro x hx
  rw [h] at hx
  cases hx

theorem dict_valid {L : Lib} {req : List Val} {mx : Option Nat} {m : List (Val × Val)}
    (hr : ∀ k ∈ req, k.inList (m.map Prod.fst) = true) (hm : ∀ n, mx = some n → m.length ≤ n) :
    Lex.dictValidate (Path.ops L) L (.set req) mx (.dict m) = T.pure true := by
  have hmiss : missingKeys (.set req) (.dict m) = .ok [] := by
    unfold missingKeys
    cases req with
    | nil => rfl
    | cons k req =>
      have : (k :: req).filter (fun k => !(k.inList (m.map Prod.fst))) = [] := by
        rw [List.filter_eq_nil_iff]
        intro a ha
        rw [hr a ha]
        simp
      show Except.ok _ = _
      rw [this]
  unfold Lex.dictValidate
  rw [hmiss, T.ofExcept_ok_bind]
  simp only [List.isEmpty_nil, Bool.not_true, Bool.false_eq_true, if_false]
  cases mx with
  | none => rfl
  | some k =>
    cases k with
    | zero => rfl
    | succ k =>
      have hl := hm (k + 1) rfl
      have hlen : pyLen (.dict m) = .ok m.length := rfl
      funext env τ
      refine (T.bind_ok (a := m.length) (τ' := τ) rfl).trans ?_
      rw [if_neg (by omega)]

/-- A form with values for the fields another form has values for, with the same data. -/
theorem Dumps.again {L : Lib} {d : DocKind} {C : Classes} {F' : Nat → Option FormObj} {f : Field} {cls : Nat} {r : Bool}
    {u : Unmapped} {id' : Nat} {o o' : FormObj} {kvs : List (Val × Val)} {ys : Field → Val} (h : f.kind = .subform cls r u)
    (hu : u = .str .ignore ∨ u = .str .none) (hi : f.core.ignores = []) (ho : F' id' = some o') (hc : o'.cls = cls)
    (hl : Legible d kvs) (hn : ((C cls).fields.map Field.name).Nodup) (ho' : ∀ g ∈ (C cls).fields, ∃ n, g.Own n)
    (hy : ∀ g ∈ (C cls).fields, ∀ x, dictGet? o.items g.key = some x → (g.key, ys g) ∈ kvs)
    (hz : ∀ g ∈ (C cls).fields, dictGet? o.items g.key = none →
      g.core.default = .value .NONE ∧ d.step L (.dict kvs) g.key = .ok .NONE)
    (hkk : ∀ p ∈ kvs, ∃ g ∈ (C cls).fields, p.1 = g.key ∧ ∃ x, dictGet? o.items g.key = some x)
    (hp : ∀ g ∈ (C cls).fields, ∀ x, dictGet? o.items g.key = some x →
      ∃ x', dictGet? o'.items g.key = some x' ∧ Dumps L d C F' g x' (ys g))
    (ha : ∀ g ∈ (C cls).fields, dictGet? o.items g.key = none → dictGet? o'.items g.key = none)
    (hki : ∀ p ∈ o'.items, ∃ g ∈ (C cls).fields, p.1 = g.key) : Dumps L d C F' f (.form id') (.dict kvs) := by
  have hback : ∀ g ∈ (C cls).fields, ∀ x', dictGet? o'.items g.key = some x' → ∃ x, dictGet? o.items g.key = some x := by
    intro g hg x' hx'
    cases hgx : dictGet? o.items g.key with
    | some x => exact ⟨x, rfl⟩
    | none =>
      rw [ha g hg hgx] at hx'
      cases hx'
  refine .form (o := o') (ys := ys) h hu hi ho hc hl hn ho' ?_ ?_ ?_ hki ?_
  · intro g hg x' hx'
    obtain ⟨x, hx⟩ := hback g hg x' hx'
    obtain ⟨x'', hx'', hdx⟩ := hp g hg x hx
    rw [hx'] at hx''
    cases hx''
    exact hdx
  · intro g hg x' hx'
    obtain ⟨x, hx⟩ := hback g hg x' hx'
    exact hy g hg x hx
  · intro g hg hnone
    cases hgx : dictGet? o.items g.key with
    | none => exact hz g hg hgx
    | some x =>
      obtain ⟨x', hx', -⟩ := hp g hg x hgx
      rw [hnone] at hx'
      cases hx'
  · intro p hpk
    obtain ⟨g, hg, he, x, hx⟩ := hkk p hpk
    obtain ⟨x', hx', -⟩ := hp g hg x hx
    exact ⟨g, hg, he, x', hx'⟩

/-- Mapping the data of a value, with enough recursion, gives a value with the same data. -/
theorem Dumps.lands {L : Lib} {d : DocKind} {C : Classes} {F : Nat → Option FormObj} {f : Field} {v w : Val}
    (hC : C.All Field.Undecorated) (h : Dumps L d C F f v w) : f.All Field.Undecorated → ∃ N, ∀ n ≥ N, Lands L d C n f w := by
  induction h with
  | @null f hn hi =>
    intro hf
    refine ⟨0, fun n _ root ks r env τ b he hb h hs => ?_⟩
    obtain ⟨τ', e, s, c⟩ := start_null (env := env) (C := C) (rec' := Lex.mapField (Path.ops L) L C n) hf.node hn hi h hs
    exact ⟨_, τ', e, s, rfl, c.grown, .null hn hi⟩
  | @leaf f v hk hi =>
    intro hf
    refine ⟨0, fun n _ root ks r env τ b he hb h hs => ?_⟩
    have hu := hk.usable
    obtain ⟨v', τ', e, s, hv', hR⟩ := start_run (env := env) (C := C) (rec' := Lex.mapField (Path.ops L) L C n)
      (R := fun v' τ' => v' = v ∧ Grown τ τ') hf.node hu.1 hu.2 h hs (by
      intro τ1 s1 c1
      obtain ⟨τ2, e2, s2, c2⟩ := leaf_parse (env := env) (C := C) (rec' := Lex.mapField (Path.ops L) L C n) hk s1 hs
      exact ⟨v, τ2, e2, s2, hu.1, hi, leaf_valid hf.node.translations hk, rfl, (c1.trans c2).grown⟩)
    obtain ⟨rfl, hg⟩ := hR
    exact ⟨v', τ', e, s, hv', hg, .leaf hk hi⟩
  | @list f g lo up a xs ws h hi hs hl he hx ih =>
    intro hf
    have hg : g.All Field.Undecorated := by
      have := hf.kind
      rw [h] at this
      cases this; assumption
    have hdata : ∀ (i : Nat) w, ws[i]? = some w → ∃ x, Dumps L d C F g x w ∧ ∃ N, ∀ n ≥ N, Lands L d C n g w := by
      intro i w hw
      obtain ⟨hlt, -⟩ := List.getElem?_eq_some_iff.1 hw
      have hx' := List.getElem?_eq_getElem (he ▸ hlt : i < xs.length)
      exact ⟨_, hx i _ w hx' hw, ih i _ w hx' hw hg⟩
    obtain ⟨N, hN⟩ := bound (p := fun w n => Lands L d C n g w) ws (by
      intro w hw
      obtain ⟨i, hi⟩ := List.getElem?_of_mem hw
      obtain ⟨_, -, h⟩ := hdata i w hi
      exact h)
    refine ⟨N + 1, fun n hn root ks r env τ b henv hb hst hsee => ?_⟩
    obtain ⟨n, rfl⟩ : ∃ m, n = m + 1 := ⟨n - 1, by omega⟩
    obtain ⟨v', τ', e, s, hv', hR⟩ := start_run (env := env) (C := C) (rec' := Lex.mapField (Path.ops L) L C (n + 1))
      (R := fun v' τ' => Grown τ τ' ∧ Dumps L d C (newer τ.forms.length τ'.forms) f v' (.list ws)) hf.node rfl rfl hst hsee (by
      intro τ1 s1 c1
      obtain ⟨τ2, e2, s2, c2⟩ := s1.sequence env hsee (.inr rfl)
      have c12 := c1.trans c2
      obtain ⟨ys, τ3, e3, s3, g3, hlen, d3⟩ := list_loop (b := b) (n := n) (C := C) hg.node hs henv ws 0 τ2 (by rw [c12.errs, hb]) s2
        (by
          intro j w hj
          obtain ⟨x, hdx, -⟩ := hdata j w hj
          refine ⟨?_, hN w (List.mem_of_getElem? hj) n (by omega)⟩
          rw [Nat.zero_add]
          exact hsee.snoc rfl rfl (step_index (.inr rfl) hj hdx.data.2))
      refine ⟨.list ys, τ3, ?_, s3, rfl, lets_nil hi _, ?_, c12.grown.trans g3, ?_⟩
      · unfold Lex.kindParse
        rw [h]
        show Lex.listParse _ _ g a env τ1 = _
        unfold Lex.listParse
        have eseq : Lex.seqTry (Path.ops L) env τ1 = (.ok (.ok ws.length), τ2) := by
          unfold Lex.seqTry T.tryCatch
          rw [T.bind_ok e2]
          rfl
        refine (T.bind_ok eseq).trans ?_
        exact (T.bind_ok e3).trans rfl
      · rw [kindValidate_nonnull rfl, h]
        exact (listValidate_spec ys).1 (by rw [hlen]; exact hl)
      · rw [c12.forms] at d3
        exact .list h hi hs hl hlen d3)
    exact ⟨v', τ', e, s, hv', hR⟩
  | @tuple f gs xs ws w h hw hi hs hl he hx ih =>
    intro hf
    have hg : ∀ g ∈ gs, g.All Field.Undecorated := by
      have := hf.kind
      rw [h] at this
      cases this; assumption
    have hdata : ∀ (i : Nat) g w, gs[i]? = some g → ws[i]? = some w →
        ∃ x, Dumps L d C F g x w ∧ ∃ N, ∀ n ≥ N, Lands L d C n g w := by
      intro i g w hgi hw
      obtain ⟨hlt, -⟩ := List.getElem?_eq_some_iff.1 hw
      have hx' := List.getElem?_eq_getElem (he ▸ hlt : i < xs.length)
      exact ⟨_, hx i _ _ w hgi hx' hw, ih i _ _ w hgi hx' hw (hg g (List.mem_of_getElem? hgi))⟩
    obtain ⟨N, hN⟩ := bound (p := fun (p : Field × Val) n => Lands L d C n p.1 p.2) (gs.zip ws) (by
      intro p hp
      obtain ⟨i, hi⟩ := List.getElem?_of_mem hp
      rw [List.getElem?_zip_eq_some] at hi
      obtain ⟨_, -, h⟩ := hdata i p.1 p.2 hi.1 hi.2
      exact h)
    refine ⟨N + 1, fun n hn root ks r env τ b henv hb hst hsee => ?_⟩
    obtain ⟨n, rfl⟩ : ∃ m, n = m + 1 := ⟨n - 1, by omega⟩
    have hig : w.isIgnore = false ∧ w.isNull = false ∧ w.isNONE = false := by rcases hw with rfl | rfl <;> exact ⟨rfl, rfl, rfl⟩
    obtain ⟨v', τ', e, s, hv', hR⟩ := start_run (env := env) (C := C) (rec' := Lex.mapField (Path.ops L) L C (n + 1))
      (R := fun v' τ' => Grown τ τ' ∧ Dumps L d C (newer τ.forms.length τ'.forms) f v' w) hf.node hig.1 hig.2.1 hst hsee (by
      intro τ1 s1 c1
      obtain ⟨τ2, e2, s2, c2⟩ := s1.sequence env hsee hw
      have c12 := c1.trans c2
      obtain ⟨ys, τ3, e3, s3, g3, hlen, d3⟩ := tuple_loop (b := b) (n := n) (C := C) henv gs ws 0 τ2 (by rw [c12.errs, hb]) s2 hl
        (fun g hgm => ⟨(hg g hgm).node, hs g hgm⟩)
        (by
          intro j g w' hgj hj
          obtain ⟨x, hdx, -⟩ := hdata j g w' hgj hj
          refine ⟨?_, hN (g, w') (List.mem_of_getElem? (List.getElem?_zip_eq_some.2 ⟨hgj, hj⟩)) n (by omega)⟩
          rw [Nat.zero_add]
          exact hsee.snoc rfl hig.2.2 (step_index hw hj hdx.data.2))
      refine ⟨.tuple ys, τ3, ?_, s3, rfl, lets_nil hi _, ?_, c12.grown.trans g3, ?_⟩
      · unfold Lex.kindParse
        rw [h]
        show Lex.tupleParse _ _ gs env τ1 = _
        unfold Lex.tupleParse
        refine (T.bind_ok e2).trans ?_
        rw [if_neg (by rw [hl]; simp)]
        exact (T.bind_ok e3).trans rfl
      · rw [kindValidate_nonnull rfl, h]
      · rw [c12.forms] at d3
        exact .tuple h hw hi hs hl hlen d3)
    exact ⟨v', τ', e, s, hv', hR⟩
  | @dict f kf vf req mx ts h hi hs hr hm hl hk hx ih =>
    intro hf
    obtain ⟨hkf, hvf⟩ : kf.All Field.Undecorated ∧ vf.All Field.Undecorated := by
      have := hf.kind
      rw [h] at this
      cases this; exact ⟨by assumption, by assumption⟩
    obtain ⟨N, hN⟩ := bound (p := fun (t : Val × Val × Val) n => Lands L d C n vf t.2.2) ts fun t ht => ih t ht hvf
    refine ⟨N + 1, fun n hn root ks r env τ b henv hb hst hsee => ?_⟩
    obtain ⟨n, rfl⟩ : ∃ m, n = m + 1 := ⟨n - 1, by omega⟩
    obtain ⟨v', τ', e, s, hv', hR⟩ := start_run (env := env) (C := C) (rec' := Lex.mapField (Path.ops L) L C (n + 1))
      (R := fun v' τ' => Grown τ τ' ∧ Dumps L d C (newer τ.forms.length τ'.forms) f v' (.dict (ts.map fun t => (t.1, t.2.2))))
      hf.node rfl rfl hst hsee (by
      intro τ1 s1 c1
      obtain ⟨τ2, e2, s2, c2⟩ := s1.mapping env hsee
      have c12 := c1.trans c2
      obtain ⟨ts', τ3, e3, s3, g3, hts, d3⟩ := dict_loop' (b := b) (n := n) (C := C) hkf.node hvf.node hs henv
        (ts.map fun t => (t.1, t.2.2)) [] τ2 (by rw [c12.errs, hb]) s2
        (by
          intro kw hkw
          obtain ⟨h1, h2, h3⟩ := hl.sees hsee kw hkw
          obtain ⟨t, ht, rfl⟩ := List.mem_map.1 hkw
          exact ⟨h1, (hk t ht).1, (hk t ht).2, h3, hN t ht n (by omega)⟩)
        hl.nodup (fun _ _ _ hx => by cases hx)
      have hfst : (ts'.map fun t => t.1) = ts.map fun t => t.1 := by
        have := congrArg (List.map Prod.fst) hts
        simpa [List.map_map, Function.comp_def] using this
      have hlen : ts'.length = ts.length := by simpa using congrArg List.length hfst
      have hmem : ∀ t' ∈ ts', ∃ t ∈ ts, t'.1 = t.1 := by
        intro t' ht'
        have : t'.1 ∈ ts'.map fun t => t.1 := List.mem_map.2 ⟨t', ht', rfl⟩
        rw [hfst] at this
        obtain ⟨t, ht, he⟩ := List.mem_map.1 this
        exact ⟨t, ht, he.symm⟩
      have hreq : ∀ k ∈ req, ∃ t ∈ ts', k = t.1 := by
        intro k hkr
        obtain ⟨t, ht, rfl⟩ := hr k hkr
        have : t.1 ∈ ts.map fun t => t.1 := List.mem_map.2 ⟨t, ht, rfl⟩
        rw [← hfst] at this
        obtain ⟨t', ht', he⟩ := List.mem_map.1 this
        exact ⟨t', ht', he.symm⟩
      refine ⟨.dict (ts'.map fun t => (t.1, t.2.1)), τ3, ?_, s3, rfl, lets_nil hi _, ?_, c12.grown.trans g3, ?_⟩
      · unfold Lex.kindParse
        rw [h]
        show Lex.dictParse _ _ _ _ f kf vf none env τ1 = _
        unfold Lex.dictParse
        refine (T.bind_ok e2).trans ?_
        dsimp only
        refine (T.bind_ok (show Lex.iterKeys { ks := (ts.map fun t => (t.1, t.2.2)).map Prod.fst } env τ2 = (.ok _, τ2)
          from rfl)).trans ?_
        refine (T.bind_ok e3).trans ?_
        rfl
      · rw [kindValidate_nonnull rfl, h]
        refine dict_valid (fun k hkr => ?_) (fun n hn => by simpa [hlen] using hm n hn)
        obtain ⟨t, ht, rfl⟩ := hreq k hkr
        obtain ⟨t0, ht0, he0⟩ := hmem t ht
        obtain ⟨kk, hkk, -⟩ := hl.keys (t0.1, t0.2.2) (List.mem_map.2 ⟨t0, ht0, rfl⟩)
        rw [List.map_map]
        unfold Val.inList
        rw [List.any_eq_true]
        refine ⟨t.1, List.mem_map.2 ⟨t, ht, rfl⟩, ?_⟩
        rw [he0]
        have hkk' : t0.1 = .str kk := hkk
        rw [hkk']
        exact pyEq_str.2 rfl
      · rw [c12.forms] at d3
        rw [← hts]
        refine .dict h hi hs hreq (by rw [hlen]; exact hm) (by rw [hts]; exact hl) (fun t ht => ?_) d3
        obtain ⟨t0, ht0, he0⟩ := hmem t ht
        rw [he0]
        exact hk t0 ht0)
    exact ⟨v', τ', e, s, hv', hR⟩
  | @form f cls rst u id o kvs ys h hu hi ho hc hl hn ho' hx hy hz hki hkk ih =>
    intro hf
    obtain ⟨N, hN⟩ := bound (p := fun (g : Field) n => ∀ x, dictGet? o.items g.key = some x → Lands L d C n g (ys g))
      (C cls).fields (by
      intro g hg
      cases hgx : dictGet? o.items g.key with
      | none => exact ⟨0, fun n _ x hx => by cases hx⟩
      | some x =>
        obtain ⟨N, hN⟩ := ih g hg x hgx (hC cls g hg)
        exact ⟨N, fun n hn _ _ => hN n hn⟩)
    refine ⟨N + 1, fun n hn' root ks r env τ b henv hb hst hsee => ?_⟩
    obtain ⟨n, rfl⟩ : ∃ m, n = m + 1 := ⟨n - 1, by omega⟩
    obtain ⟨v', τ', e, s, hv', hR⟩ := start_run (env := env) (C := C) (rec' := Lex.mapField (Path.ops L) L C (n + 1))
      (R := fun v' τ' => Grown τ τ' ∧ Dumps L d C (newer τ.forms.length τ'.forms) f v' (.dict kvs)) hf.node rfl rfl hst hsee (by
      intro τ1 s1 c1
      obtain ⟨τ2, o', e2, s2, g2, ho2, hc2, hp2, ha2, hi2⟩ := subform_run (b := b) (n := n) (C := C) (cls := cls) (reset := rst) (u := u)
        (D := fun g => (dictGet? o.items g.key).map fun _ => ys g) hu hl hsee henv (by rw [c1.errs, hb]) s1 (by
          intro g hg
          refine ⟨(hC cls g hg).node, ho' g hg, ?_⟩
          cases hgx : dictGet? o.items g.key with
          | none => exact hz g hg hgx
          | some x => exact ⟨hy g hg x hgx, hN g hg n (by omega) x hgx⟩) hn
      rw [c1.forms] at e2 ho2 hp2
      refine ⟨.form τ.forms.length, τ2, ?_, s2, rfl, lets_nil hi _, ?_, c1.grown.trans g2, ?_⟩
      · unfold Lex.kindParse
        rw [h]
        exact e2
      · rw [kindValidate_nonnull rfl, h]
      · refine .again h hu hi ?_ hc2 hl hn ho' hy hz hkk ?_ ?_ hi2
        · unfold newer
          rw [if_pos (Nat.le_refl _), ho2]
        · intro g hg x hx
          exact hp2 g hg (ys g) (by rw [hx]; rfl)
        · intro g hg hx
          exact ha2 g hg (by rw [hx]; rfl))
    exact ⟨v', τ', e, s, hv', hR⟩

/-- `form.map(src)` of an empty form, with the data of a form as source. -/
theorem root_run {L : Lib} {d : DocKind} {C : Classes} {n id : Nat} {env : Env} {τ : TSt Path} {kvs : List (Val × Val)}
    {src : SrcArg Path} {D : Field → Option Val} {o : FormObj} {u : Unmapped} (hsrc : Opens kvs src d)
    (hu : u = .str .ignore ∨ u = .str .none) (hk : Legible d kvs) (htags : env.tags.getD [] = [])
    (hdef : env.ignoreDefault = some false) (hctx : ∃ x, env.src = some x) (reset raising : Bool)
    (ho : τ.forms[id]? = some o) (hempty : o.items = [])
    (hfs : ∀ g ∈ (C o.cls).fields, g.Undecorated ∧ (∃ k, g.Own k) ∧ Supplied L d C n kvs g (D g))
    (hnd : ((C o.cls).fields.map Field.name).Nodup) :
    ∃ τ' o', Lex.formMap (Path.ops L) C (Lex.mapField (Path.ops L) L C (n + 1)) id src [] reset u raising env τ = (.ok [], τ') ∧
      τ'.errs = τ.errs ∧ τ.forms.length ≤ τ'.forms.length ∧
      (∀ i < τ.forms.length, i ≠ id → τ'.forms[i]? = τ.forms[i]?) ∧ τ'.forms[id]? = some o' ∧ o'.cls = o.cls ∧
      (∀ g ∈ (C o.cls).fields, ∀ w, D g = some w → ∃ x, dictGet? o'.items g.key = some x ∧
        Dumps L d C (newer (id + 1) τ'.forms) g x w) ∧
      (∀ g ∈ (C o.cls).fields, D g = none → dictGet? o'.items g.key = none) ∧
      (∀ p ∈ o'.items, ∃ g ∈ (C o.cls).fields, p.1 = g.key) := by
  obtain ⟨p0, hh, hks, hw, hnone, hroot⟩ : ∃ p0 : Path, p0.home = some (d, .dict kvs) ∧ (Path.ops L).keys p0 = [] ∧
      (Path.deep L).WF p0 ∧ src.isNone = false ∧
      ∀ env τ, Lex.rootSource (Path.ops L) C id src env τ = (.ok (.ok p0), τ) := by
    obtain ⟨p0, h1, h2, h3, h4, h5⟩ := hsrc.run (L := L) (C := C)
    refine ⟨p0, h1, h2, h3, h4, fun env τ => ?_⟩
    have h6 := h5 id (St.init : St Path)
    cases hsrc <;> (cases h6; rfl)
  obtain ⟨x, hx⟩ := hctx
  let env1 : Env := { env with src := some true }
  let τ1 : TSt Path := { τ with errs := some { raising := raising, items := [] }, path := some (some (τ.npaths, p0)), npaths := τ.npaths + 1 }
  obtain ⟨τ2, o', e2, s2, w2, ho2, hc2, hp2, ha2, hi2⟩ := body_run (D := D) (n := n) (C := C) (u := u) (o := o) (env := env1)
    (root := .dict kvs) (ks := []) (r := τ.npaths) (id := id) hu hk .root ⟨rfl, htags, hdef⟩
    (b := { raising := raising, items := [] }) (τ := τ1) rfl ⟨p0, rfl, hw, hh, hks⟩ ho hempty hfs hnd
  let τ3 : TSt Path := { τ2 with path := τ.path, errs := τ.errs }
  refine ⟨τ3, o', ?_, rfl, w2.len, w2.old, ho2, hc2, hp2, ha2, hi2⟩
  unfold Lex.formMap
  refine (T.bind_ok (show T.ctxGet? Env.tags env τ = (.ok env.tags, τ) from rfl)).trans ?_
  have ht : pickTags [] env.tags = [] := htags
  rw [ht]
  have er : (Lex.formResetIf C id [] reset : T Path Unit) env τ = (.ok (), τ) := by
    unfold Lex.formResetIf
    cases reset with
    | false => rfl
    | true =>
      simp only [if_true]
      have ecls : T.formCls id env τ = (.ok o.cls, τ) := by
        unfold T.formCls
        rw [ho]
      exact (T.bind_ok ecls).trans (reset_run _ _ o ho hempty)
  refine (T.bind_ok er).trans ?_
  have es : T.ctxGet Env.src "src" env τ = (.ok x, τ) := by
    unfold T.ctxGet
    rw [hx]
  refine (T.bind_ok es).trans ?_
  have en : Lex.rootMap (Path.ops L) C (Lex.mapField (Path.ops L) L C (n + 1)) id src [] u raising env τ = (.ok [], τ3) := by
    unfold Lex.rootMap
    refine (T.bind_ok (hroot env τ)).trans ?_
    have ew : T.withErrs raising (T.withSource (.ok p0)
        (Lex.formMapBody (Path.ops L) C (Lex.mapField (Path.ops L) L C (n + 1)) id [] u)) env τ = (.ok ((), []), τ3) := by
      unfold T.withErrs T.withSource
      have : Lex.formMapBody (Path.ops L) C (Lex.mapField (Path.ops L) L C (n + 1)) id [] u env1 τ1 = (.ok (), τ2) := e2
      dsimp only
      rw [this]
      simp only [w2.errs]
      rfl
    exact (T.bind_ok ew).trans rfl
  have eat : Lex.formMapAt (Path.ops L) C (Lex.mapField (Path.ops L) L C (n + 1)) id src [] u raising x env τ = (.ok [], τ3) := by
    unfold Lex.formMapAt
    rw [hnone]
    exact en
  refine (T.bind_ok eat).trans ?_
  cases raising <;> rfl

end Pilo
