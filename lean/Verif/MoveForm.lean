import Verif.MoveEval
import Verif.Props.Forms
import Verif.Source.Pin

/-!
# The fields of a form are mapped apart from each other

A class with the field `f` only, and the step for `f` in the field loop of another class: the same mapping.
-/

namespace Pilo

theorem Found.free {v : Val} (h : Found v) : Free v := by
  rcases h with h | rfl
  · induction h with
    | none => exact .none
    | bool b => exact .bool b
    | int b => exact .int b
    | float b => exact .float b
    | decimal b => exact .decimal b
    | str b => exact .str b
    | ext a b => exact .ext a b
    | func b => exact .func b
    | obj b => exact .obj b
    | list _ ih => exact .list ih
    | tuple _ ih => exact .tuple ih
    | dict hk _ ih => exact .dict (fun p hp => Move.free_of_hashable (hk p hp).2.2) ih
  · exact .const _

/-- Paths of a given length or more. -/
def LawfulPath.pin {P : Type} {I : PathOps P} (W : LawfulPath I) : Pin I where
  O d p := W.WF p ∧ d ≤ (I.keys p).length
  value h := ⟨(W.value_keys h.1).wf, by rw [(W.value_keys h.1).keys]; exact h.2⟩
  exists_ h := ⟨(W.exists_keys h.1).wf, by rw [(W.exists_keys h.1).keys]; exact h.2⟩
  isNull h := ⟨(W.isNull_keys h.1).wf, by rw [(W.isNull_keys h.1).keys]; exact h.2⟩
  mapping h := ⟨(W.mapping_keys h.1).wf, by rw [(W.mapping_keys h.1).keys]; exact h.2⟩
  sequence h := ⟨(W.sequence_keys h.1).wf, by rw [(W.sequence_keys h.1).keys]; exact h.2⟩
  primitive h := ⟨(W.primitive_keys h.1).wf, by rw [(W.primitive_keys h.1).keys]; exact h.2⟩
  append h e := by
    obtain ⟨h1, h2⟩ := W.append_keys h.1 e
    exact ⟨h2, by rw [h1, List.length_append]; exact Nat.add_le_add_right h.2 1⟩
  pop := by
    intro d p h
    rcases List.eq_nil_or_concat (I.keys p) with h0 | ⟨ks, k, hk⟩
    · rw [h0] at h; exact absurd h.2 (by simp)
    · rw [List.concat_eq_append] at hk
      obtain ⟨q, h1, h2, h3, _⟩ := W.pop_keys h.1 hk
      refine ⟨q, h1, h3, ?_⟩
      have := h.2
      rw [hk, List.length_append] at this
      rw [h2]
      exact Nat.le_of_succ_le_succ this

/-- There is nothing to pop from a path without keys. -/
theorem Path.pop_nil {L : Lib} {p : Path} (h : (Path.ops L).keys p = []) (q : Path) : (Path.ops L).pop p ≠ .ok q := by
  have hst : ∀ {V : Type} (st : PathSt V), st.keys = [] → st.pop = .error (.indexError "list index out of range") := by
    intro V st h
    have h : st.parts = [] := List.map_eq_nil_iff.1 h
    unfold PathSt.pop
    rw [h]
    rfl
  intro e
  cases p with
  | base p =>
    cases p with
    | simple p =>
      cases p <;> simp only [Path.ops, BPath.pop, SPath.pop, hst _ h] at e <;> cases e
    | union p => simp only [Path.ops, BPath.pop, UPath.pop, hst p.st h] at e; cases e
  | mount p =>
    have h : p.keys = [] := h
    unfold MPath.keys at h
    cases hp : p.part with
    | some m => rw [hp] at h; cases h
    | none => simp only [Path.ops, MPath.pop, hp] at e; cases e

/-- Sources of plain data. -/
def Path.inert {L : Lib} (hL : CleanLib L) : Inert (Path.ops L) where
  Q p := p.Clean ∧ (Path.lawful L).WF p
  append h e := ⟨(Path.sane hL).append h.1 e, ((Path.lawful L).append_keys h.2 e).2⟩
  pop := by
    intro p q h e
    refine ⟨(Path.sane hL).pop h.1 e, ?_⟩
    rcases List.eq_nil_or_concat ((Path.ops L).keys p) with h0 | ⟨ks, k, hk⟩
    · exact absurd e (Path.pop_nil h0 q)
    · rw [List.concat_eq_append] at hk
      obtain ⟨q', h1, _, h3, _⟩ := (Path.lawful L).pop_keys h.2 hk
      rw [h1] at e
      cases e
      exact h3
  value h := ⟨(Path.sane hL).value h.1, ((Path.lawful L).value_keys h.2).wf⟩
  exists_ h := ⟨(Path.sane hL).exists_ h.1, ((Path.lawful L).exists_keys h.2).wf⟩
  isNull h := ⟨(Path.sane hL).isNull h.1, ((Path.lawful L).isNull_keys h.2).wf⟩
  mapping h := ⟨(Path.sane hL).mapping h.1, ((Path.lawful L).mapping_keys h.2).wf⟩
  sequence h := ⟨(Path.sane hL).sequence h.1, ((Path.lawful L).sequence_keys h.2).wf⟩
  primitive h := ⟨(Path.sane hL).primitive h.1, ((Path.lawful L).primitive_keys h.2).wf⟩
  value_free h hv := ((h.1.value hL).2 _ hv).free
  primitive_free h hv := ((h.1.primitive hL).2 _ hv).free
  keys_free h hk := fun k hm => Move.free_of_hashable ((h.1.mapping hL).2 _ hk k hm).2.2
  join h e := ⟨(Path.sane hL).join h.1 e, (Path.lawful L).joinPath_wf h.2 e⟩
  empty := ⟨(Path.sane hL).empty, (Path.lawful L).native_wf⟩
  again h hv := ⟨(Path.sane hL).again h.1 hv, (Path.lawful L).native_wf⟩
  positional h hv ha := ⟨(Path.sane hL).positional h.1 hv ha, (Path.lawful L).native_wf⟩
  pin h := ⟨(Path.lawful L).pin, h.2, Nat.zero_le _⟩

/-! ### One field -/

namespace Move
variable {P : Type} {I : PathOps P} {L : Lib} {C : Classes} {S : Inert I}

/-- What `form.get(name)` gives for the form `id`. -/
def entryIn (forms : List FormObj) (id : Nat) (n : String) : Option Val :=
  (forms[id]?).bind fun o => dictGet? o.items (.str n)

/-- The forms `a` and `b` change places, and forms from `base` on move by `off`. -/
def swap (base off a b i : Nat) : Nat :=
  if base ≤ i then i + off else if i = a then b else if i = b then a else i

/-- The renaming of forms by `swap`. -/
def ren {base off a b : Nat} (ha : a < base) (hb : b < base) : Ren where
  base := base
  off := off
  g := swap base off a b
  inj i j := by
    unfold swap
    repeat' split
    all_goals omega
  new i hi := by unfold swap; rw [if_pos hi]
  old i hi := by
    unfold swap
    rw [if_neg (Nat.not_le.2 hi)]
    repeat' split
    all_goals omega

theorem swap_left {base off a b : Nat} (ha : a < base) : swap base off a b a = b := by
  unfold swap
  rw [if_neg (Nat.not_le.2 ha), if_pos rfl]

/-- The environment of the fields of the form `i`. -/
def inForm (e : Env) (i : Nat) : Env := { e with form := some i, parent := some (.form i) }

/-- What the field `n` left in the form `a`, among `fs`, is found in the form `b`, among `gs`: the same value, with the
new forms in it the same but for their identities. -/
def Copied (base : Nat) (a b : Nat) (n : String) (fs gs : List FormObj) : Prop :=
  ∃ g : Nat → Nat, (∀ i j, g i = g j → i = j) ∧ (∀ i, base ≤ i → base ≤ g i) ∧
    entryIn gs b n = (entryIn fs a n).map (Val.mv g) ∧
    ∀ i o, base ≤ i → fs[i]? = some o → (gs[g i]?).map FormObj.core = some (o.cls, Val.mvDict g o.items)

/-- At the path `p`, with errors collected. -/
structure Here (p : P) (es : List Err) (τ : TSt P) : Prop where
  path : ∃ r, τ.path = some (some (r, p))
  errs : τ.errs = some ⟨false, es⟩

theorem entryIn_core {fs gs : List FormObj} {id : Nat} (n : String)
    (h : (gs[id]?).map FormObj.core = (fs[id]?).map FormObj.core) : entryIn gs id n = entryIn fs id n := by
  unfold entryIn
  cases h1 : fs[id]? <;> cases h2 : gs[id]? <;> rw [h1, h2] at h <;> simp [FormObj.core] at h ⊢
  rw [h.2]

theorem entryIn_set {forms : List FormObj} {id : Nat} (hid : id < forms.length) (m n : String) (v : Val) :
    entryIn (forms.modify id fun o => { o with items := dictSet o.items (.str m) v }) id n =
      if m = n then some v else entryIn forms id n := by
  unfold entryIn
  rw [entry_modify _ _ (fun d => dictSet d (.str m) v) hid, dictGet?_dictSet, List.getElem?_eq_getElem hid]
  rfl

theorem modify_other {α : Type} (l : List α) {i j : Nat} (f : α → α) (h : i ≠ j) : (l.modify i f)[j]? = l[j]? := by
  rw [List.getElem?_modify]
  cases l[j]? <;> simp [h]

/-- The setting: a path that reading below it does not change. -/
structure Ground (S : Inert I) (W : LawfulPath I) (Z : Pin I) (p : P) : Prop where
  q : S.Q p
  wf : W.WF p
  at0 : Z.O 0 p
  same : ∀ q, Z.O 0 q → q = p

variable {W : LawfulPath I} {Z : Pin I} {p0 : P}

/-- A field mapped for the form `a` from `τ`, and for the form `b` from `σ`. -/
theorem step (hL : FormlessLib L) (hC : C.All Decent) (hN : Named C) (G : Ground S W Z p0) (k : Nat) {tags : List String}
    {f : Field} (hf : f.All Decent) {m : String} (hm : f.name = some m) {a b base : Nat} (ha : a < base) (hb : b < base)
    (e : Env) {τ σ : TSt P} {es es' : List Err} (hτ : Here p0 es τ) (hσ : Here p0 es' σ) (lτ : τ.forms.length = base)
    (lσ : base ≤ σ.forms.length) (nτ : entryIn τ.forms a m = none) (nσ : entryIn σ.forms b m = none) :
    let x := Lex.mapOne (Lex.mapField I L C k) a tags f (inForm e a) τ
    let y := Lex.mapOne (Lex.mapField I L C k) b tags f (inForm e b) σ
    Res Eq x.1 y.1 ∧
    ∃ ds ds', Errs ds ds' ∧ Here p0 (es ++ ds) x.2 ∧ Here p0 (es' ++ ds') y.2 ∧ base ≤ y.2.forms.length ∧
      (∀ n, n ≠ m → entryIn y.2.forms b n = entryIn σ.forms b n) ∧
      (∀ i, i < σ.forms.length → i ≠ b → (y.2.forms[i]?).map FormObj.core = (σ.forms[i]?).map FormObj.core) ∧
      Copied base a b m x.2.forms y.2.forms := by
  intro x y
  obtain ⟨r, hr⟩ := hτ.path
  obtain ⟨r', hr'⟩ := hσ.path
  let R : Ren := ren (base := base) (off := σ.forms.length - base) ha hb
  have hRg : R.g = swap base (σ.forms.length - base) a b := rfl
  have hoff : σ.forms.length = base + (σ.forms.length - base) := by omega
  have hforms : Forms R τ.forms σ.forms := by
    refine ⟨by rw [lτ]; exact hoff, by rw [lτ]; exact Nat.le_refl _, ?_⟩
    intro i hi
    have hi : base ≤ i := hi
    have ho : R.off = σ.forms.length - base := rfl
    rw [List.getElem?_eq_none (by rw [ho]; omega), List.getElem?_eq_none (by omega)]
    rfl
  have hrel : Rel S R Z 0 τ σ := ⟨⟨r, r', p0, hr, hr', G.q, G.at0⟩, ⟨_, _, hτ.errs, hσ.errs⟩, hforms⟩
  have hga : R.g a = b := swap_left ha
  have henv : EnvRel R (inForm e a) (inForm e b) :=
    ⟨rfl, by rw [inForm, inForm, ← hga]; rfl, by rw [inForm, inForm, ← hga]; rfl, rfl, rfl, rfl, rfl, rfl⟩
  have hrun := (mapField (S := S) (R := R) hL hC hN k).one hf Z 0 (inForm e a) (inForm e b) τ σ henv hrel
  have hH : C.All HookFree := hC.imp fun _ h => h.free
  have hkeep := TKeeps.mapField (W := W) (L := L) hH.calm k f .NONE (hf.imp fun _ h => h.free.calm) (inForm e b) σ
    (by intro r q h; rw [hr'] at h; cases h; exact G.wf)
  have hkeepA := TKeeps.mapField (W := W) (L := L) hH.calm k f .NONE (hf.imp fun _ h => h.free.calm) (inForm e a) τ
    (by intro r q h; rw [hr] at h; cases h; exact G.wf)
  have hkey : f.key = .str m := by unfold Field.key; rw [hm]
  by_cases hs : selected tags f = true
  · have ex : x = ((do let v ← Lex.mapField I L C k f .NONE
                       if v.isIgnore then T.pure () else T.formModify a (dictSet · f.key v)) : T P Unit) (inForm e a) τ := by
      show Lex.mapOne _ _ _ _ _ _ = _
      unfold Lex.mapOne
      rw [if_pos hs]
    have ey : y = ((do let v ← Lex.mapField I L C k f .NONE
                       if v.isIgnore then T.pure () else T.formModify b (dictSet · f.key v)) : T P Unit) (inForm e b) σ := by
      show Lex.mapOne _ _ _ _ _ _ = _
      unfold Lex.mapOne
      rw [if_pos hs]
    clear_value x y
    rcases h1 : Lex.mapField I L C k f .NONE (inForm e a) τ with ⟨u, τ'⟩
    rcases h2 : Lex.mapField I L C k f .NONE (inForm e b) σ with ⟨w, σ'⟩
    rw [h1, h2] at hrun
    rw [h2] at hkeep
    rw [h1] at hkeepA
    obtain ⟨ds, ds', hd, hi1, hi2⟩ := hrun.grew
    obtain ⟨q, q', p, hp1, hp2, hq, hz⟩ := hrun.rel.path
    have hpp := G.same p hz
    subst hpp
    obtain ⟨es1, es1', he1, he2⟩ := hrun.rel.errs
    dsimp only at hp1 hp2 he1 he2 hi1 hi2
    have hH1 : Here p (es ++ ds) τ' := by
      refine ⟨⟨q, hp1⟩, ?_⟩
      rw [he1]
      simp only [items, he1, hτ.errs, Option.elim] at hi1
      rw [hi1]
    have hH2 : Here p (es' ++ ds') σ' := by
      refine ⟨⟨q', hp2⟩, ?_⟩
      rw [he2]
      simp only [items, he2, hσ.errs, Option.elim] at hi2
      rw [hi2]
    have hF : Forms R τ'.forms σ'.forms := hrun.rel.forms
    have hnone : entryIn σ'.forms b m = none := by rw [entryIn_core m (hkeep.forms b (by omega) (fun h => h)), nσ]
    have hnoneA : entryIn τ'.forms a m = none := by rw [entryIn_core m (hkeepA.forms a (by omega) (fun h => h)), nτ]
    have hbl : base ≤ σ'.forms.length := Nat.le_trans lσ hkeep.flen
    have hal : base ≤ τ'.forms.length := by rw [← lτ]; exact hkeepA.flen
    have hnew : ∀ i o, base ≤ i → τ'.forms[i]? = some o →
        (σ'.forms[R.g i]?).map FormObj.core = some (o.cls, Val.mvDict R.g o.items) := by
      intro i o hi ho
      rw [hF.get (i := i) hi, ho]
      rfl
    have hup : ∀ i, base ≤ i → base ≤ R.g i := by
      intro i hi
      rw [R.new i hi]
      exact Nat.le_trans hi (Nat.le_add_right _ _)
    have hres := hrun.res
    -- nothing is stored
    have hdone : Res Eq (x.1) (y.1) → x.2 = τ' → y.2 = σ' → _ := fun h e1 e2 =>
      (show Res Eq x.1 y.1 ∧
        ∃ ds ds', Errs ds ds' ∧ Here p (es ++ ds) x.2 ∧ Here p (es' ++ ds') y.2 ∧ base ≤ y.2.forms.length ∧
          (∀ n, n ≠ m → entryIn y.2.forms b n = entryIn σ.forms b n) ∧
          (∀ i, i < σ.forms.length → i ≠ b → (y.2.forms[i]?).map FormObj.core = (σ.forms[i]?).map FormObj.core) ∧
          Copied base a b m x.2.forms y.2.forms from by
        rw [e1, e2]
        refine ⟨h, ds, ds', hd, hH1, hH2, hbl, fun n _ => entryIn_core n (hkeep.forms b (by omega) fun h => h),
          fun i hi _ => hkeep.forms i hi fun h => h, R.g, R.inj, hup, ?_, hnew⟩
        rw [hnone, hnoneA]
        rfl)
    cases u with
    | error x1 =>
      cases w with
      | ok _ => exact hres.elim
      | error x2 =>
        rw [T.bind_error h1] at ex
        rw [T.bind_error h2] at ey
        exact hdone (by rw [ex, ey]; exact hres) (by rw [ex]) (by rw [ey])
    | ok v =>
      cases w with
      | error _ => exact hres.elim
      | ok w =>
        have hw : w = v.mv R.g := hres
        subst hw
        rw [T.bind_ok h1] at ex
        rw [T.bind_ok h2] at ey
        by_cases hig : v.isIgnore = true
        · rw [if_pos hig] at ex
          rw [isIgnore_mv, if_pos hig] at ey
          exact hdone (by rw [ex, ey]; rfl) (by rw [ex]; rfl) (by rw [ey]; rfl)
        · rw [if_neg hig, hkey] at ex
          rw [isIgnore_mv, if_neg hig, hkey] at ey
          have ex2 : x.2 = { τ' with forms := τ'.forms.modify a fun o => { o with items := dictSet o.items (.str m) v } } := by
            rw [ex]; rfl
          have ey2 : y.2 = { σ' with forms := σ'.forms.modify b fun o => { o with items := dictSet o.items (.str m) (v.mv R.g) } } := by
            rw [ey]; rfl
          refine ⟨by rw [ex, ey]; rfl, ds, ds', hd, ?_, ?_, ?_, ?_, ?_, R.g, R.inj, hup, ?_, ?_⟩
          · rw [ex2]; exact ⟨hH1.path, hH1.errs⟩
          · rw [ey2]; exact ⟨hH2.path, hH2.errs⟩
          · rw [ey2]; simpa using hbl
          · intro n hn
            rw [ey2]
            dsimp only
            rw [entryIn_set (by omega), if_neg (Ne.symm hn)]
            exact entryIn_core n (hkeep.forms b (by omega) fun h => h)
          · intro i hi hne
            rw [ey2]
            dsimp only
            rw [modify_other _ _ (Ne.symm hne)]
            exact hkeep.forms i hi fun h => h
          · rw [ex2, ey2]
            dsimp only
            rw [entryIn_set (by omega), entryIn_set (by omega), if_pos rfl, if_pos rfl]
            rfl
          · intro i o hi ho
            rw [ex2] at ho
            rw [ey2]
            dsimp only at ho ⊢
            rw [modify_other _ _ (by omega)] at ho
            rw [modify_other _ _ (by have := hup i hi; omega)]
            exact hnew i o hi ho
  · have ex : x = (.ok (), τ) := by
      show Lex.mapOne _ _ _ _ _ _ = _
      unfold Lex.mapOne
      rw [if_neg hs]
      rfl
    have ey : y = (.ok (), σ) := by
      show Lex.mapOne _ _ _ _ _ _ = _
      unfold Lex.mapOne
      rw [if_neg hs]
      rfl
    rw [ex, ey]
    refine ⟨rfl, [], [], rfl, by rw [List.append_nil]; exact hτ, by rw [List.append_nil]; exact hσ, lσ, fun _ _ => rfl,
      fun _ _ _ => rfl, R.g, R.inj, ?_, by rw [nτ, nσ]; rfl, ?_⟩
    · intro i hi
      rw [R.new i hi]
      exact Nat.le_trans hi (Nat.le_add_right _ _)
    · intro i o hi ho
      dsimp only at ho
      rw [List.getElem?_eq_none (by omega)] at ho
      cases ho

/-! ### All fields -/

/-- A field, a form, and the state from which the field is mapped for this form. -/
structure Solo (P : Type) where
  field : Field
  form : Nat
  start : TSt P

/-- A field that can be mapped alone. -/
structure Solo.Ready (p0 : P) (base : Nat) (x : Solo P) : Prop where
  decent : x.field.All Decent
  form : x.form < base
  here : Here p0 [] x.start
  forms : x.start.forms.length = base
  fresh : ∃ m, x.field.name = some m ∧ entryIn x.start.forms x.form m = none

/-- The field mapped alone. -/
def Solo.run (I : PathOps P) (L : Lib) (C : Classes) (k : Nat) (tags : List String) (e : Env) (x : Solo P) :
    Except Exc Unit × TSt P :=
  Lex.mapOne (Lex.mapField I L C k) x.form tags x.field (inForm e x.form) x.start

theorem Copied.later {base a b : Nat} {n : String} {fs gs hs : List FormObj} (hb : b < base) (h : Copied base a b n fs gs)
    (he : entryIn hs b n = entryIn gs b n)
    (hc : ∀ i, i < gs.length → i ≠ b → (hs[i]?).map FormObj.core = (gs[i]?).map FormObj.core) : Copied base a b n fs hs := by
  obtain ⟨g, h1, h2, h3, h4⟩ := h
  refine ⟨g, h1, h2, he.trans h3, fun i o hi ho => ?_⟩
  have h5 := h4 i o hi ho
  have hlt : g i < gs.length := by
    apply Decidable.byContradiction
    intro hn
    rw [List.getElem?_eq_none (by omega)] at h5
    cases h5
  rw [hc (g i) hlt (by have := h2 i hi; omega)]
  exact h5

/-- The field loop, and each of its fields alone. -/
theorem loop (hL : FormlessLib L) (hC : C.All Decent) (hN : Named C) (G : Ground S W Z p0) (k : Nat) (tags : List String)
    {b base : Nat} (hb : b < base) (e : Env) : ∀ (xs : List (Solo P)) (σ : TSt P) (es : List Err),
    (∀ x ∈ xs, x.Ready p0 base) → (xs.map fun x => x.field.name).Nodup → Here p0 es σ → base ≤ σ.forms.length →
    (∀ x ∈ xs, ∀ m, x.field.name = some m → entryIn σ.forms b m = none) →
    let y := Lex.mapFields (Lex.mapField I L C k) b tags (xs.map Solo.field) (inForm e b) σ
    ((∀ x ∈ xs, (x.run I L C k tags e).1 = .ok ()) →
      y.1 = .ok () ∧
      (∃ ds, Errs (xs.flatMap fun x => items (x.run I L C k tags e).2) ds ∧ Here p0 (es ++ ds) y.2) ∧
      (∀ n, (∀ x ∈ xs, x.field.name ≠ some n) → entryIn y.2.forms b n = entryIn σ.forms b n) ∧
      (∀ i, i < σ.forms.length → i ≠ b → (y.2.forms[i]?).map FormObj.core = (σ.forms[i]?).map FormObj.core) ∧
      ∀ x ∈ xs, ∀ m, x.field.name = some m → Copied base x.form b m (x.run I L C k tags e).2.forms y.2.forms) ∧
    (∀ pre x post z, xs = pre ++ x :: post → (∀ w ∈ pre, (w.run I L C k tags e).1 = .ok ()) →
      (x.run I L C k tags e).1 = .error z → ∃ z', y.1 = .error z' ∧ Twin.bare z = Twin.bare z') := by
  intro xs
  induction xs with
  | nil =>
    intro σ es _ _ hσ hl _ y
    refine ⟨fun _ => ⟨rfl, ⟨[], rfl, by rw [List.append_nil]; exact hσ⟩, fun _ _ => rfl, fun _ _ _ => rfl,
      by intro x h; cases h⟩, ?_⟩
    intro pre x post z h
    cases pre <;> cases h
  | cons x xs ih =>
    intro σ es hx hnd hσ hl hnone y
    have hrx := hx x (by simp)
    obtain ⟨m, hm, hfr⟩ := hrx.fresh
    obtain ⟨hres, ds, ds', hd, hA, hB, hl', hoth, hcore, hcopy⟩ := step (tags := tags) hL hC hN G k hrx.decent hm hrx.form hb e hrx.here hσ
      hrx.forms hl hfr (hnone x (by simp) m hm)
    have ey : y = (Lex.mapOne (Lex.mapField I L C k) b tags x.field >>= fun _ =>
        Lex.mapFields (Lex.mapField I L C k) b tags (xs.map Solo.field)) (inForm e b) σ := rfl
    clear_value y
    have hxr : Lex.mapOne (Lex.mapField I L C k) x.form tags x.field (inForm e x.form) x.start = x.run I L C k tags e := rfl
    rw [hxr] at hres hA hcopy
    rcases h1 : Lex.mapOne (Lex.mapField I L C k) b tags x.field (inForm e b) σ with ⟨r, σ'⟩
    rw [h1] at hres hB hl' hoth hcore hcopy
    rw [List.map_cons, List.nodup_cons] at hnd
    have hne : ∀ w ∈ xs, ∀ n, w.field.name = some n → n ≠ m := by
      rintro w hw n hn rfl
      exact hnd.1 (List.mem_map.2 ⟨w, hw, hn.trans hm.symm⟩)
    cases r with
    | error z' =>
      rw [T.bind_error h1] at ey
      cases hz : (x.run I L C k tags e).1 with
      | ok u => rw [hz] at hres; exact hres.elim
      | error z =>
        rw [hz] at hres
        refine ⟨fun h => ?_, ?_⟩
        · have := h x (by simp)
          rw [hz] at this
          cases this
        · intro pre w post z2 h hpre hw
          cases pre with
          | nil =>
            cases h
            rw [hz] at hw
            cases hw
            exact ⟨z', by rw [ey], hres⟩
          | cons w' pre =>
            cases h
            have := hpre x (by simp)
            rw [hz] at this
            cases this
    | ok u =>
      rw [T.bind_ok h1] at ey
      have hz : (x.run I L C k tags e).1 = .ok () := by
        cases hz : (x.run I L C k tags e).1 with
        | ok u => rfl
        | error z => rw [hz] at hres; exact hres.elim
      obtain ⟨ih1, ih2⟩ := ih σ' (es ++ ds') (fun w hw => hx w (by simp [hw])) hnd.2 hB hl' (by
        intro w hw n hn
        dsimp only at hoth
        rw [hoth n (hne w hw n hn)]
        exact hnone w (by simp [hw]) n hn)
      rw [← ey] at ih1 ih2
      have hitems : items (x.run I L C k tags e).2 = ds := by
        unfold items
        rw [hA.errs]
        rfl
      refine ⟨fun h => ?_, ?_⟩
      · obtain ⟨j1, ⟨d2, j2, j3⟩, j4, j5, j6⟩ := ih1 fun w hw => h w (by simp [hw])
        refine ⟨j1, ⟨ds' ++ d2, ?_, by rw [← List.append_assoc]; exact j3⟩, ?_, ?_, ?_⟩
        · rw [List.flatMap_cons, hitems]
          exact hd.append j2
        · intro n hn
          rw [j4 n fun w hw => hn w (by simp [hw])]
          exact hoth n (by rintro rfl; exact hn x (by simp) hm)
        · intro i hi hib
          have hlen : i < σ'.forms.length := by
            have h5 := hcore i hi hib
            rw [List.getElem?_eq_getElem hi] at h5
            apply Decidable.byContradiction
            intro hn
            dsimp only at h5
            rw [List.getElem?_eq_none (by omega)] at h5
            cases h5
          rw [j5 i hlen hib]
          exact hcore i hi hib
        · intro w hw n hn
          rcases List.mem_cons.1 hw with hw | hw
          · subst hw
            rw [hm] at hn
            cases hn
            exact hcopy.later hb (j4 m fun w hw h => hne w hw m h rfl) j5
          · exact j6 w hw n hn
      · intro pre w post z2 h hpre hw
        cases pre with
        | nil =>
          cases h
          rw [hz] at hw
          cases hw
        | cons w' pre =>
          cases h
          exact ih2 pre w post z2 rfl (fun v hv => hpre v (by simp [hv])) hw

end Move
end Pilo
