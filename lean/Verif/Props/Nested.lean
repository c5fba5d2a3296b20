import Verif.Props.Anywhere
import Verif.Props.ComposeDemo

/-!
# C27: the errors of a `SubForm`
-/

namespace Pilo
variable {P : Type} {I : PathOps P} {L : Lib} {C : Classes}
open Anywhere

/-- `form.map()` inside a source: the errors collected are added, once, to the list they are nested in. -/
theorem nested_errs (trec : TRec P) (id : Nat) (tags : List String) (reset : Bool) (u : Unmapped)
    {env : Env} (hs : env.src = some true) {τ : TSt P} {b : ErrBuf} (hb : τ.errs = some b) :
    let A := Lex.formMap I C trec id .none tags reset u false env τ
    A.2.errs = some { b with items := b.items ++ (match A.1 with | .ok es => es | .error _ => []) } := by
  intro A
  obtain ⟨x, y, hxy⟩ := OnForms.formResetIf (P := P) (C := C) id (pickTags tags env.tags) reset
  have h1 := hxy env τ
  have eA : A = (Lex.formResetIf C id (pickTags tags env.tags) reset >>= fun _ => T.ctxGet Env.src "src" >>= fun cs =>
      Lex.formMapAt I C trec id .none (pickTags tags env.tags) u false cs >>= fun es =>
      Lex.formFinish false es) env τ := rfl
  cases hx : x τ.forms with
  | error e =>
    rw [hx] at h1
    rw [T.bind_error h1] at eA
    rw [eA]
    simp [hb]
  | ok _ =>
    rw [hx] at h1
    rw [T.bind_ok h1, T.bind_ok (show T.ctxGet Env.src "src" env _ = (.ok true, _) by unfold T.ctxGet; rw [hs])] at eA
    generalize hτ1 : ({ τ with forms := y τ.forms } : TSt P) = τ1 at eA
    have hb1 : τ1.errs = some b := by rw [← hτ1]; exact hb
    have eA2 : A = (T.withErrs false (Lex.formMapBody I C trec id (pickTags tags env.tags) u) >>=
      fun y => T.extend y.2 >>= fun _ => T.pure y.2) env τ1 := by
      rw [eA]
      show (Lex.nestedMap I C trec id _ u false >>= fun es => T.pure es) env τ1 = _
      rcases h : Lex.nestedMap I C trec id (pickTags tags env.tags) u false env τ1 with ⟨ra, τa⟩
      cases ra with
      | ok a => rw [T.bind_ok h]; exact h.symm
      | error e => rw [T.bind_error h]; exact h.symm
    rcases hX : Lex.formMapBody I C trec id (pickTags tags env.tags) u env
      { τ1 with errs := some { raising := false, items := [] } } with ⟨rx, τ2⟩
    have hX' : T.withErrs false (Lex.formMapBody I C trec id (pickTags tags env.tags) u) env τ1 =
        match (generalizing := false) rx with
        | .ok a => (.ok (a, τ2.errs.elim [] ErrBuf.items), { τ2 with errs := τ1.errs })
        | .error e => (.error e, { τ2 with errs := τ1.errs }) := by
      unfold T.withErrs
      rw [hX]
      cases rx <;> rfl
    cases rx with
    | error x =>
      rw [T.bind_error hX'] at eA2
      rw [eA2]
      simp [hb1]
    | ok a =>
      rw [T.bind_ok hX'] at eA2
      have hE : T.extend (τ2.errs.elim [] ErrBuf.items) env { τ2 with errs := τ1.errs } =
          (.ok (), { τ2 with errs := some { b with items := b.items ++ τ2.errs.elim [] ErrBuf.items } }) := by
        unfold T.extend
        simp only [hb1]
      rw [T.bind_ok hE] at eA2
      rw [eA2]
      rfl

/-- C27.  `SubForm._parse` inside a source, in a context whose error list is `b`, for any class whose hooks do not
read attributes of forms.  The nested mapping is `form.map()` of a new form.

* If it returns, having collected the errors `R.2.errors e`: the result is that form when there are none and
  `ERROR` otherwise, and the error list of the context is `b` followed by those errors.
* If it raises, so does `_parse`, and `b` is unchanged.

The list `e` is a new one: the errors reach the enclosing list only by being appended to it. -/
theorem C27_subform (hC : C.All LexNode) (n cls : Nat) (reset : Bool) {u : Unmapped} (hu : u.All LexNode)
    {s : St P} (hl : Live s) (hs : s.env.src = some true) {b : ErrBuf} (hb : curErrs s = some b) :
    let new := newForm cls s
    let R := Form.map I L C n s.forms.length .none [] reset u false new.2
    let A := subParse I C (mapField I L C n) cls reset u s
    new.1 = .ok s.forms.length ∧ new.2.forms = s.forms ++ [{ cls := cls, items := [] }] ∧
    (∀ e, R.1 = .ok e →
      A.1 = .ok (if (R.2.errors e).isEmpty then .form s.forms.length else .ERROR) ∧
      curErrs A.2 = some { b with items := b.items ++ R.2.errors e } ∧
      A.2.forms = R.2.forms) ∧
    (∀ x, R.1 = .error x → A.1 = .error x ∧ curErrs A.2 = some b ∧ A.2.forms = R.2.forms) := by
  intro new R A
  have hR : RefEAt (Form.map I L C n s.forms.length .none [] reset u false)
      (Lex.formMap I C (Lex.mapField I L C n) s.forms.length .none [] reset u false)
      s.env (T.newForm cls s.env s.view).2 new.2 :=
    RefE.formMap (I := I) hC (Ref.mapField (I := I) (L := L) hC n) _ _ [] reset hu false _ _ _
      (Ref.newForm cls _ _ _ hl.agree).agree
  obtain ⟨a1, a2, a3, -⟩ := (Ref.subParse (I := I) hC (Ref.mapField (I := I) (L := L) hC n) cls reset hu).run hl
  have hE := nested_errs (I := I) (C := C) (Lex.mapField I L C n) s.forms.length [] reset u hs
    (τ := (T.newForm cls s.env s.view).2) (b := b) hb
  have eA : Lex.subParse I C (Lex.mapField I L C n) cls reset u s.env s.view =
      (Lex.formMap I C (Lex.mapField I L C n) s.forms.length .none [] reset u false >>= fun es =>
        T.pure (if es.isEmpty then .form s.forms.length else .ERROR)) s.env (T.newForm cls s.env s.view).2 :=
    T.bind_ok (show T.newForm cls s.env s.view = (.ok s.forms.length, _) from rfl)
  rw [eA] at a1 a2 a3
  refine ⟨rfl, rfl, fun e he => ?_, fun x hx => ?_⟩
  · have h1 := hR.to_ok he
    have h2 : R.2.forms = _ := hR.agree.forms
    rcases hF : Lex.formMap I C (Lex.mapField I L C n) s.forms.length .none [] reset u false s.env
      (T.newForm cls s.env s.view).2 with ⟨r, τ'⟩
    rw [hF] at h1 h2 hE
    dsimp only at h1 h2 hE
    subst h1
    rw [T.bind_ok hF] at a1 a2 a3
    exact ⟨a1, a2.trans hE, a3.trans h2.symm⟩
  · have h1 : (Lex.formMap I C (Lex.mapField I L C n) s.forms.length .none [] reset u false s.env
        (T.newForm cls s.env s.view).2).1 = .error x := by
      have h4 := hR.res
      rw [show (Form.map I L C n s.forms.length .none [] reset u false new.2).1 = .error x from hx] at h4
      generalize (Lex.formMap I C (Lex.mapField I L C n) s.forms.length .none [] reset u false s.env
        (T.newForm cls s.env s.view).2).1 = y at h4 ⊢
      cases y with
      | ok _ => exact h4.elim
      | error y => exact congrArg _ h4.symm
    have h2 : R.2.forms = _ := hR.agree.forms
    rcases hF : Lex.formMap I C (Lex.mapField I L C n) s.forms.length .none [] reset u false s.env
      (T.newForm cls s.env s.view).2 with ⟨r, τ'⟩
    rw [hF] at h1 h2 hE
    dsimp only at h1 h2 hE
    subst h1
    rw [T.bind_error hF] at a1 a2 a3
    exact ⟨a1, a2.trans (hE.trans (by simp)), a3.trans h2.symm⟩

/-! ### Any hooks -/

section
variable {W : LawfulPath I} {rec : Rec P}

theorem nestedMap_any (hr : RecKeeps W rec) {id : Nat} {T : List String} {u : Unmapped} {raising : Bool} {s s' : St P}
    {e o : Nat} {b : ErrBuf} (hi : Inv W s) (ho : lookup Frame.errors s.stack = some o) (hb : s.errs[o]? = some b)
    (hn : nestedMap I C rec id T u raising s = (.ok e, s')) :
    s'.stack = s.stack ∧ ∃ mid, s'.errs[o]? = some { b with items := b.items ++ mid ++ s'.errors e } := by
  unfold nestedMap at hn
  have hne : newErrs raising s = (.ok s.errs.length, { s with errs := s.errs ++ [⟨raising, []⟩] }) := rfl
  rw [M.bind_ok hne] at hn
  have hie : Inv W { s with errs := s.errs ++ [⟨raising, []⟩] } := by
    have := (Keeps.newErrs (W := W) raising).run s hi
    rw [hne] at this
    exact this.inv hi
  obtain ⟨⟨⟩, sx, hn1, hn⟩ := bindOk hn
  have hk := (Keeps.withPush (W := W) (PushOK.vars (W := W) { errors := some s.errs.length })
    (Keeps.formMapBody hr id T u (C := C))).run _ hie
  rw [hn1] at hk
  obtain ⟨outer, sy, hn2, hm⟩ := bindOk hn
  have hlt : o < s.errs.length := (List.getElem?_eq_some_iff.1 hb).1
  have hsy : sy = sx ∧ outer = o := by
    unfold ctxGet at hn2
    have h1 : lookup Frame.errors sx.stack = some o := by rw [hk.stack]; exact ho
    rw [h1] at hn2
    cases hn2
    exact ⟨rfl, rfl⟩
  obtain ⟨rfl, rfl⟩ := hsy
  have hn3 : errItems s.errs.length sy = (.ok (sy.errors s.errs.length), sy) := rfl
  rw [M.bind_ok hn3] at hm
  have hn4 : errExtend outer (sy.errors s.errs.length) sy = (.ok (), { sy with
    errs := sy.errs.modify outer fun b => { b with items := b.items ++ sy.errors s.errs.length } }) := rfl
  rw [M.bind_ok hn4] at hm
  cases hm
  refine ⟨hk.stack, ?_⟩
  obtain ⟨b', h1, h2, mid, h3⟩ := hk.errs outer b (by
    dsimp only
    rw [List.getElem?_append_left hlt]; exact hb)
  refine ⟨mid, ?_⟩
  have h5 : (St.errors { sy with errs := sy.errs.modify outer fun b => { b with
      items := b.items ++ sy.errors s.errs.length } } s.errs.length) = sy.errors s.errs.length := by
    unfold St.errors
    rw [List.getElem?_modify]
    have : outer ≠ s.errs.length := by omega
    cases sy.errs[s.errs.length]? <;> simp [this]
  rw [h5]
  have h1 : sy.errs[outer]? = some b' := h1
  show (sy.errs.modify outer _)[outer]? = _
  rw [List.getElem?_modify, h1, h3, ← h2]
  simp

theorem formMap_any (hr : RecKeeps W rec) {id : Nat} {tags : List String} {reset : Bool} {u : Unmapped} {s s' : St P}
    {e o : Nat} {b : ErrBuf} (hi : Inv W s) (hs : s.env.src = some true)
    (ho : lookup Frame.errors s.stack = some o) (hb : s.errs[o]? = some b)
    (h : formMap I C rec id .none tags reset u false s = (.ok e, s')) :
    s'.stack = s.stack ∧ ∃ mid, s'.errs[o]? = some { b with items := b.items ++ mid ++ s'.errors e } := by
  unfold formMap at h
  rw [M.bind_ok (show ctxGet? Frame.tags s = (.ok s.env.tags, s) from rfl)] at h
  generalize pickTags tags s.env.tags = T at h
  obtain ⟨⟨⟩, sr, h1, h⟩ := bindOk h
  have hk : Keeps W (formResetIf C id T reset : M P Unit) := by
    unfold formResetIf
    split
    · exact .bind (.formCls id) fun cls => .formReset id T _
    · exact .pure _
  have hk := hk.run s hi
  rw [h1] at hk
  have her : sr.errs = s.errs := by
    unfold formResetIf at h1
    cases reset with
    | false => cases h1; rfl
    | true =>
      simp only [if_true] at h1
      obtain ⟨cls, sx, hc, h1'⟩ := bindOk h1
      have : sx = s := by
        unfold formCls at hc
        split at hc <;> cases hc
        rfl
      rw [this, formReset_run] at h1'
      injection h1' with _ h1'
      rw [← h1']
  have hsrc' : ctxGet (fun f => f.src.src?) "src" sr = (.ok true, sr) := by
    refine ctxGet_ok ?_
    rw [hk.stack]; exact hs
  rw [M.bind_ok hsrc'] at h
  obtain ⟨e', sm, h2, h3⟩ := bindOk h
  cases h3
  obtain ⟨h4, mid, h5⟩ := nestedMap_any hr (hk.inv hi) (o := o) (b := b) (by rw [hk.stack]; exact ho)
    (by rw [her]; exact hb) h2
  exact ⟨h4.trans hk.stack, mid, h5⟩

/-- C27 for any hooks.  A hook that reads a form attribute may record errors in the list of the enclosing mapping
(`mid`); all else is as above. -/
theorem C27_subform_any (n cls : Nat) (reset : Bool) (u : Unmapped)
    {s : St P} (hi : Inv W s) (hs : s.env.src = some true) {b : ErrBuf} (hb : curErrs s = some b) :
    let R := Form.map I L C n s.forms.length .none [] reset u false (newForm cls s).2
    let A := subParse I C (mapField I L C n) cls reset u s
    (∀ e, R.1 = .ok e →
      A.1 = .ok (if (R.2.errors e).isEmpty then .form s.forms.length else .ERROR) ∧
      (∃ mid, curErrs A.2 = some { b with items := b.items ++ mid ++ R.2.errors e }) ∧
      A.2 = R.2) ∧
    (∀ x, R.1 = .error x → A.1 = .error x ∧ A.2 = R.2) := by
  intro R A
  have hnew : newForm cls s = (.ok s.forms.length, (newForm cls s).2) := rfl
  rcases hR : formMap I C (mapField I L C n) s.forms.length .none [] reset u false (newForm cls s).2 with ⟨r, s'⟩
  have hR' : R = (r, s') := hR
  have eA : A = (formMap I C (mapField I L C n) s.forms.length .none [] reset u false >>= fun e =>
      errItems e >>= fun es => M.pure (if es.isEmpty then .form s.forms.length else .ERROR)) (newForm cls s).2 := by
    show subParse I C _ cls reset u s = _
    unfold subParse
    exact M.bind_ok hnew
  cases r with
  | error x =>
    rw [M.bind_error hR] at eA
    rw [eA, hR']
    exact ⟨fun e h => (by cases h), fun y h => (by cases h; exact ⟨rfl, rfl⟩)⟩
  | ok e =>
    rw [M.bind_ok hR] at eA
    rw [M.bind_ok (show errItems e s' = (.ok (s'.errors e), s') from rfl)] at eA
    rw [eA, hR']
    refine ⟨fun e' h => ?_, fun y h => (by cases h)⟩
    cases h
    refine ⟨rfl, ?_, rfl⟩
    obtain ⟨o, ho, hb'⟩ : ∃ o, lookup Frame.errors s.stack = some o ∧ s.errs[o]? = some b := by
      unfold curErrs at hb
      split at hb
      · cases hb
      · exact ⟨_, by assumption, hb⟩
    obtain ⟨hst, mid, hm⟩ := formMap_any (C := C) (Keeps.mapField (W := W) (I := I) (L := L) (C := C) n)
      (((Keeps.newForm (W := W) cls).run s hi).inv hi) hs ho hb' hR
    refine ⟨mid, ?_⟩
    show curErrs s' = _
    unfold curErrs
    rw [hst, show (newForm cls s).2.stack = s.stack from rfl, ho]
    exact hm

end

/-! ### Examples -/

open Demo

/-- A subform of class `G` whose document is wrong in two places, below a list that already holds an error. -/
def Demo.worse : St Path :=
  { here (Path.ops lib) docBad with errs := [⟨false, [⟨.missing, "z", some "z", none⟩]⟩] }

theorem Demo.worse_inv : Inv (Path.lawful lib) worse :=
  { here_inv (Path.lawful lib) docBad with }

theorem Demo.worse_live : Live worse :=
  { here_live (I := Path.ops lib) docBad with
    errs := by
      intro e h
      simp [worse, here, lookup, rootFrame] at h
      subst h; simp [worse] }

example := C27_subform (I := Path.ops lib) (L := lib) (C := table) (table_hookFree.imp fun _ h => h.lexNode) 10 1 false
  (u := .str .ignore) .str worse_live rfl (b := ⟨false, [⟨.missing, "z", some "z", none⟩]⟩) rfl

example := C27_subform_any (I := Path.ops lib) (L := lib) (C := table) 10 1 false
  (.str .ignore) worse_inv rfl (b := ⟨false, [⟨.missing, "z", some "z", none⟩]⟩) rfl

/-- The errors of the nested mapping, and what the `SubForm` gives and leaves in the list. -/
example : (after (Form.map (Path.ops lib) lib table 10 1 .none [] false (.str .ignore) false (newForm 1 worse).2) []).1 =
    .ok [(.invalid "\"x\" is not an integer", "f.a"), (.missing, "xs")] := by decide +kernel
example : told (subParse (Path.ops lib) table (mapField (Path.ops lib) lib table 10) 1 false (.str .ignore) worse) =
    (.ok .ERROR, some [(.missing, "z"), (.invalid "\"x\" is not an integer", "f.a"), (.missing, "xs")]) := by decide +kernel

end Pilo
