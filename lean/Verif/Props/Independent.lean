import Verif.Blind
import Verif.Props.Modes
import Verif.Props.Frame

/-!
# C58: the outcome of mapping does not depend on what the form was used for before
-/

namespace Pilo
variable {P : Type} {I : PathOps P} {L : Lib} {C : Classes}

/-- What a caller of `form.map(...)` gets: the exception, or the errors in the returned list. -/
def outcome (x : Except Exc Nat × St P) : Except Exc (List Err) :=
  match x.1 with
  | .ok e => .ok (x.2.errors e)
  | .error y => .error y

/-- The states differ in the contents of forms only. -/
structure SameButContents (s s' : St P) : Prop where
  stack : s.stack = s'.stack
  paths : s.paths = s'.paths
  errs : s.errs = s'.errs
  cls : s.forms.map FormObj.cls = s'.forms.map FormObj.cls

/-- The hooks are functions of the value, and there is no `key_filter`. -/
def CalmKeys (f : Field) : Prop :=
  ValueHooks True f ∧ ∀ kf vf kfl r m, f.kind = .dict kf vf kfl r m → kfl = none

namespace Blind
variable {S : Spec}

theorem fit_of_calmKeys {f : Field} (h : CalmKeys f) : (closed S I L C).Fit f := by
  refine ⟨h.1, ?_⟩
  show looksAt S f.kind
  cases hk : f.kind with
  | dict kf vf kfl r m =>
    intro id e
    rw [h.2 kf vf kfl r m hk] at e
    cases e
  | _ => trivial

theorem outcome_eq {m : M P Nat} {t : T P (List Err)} {env : Env} {τ : TSt P} {s : St P} (h : RefEAt m t env τ s) :
    outcome (m s) = (t env τ).1 := by
  unfold outcome
  cases hm : (m s).1 with
  | ok e => exact (h.to_ok hm).symm
  | error x =>
    have hr := h.res
    rw [hm] at hr
    cases ht : (t env τ).1 with
    | ok es => rw [ht] at hr; exact hr.elim
    | error y => rw [ht] at hr; exact congrArg _ hr

theorem view_rel {s s' : St P} (h : SameButContents s s') (hS : S.base ≤ s.forms.length)
    (hg : ∀ i : Nat, S.good i → i < s.forms.length → s.forms[i]? = s'.forms[i]?)
    (hk : ∀ i k, S.keys i k → s.entry i k = s'.entry i k) : Rel S s.view s'.view := by
  have hlen : s.forms.length = s'.forms.length := by simpa using congrArg List.length h.cls
  refine ⟨?_, ?_, ?_, ⟨hlen, hS, fun i => ?_, fun i hi => ?_, hk⟩⟩
  · unfold St.view curPathObj
    rw [h.stack, h.paths]
  · unfold St.view curErrs
    rw [h.stack, h.errs]
  · unfold St.view
    rw [h.paths]
  · have := congrArg (fun l : List Nat => l[i]?) h.cls
    show Option.map FormObj.cls s.forms[i]? = Option.map FormObj.cls s'.forms[i]?
    simpa using this
  · by_cases hi' : i < s.forms.length
    · exact hg i hi hi'
    · show s.forms[i]? = s'.forms[i]?
      rw [List.getElem?_eq_none (by omega), List.getElem?_eq_none (by omega)]

theorem live_twin {s s' : St P} (h : SameButContents s s') (hl : Live s) : Live s' where
  root := by rw [← h.stack]; exact hl.root
  path := by rw [← h.stack, ← h.paths]; exact hl.path
  errs := by rw [← h.stack, ← h.errs]; exact hl.errs
  ids := by
    have hlen : s.forms.length = s'.forms.length := by simpa using congrArg List.length h.cls
    rw [← h.stack, ← hlen]
    exact hl.ids

/-- What `_reset` leaves. -/
theorem resetRun (id : Nat) (tags : List String) (fs : List Field) (env : Env) (τ : TSt P) :
    Lex.formReset id tags fs env τ = (.ok (), { τ with forms := τ.forms.modify id fun o =>
      { o with items := o.items.filter fun kv => !fs.any fun f => selected tags f && f.key.pyEq kv.1 } }) := by
  have hself : ∀ l : List FormObj, (l.modify id fun o => o) = l := by
    intro l
    refine List.ext_getElem? fun j => ?_
    rw [List.getElem?_modify]
    split <;> simp
  induction fs generalizing τ with
  | nil =>
    unfold Lex.formReset
    have : (fun o : FormObj => { o with items := (o.items.filter (fun kv =>
        !(([] : List Field).any (fun f => selected tags f && f.key.pyEq kv.1)))) }) = fun o => o := by
      funext o
      rw [List.filter_eq_self.2 (by intro _ _; rfl)]
    rw [this, hself]
    rfl
  | cons f fs ih =>
    have hmm : ∀ (l : List FormObj) (g h : FormObj → FormObj),
        (l.modify id g).modify id h = l.modify id fun o => h (g o) := by
      intro l g h
      refine List.ext_getElem? fun j => ?_
      rw [List.getElem?_modify, List.getElem?_modify, List.getElem?_modify]
      rcases l[j]? with _ | o
      · rfl
      · show some _ = some _
        split <;> rfl
    have hstep : ∀ σ, (if selected tags f then T.formModify id (dictDel · f.key) else T.pure () : T P Unit) env τ =
        (.ok (), σ) → Lex.formReset id tags (f :: fs) env τ = Lex.formReset id tags fs env σ := by
      intro σ h
      rw [Lex.formReset]
      rw [T.bind_ok h]
    by_cases hs : selected tags f = true
    · rw [hstep _ (by rw [if_pos hs]; rfl), ih]
      dsimp only
      rw [hmm]
      congr 2
      congr 1
      funext o
      dsimp only
      rw [show dictDel o.items f.key = o.items.filter fun p => !(f.key.pyEq p.1) from rfl, List.filter_filter]
      congr 1
      refine List.filter_congr fun kv _ => ?_
      simp only [List.any_cons, hs, Bool.true_and, Bool.not_or]
      rw [Bool.and_comm]
    · rw [hstep τ (by rw [if_neg hs]; rfl), ih]
      congr 2
      congr 1
      funext o
      congr 1
      refine List.filter_congr fun kv _ => ?_
      simp [hs]

/-- The rest of `Form.map` after resetting. -/
theorem formMap_rest {n id : Nat} {src : SrcArg P} {tags : List String} {reset : Bool} {u : Unmapped} {raising : Bool}
    (hb : ∀ tags, Blind.Same S (Lex.formMapBody I C (Lex.mapField I L C n) id tags u)) (env : Env) {τ σ τ1 σ1 : TSt P}
    {r : Except Exc Unit} (h1 : Lex.formResetIf C id (pickTags tags env.tags) reset env τ = (r, τ1))
    (h2 : Lex.formResetIf C id (pickTags tags env.tags) reset env σ = (r, σ1)) (hr : Rel S τ1 σ1) :
    (Lex.formMap I C (Lex.mapField I L C n) id src tags reset u raising env τ).1 =
      (Lex.formMap I C (Lex.mapField I L C n) id src tags reset u raising env σ).1 ∧
    Rel S (Lex.formMap I C (Lex.mapField I L C n) id src tags reset u raising env τ).2
      (Lex.formMap I C (Lex.mapField I L C n) id src tags reset u raising env σ).2 := by
  unfold Lex.formMap
  rw [T.bind_ok (show T.ctxGet? Env.tags env τ = (.ok env.tags, τ) from rfl),
    T.bind_ok (show T.ctxGet? Env.tags env σ = (.ok env.tags, σ) from rfl)]
  cases r with
  | error e => rw [T.bind_error h1, T.bind_error h2]; exact ⟨rfl, hr⟩
  | ok _ =>
    rw [T.bind_ok h1, T.bind_ok h2]
    exact Blind.Same.bind (.ctxGet _ _) (fun _ => .bind (.formMapAt _ (hb _) _ _) fun _ => .formFinish _ _) env τ1 σ1 hr

end Blind

open Blind

/-- C58. The same mapping of a form of classes whose hooks are functions of the value, in two states that differ only in what is in the forms:
the outcome (exception or errors) is the same, the forms made for subforms are the same, and so is every entry
of the form which was the same before, or which is declared and selected when mapping with `reset=True`.  `src`
is anything, `unmapped` is none or `'ignore'`. -/
theorem C58_blind (hC : C.All CalmKeys) (n : Nat) (id : Nat) (src : SrcArg P) (tags : List String) (reset : Bool)
    {u : Unmapped} (hu : u = .str .none ∨ u = .str .ignore) (raising : Bool) {s s' : St P} (hl : Live s)
    (h : SameButContents s s') :
    let a := Form.map I L C n id src tags reset u raising s
    let b := Form.map I L C n id src tags reset u raising s'
    outcome a = outcome b ∧ a.2.forms.length = b.2.forms.length ∧
    (∀ j : Nat, s.forms.length ≤ j → a.2.forms[j]? = b.2.forms[j]?) ∧
    ∀ k, (s.entry id k = s'.entry id k ∨ reset = true ∧ ∃ o : FormObj, s.forms[id]? = some o ∧
        ∃ f ∈ (C o.cls).fields, selected (s.tagsFor tags) f = true ∧ f.name = some k) →
      a.2.entry id k = b.2.entry id k := by
  let S : Spec := { base := s.forms.length, good := fun i => s.forms.length ≤ i,
                    keys := fun i k => i = id ∧ (s.entry id k = s'.entry id k ∨ reset = true ∧ ∃ o : FormObj, s.forms[id]? = some o ∧
                      ∃ f ∈ (C o.cls).fields, selected (s.tagsFor tags) f = true ∧ f.name = some k),
                    fresh := fun _ h => h }
  let S0 : Spec := { S with keys := fun i k => s.entry i k = s'.entry i k }
  have hfree : C.All LexNode := hC.imp fun _ h => h.1.lexNode
  have hrec := Ref.mapField (I := I) (L := L) hfree n
  have hull : u.All LexNode := by rcases hu with rfl | rfl <;> exact .str
  have r1 := RefE.formMap (I := I) hfree hrec id src tags reset hull raising s.env s.view s hl.agree
  have r2 := RefE.formMap (I := I) hfree hrec id src tags reset hull raising s'.env s'.view s' (live_twin h hl).agree
  have henv : s'.env = s.env := by unfold St.env; rw [h.stack]
  rw [henv] at r2
  have hbody : ∀ tags, Blind.Same S (Lex.formMapBody I C (Lex.mapField I L C n) id tags u) := by
    intro tags
    have hr := Closed.mapField (K := closed S I L C) (hC.imp fun _ h => fit_of_calmKeys h) n
    unfold Lex.formMapBody
    refine .bind (.onPath _) fun _ => .bind (.formCls _) fun cls => .bind (.withEnv _
      (Closed.mapFields (K := closed S I L C) hr tags _ fun f hf => (hC cls f hf).imp fun _ h => fit_of_calmKeys h)) fun _ => ?_
    rcases hu with rfl | rfl <;> exact .pure _
  have hrel0 : Rel S0 s.view s'.view :=
    view_rel h (Nat.le_refl _) (fun i hi hi' => absurd hi' (Nat.not_lt.2 hi)) fun i k hik => hik
  obtain ⟨hres, hrel⟩ := Blind.Same.formResetIf (S := S0) (C := C) id (pickTags tags s.env.tags) reset s.env _ _ hrel0
  rcases e1 : Lex.formResetIf C id (pickTags tags s.env.tags) reset s.env s.view with ⟨r, τ1⟩
  rcases e2 : Lex.formResetIf C id (pickTags tags s.env.tags) reset s.env s'.view with ⟨r', σ1⟩
  rw [e1, e2] at hres hrel
  dsimp only at hres hrel
  subst hres
  have hrel1 : Rel S τ1 σ1 := by
    refine ⟨hrel.path, hrel.errs, hrel.npaths, ⟨hrel.forms.len, hrel.forms.base, hrel.forms.cls, hrel.forms.good, ?_⟩⟩
    rintro i k ⟨rfl, hk | ⟨rfl, o, ho, f, hf, hsel, hn⟩⟩
    · exact hrel.forms.keys i k hk
    · have hgone : ∀ {v τ1 : TSt P} {o' : FormObj}, v.forms[i]? = some o' → o'.cls = o.cls →
          Lex.formResetIf C i (pickTags tags s.env.tags) true s.env v = (r, τ1) → entryOf τ1.forms i k = none := by
        intro v τ1 o' ho' hc' e
        unfold Lex.formResetIf at e
        rw [if_pos rfl, T.bind_ok (show T.formCls i s.env v = (.ok o'.cls, v) from by unfold T.formCls; rw [ho']),
          resetRun, hc'] at e
        cases e
        unfold entryOf
        dsimp only
        rw [List.getElem?_modify, ho']
        show dictGet? (if i = i then _ else o').items _ = none
        rw [if_pos rfl]
        unfold dictGet?
        dsimp only
        have hkey : f.key = .str k := by unfold Field.key; rw [hn]
        rw [List.find?_eq_none.2 ?_]
        intro kv hkv hp
        have h1 := (List.mem_filter.1 hkv).2
        rw [pyEq_str.1 hp] at h1
        have : (C o.cls).fields.any (fun f => selected (pickTags tags s.env.tags) f && f.key.pyEq (.str k)) = true := by
          rw [List.any_eq_true]
          exact ⟨f, hf, by rw [hkey, pyEq_str.2 rfl, Bool.and_true]; exact hsel⟩
        rw [this] at h1
        cases h1
      have hc := hrel0.forms.cls i
      have hvo : s.view.forms[i]? = some o := ho
      rw [hvo] at hc
      rcases ho' : s'.view.forms[i]? with _ | o'
      · rw [ho'] at hc; cases hc
      · rw [ho'] at hc
        simp only [Option.map_some, Option.some.injEq] at hc
        rw [hgone ho rfl e1, hgone ho' hc.symm e2]
  obtain ⟨h1, h2⟩ := formMap_rest (src := src) (raising := raising) hbody s.env e1 e2 hrel1
  have ha := r1.agree.forms
  have hb := r2.agree.forms
  refine ⟨(outcome_eq r1).trans (h1.trans (outcome_eq r2).symm), ?_, fun j hj => ?_, fun k hk => ?_⟩
  · show (formMap I C (mapField I L C n) id src tags reset u raising s).2.forms.length = _
    rw [ha]
    exact h2.forms.len.trans (congrArg _ hb.symm)
  · show (formMap I C (mapField I L C n) id src tags reset u raising s).2.forms[j]? =
      (formMap I C (mapField I L C n) id src tags reset u raising s').2.forms[j]?
    rw [ha, hb]
    exact h2.forms.good j hj
  · have := h2.forms.keys id k ⟨rfl, hk⟩
    unfold entryOf at this
    unfold St.entry
    show ((formMap I C (mapField I L C n) id src tags reset u raising s).2.forms[id]?).bind _ =
      ((formMap I C (mapField I L C n) id src tags reset u raising s').2.forms[id]?).bind _
    rw [ha, hb]
    exact this

/-- C58 with unmapped keys captured. If, after `reset=True`, the form itself has the same other entries and the
same parent in both states, the mapped form is the same. -/
theorem C58_capture (hC : C.All CalmKeys) (n : Nat) (id : Nat) (src : SrcArg P) (tags : List String)
    {u : Unmapped} (hu : u.All CalmKeys) (raising : Bool) {s s' : St P} (hl : Live s)
    (h : SameButContents s s') {o o' : FormObj} (ho : s.forms[id]? = some o) (ho' : s'.forms[id]? = some o')
    (hp : o.parent = o'.parent)
    (hrest : (o.items.filter fun kv => !(C o.cls).fields.any fun f => selected (s.tagsFor tags) f && f.key.pyEq kv.1) =
      o'.items.filter fun kv => !(C o.cls).fields.any fun f => selected (s.tagsFor tags) f && f.key.pyEq kv.1) :
    let a := Form.map I L C n id src tags true u raising s
    let b := Form.map I L C n id src tags true u raising s'
    outcome a = outcome b ∧ a.2.forms[id]? = b.2.forms[id]? ∧
    ∀ j : Nat, s.forms.length ≤ j → a.2.forms[j]? = b.2.forms[j]? := by
  let S : Spec := { base := s.forms.length, good := fun i => s.forms.length ≤ i ∨ i = id, keys := fun _ _ => False,
                    fresh := fun _ h => .inl h }
  let S0 : Spec := { S with good := fun i => s.forms.length ≤ i, fresh := fun _ h => h }
  have hfree : C.All LexNode := hC.imp fun _ h => h.1.lexNode
  have hrec := Ref.mapField (I := I) (L := L) hfree n
  have hull : u.All LexNode := hu.imp fun _ h => h.1.lexNode
  have r1 := RefE.formMap (I := I) hfree hrec id src tags true hull raising s.env s.view s hl.agree
  have r2 := RefE.formMap (I := I) hfree hrec id src tags true hull raising s'.env s'.view s' (live_twin h hl).agree
  have henv : s'.env = s.env := by unfold St.env; rw [h.stack]
  rw [henv] at r2
  have hbody : ∀ tags, Blind.Same S (Lex.formMapBody I C (Lex.mapField I L C n) id tags u) := fun tags =>
    Closed.formMapBody (K := closed S I L C) trivial (hC.imp fun _ h => fit_of_calmKeys h)
      (Closed.mapField (hC.imp fun _ h => fit_of_calmKeys h) n) (.inr rfl) tags (hu.imp fun _ h => fit_of_calmKeys h)
  have hrel0 : Rel S0 s.view s'.view :=
    view_rel h (Nat.le_refl _) (fun i hi hi' => absurd hi' (Nat.not_lt.2 hi)) fun i k hik => hik.elim
  obtain ⟨hres, hrel⟩ := Blind.Same.formResetIf (S := S0) (C := C) id (pickTags tags s.env.tags) true s.env _ _ hrel0
  rcases e1 : Lex.formResetIf C id (pickTags tags s.env.tags) true s.env s.view with ⟨r, τ1⟩
  rcases e2 : Lex.formResetIf C id (pickTags tags s.env.tags) true s.env s'.view with ⟨r', σ1⟩
  rw [e1, e2] at hres hrel
  dsimp only at hres hrel
  subst hres
  have hcls : o'.cls = o.cls := by
    have := hrel0.forms.cls id
    rw [show s.view.forms[id]? = some o from ho, show s'.view.forms[id]? = some o' from ho'] at this
    simpa using this.symm
  have hrel1 : Rel S τ1 σ1 := by
    refine ⟨hrel.path, hrel.errs, hrel.npaths, ⟨hrel.forms.len, hrel.forms.base, hrel.forms.cls, ?_, fun _ _ h => h.elim⟩⟩
    rintro i (hi | rfl)
    · exact hrel.forms.good i hi
    · have hset : ∀ {v τ1 : TSt P} {x : FormObj}, v.forms[i]? = some x → x.cls = o.cls →
          Lex.formResetIf C i (pickTags tags s.env.tags) true s.env v = (r, τ1) →
          τ1.forms[i]? = some { x with items := (x.items.filter (fun kv =>
            !((C o.cls).fields.any (fun f => selected (s.tagsFor tags) f && f.key.pyEq kv.1)))) } := by
        intro v τ1 x hx hc e
        unfold Lex.formResetIf at e
        rw [if_pos rfl, T.bind_ok (show T.formCls i s.env v = (.ok x.cls, v) from by unfold T.formCls; rw [hx]),
          resetRun, hc] at e
        cases e
        dsimp only
        rw [List.getElem?_modify, hx]
        show some (if i = i then _ else x) = _
        rw [if_pos rfl]
        rfl
      rw [hset ho rfl e1, hset ho' hcls e2, hrest, hp, hcls]
  obtain ⟨h1, h2⟩ := formMap_rest (src := src) (raising := raising) hbody s.env e1 e2 hrel1
  have ha := r1.agree.forms
  have hb := r2.agree.forms
  have hf : ∀ j : Nat, S.good j → (Form.map I L C n id src tags true u raising s).2.forms[j]? =
      (Form.map I L C n id src tags true u raising s').2.forms[j]? := by
    intro j hj
    show (formMap I C (mapField I L C n) id src tags true u raising s).2.forms[j]? =
      (formMap I C (mapField I L C n) id src tags true u raising s').2.forms[j]?
    rw [ha, hb]
    exact h2.forms.good j hj
  exact ⟨(outcome_eq r1).trans (h1.trans (outcome_eq r2).symm), hf id (.inr rfl), fun j hj => hf j (.inl hj)⟩

/-! ## Examples -/

section
open Demo

/-- The state `two`, but the form was already filled. -/
def twoUsed : St Path := { two with forms :=
  [⟨0, [(.str "child", .int 9), (.str "note", .int 8)], none⟩, ⟨1, [(.str "a", .int 7)], none⟩] }

theorem two_used : SameButContents two twoUsed := ⟨rfl, rfl, rfl, rfl⟩

theorem family_calmKeys : family.All CalmKeys := by
  intro cls f hf
  match cls with
  | 0 =>
    simp only [family, List.mem_cons, List.not_mem_nil, or_false] at hf
    rcases hf with rfl | rfl
    · exact .mk ⟨(hookFree_plain (by intro _ _ _ _ _ h; cases h)).calm, by intro _ _ _ _ _ h; cases h⟩ (.subform .str)
    · exact .mk ⟨(hookFree_plain (by intro _ _ _ _ _ h; cases h)).calm, by intro _ _ _ _ _ h; cases h⟩
        (.list (.mk ⟨(hookFree_plain (by intro _ _ _ _ _ h; cases h)).calm, by intro _ _ _ _ _ h; cases h⟩ (.subform .str)))
  | n + 1 =>
    simp only [family, List.mem_cons, List.not_mem_nil, or_false] at hf
    subst hf
    exact .mk ⟨(hookFree_plain (by intro _ _ _ _ _ h; cases h)).calm, by intro _ _ _ _ _ h; cases h⟩ .integer

/-- C58 at work: mapping with `reset=True` a document without `child`, into a used form and into a new one. -/
example :
    let doc : Val := .dict [(.str "children", .list [.dict [(.str "a", .int 2)], .dict []])]
    let a := Form.map (Path.ops lib) lib family 10 0 (.data doc) [] true (.str .ignore) false two
    let b := Form.map (Path.ops lib) lib family 10 0 (.data doc) [] true (.str .ignore) false twoUsed
    outcome a = outcome b ∧ a.2.entry 0 "child" = b.2.entry 0 "child" ∧ a.2.forms[2]? = b.2.forms[2]? := by
  intro doc
  obtain ⟨h1, -, h3, h4⟩ := C58_blind (I := Path.ops lib) (L := lib) family_calmKeys 10 0 (.data doc) [] true
    (u := .str .ignore) (.inr rfl) false two_live two_used
  exact ⟨h1, h4 "child" (.inr ⟨rfl, _, rfl, _, List.mem_cons_self, rfl, rfl⟩), h3 2 (by decide)⟩

/-- The outcome of that: two missing fields (`child`, and `a` of the second item), and the old entry is gone. -/
example :
    let doc : Val := .dict [(.str "children", .list [.dict [(.str "a", .int 2)], .dict []])]
    let b := Form.map (Path.ops lib) lib family 10 0 (.data doc) [] true (.str .ignore) false twoUsed
    (outcome b).toOption.map (·.map Err.path) = some ["child", "children[1].a"] ∧ b.2.entry 0 "child" = none ∧
      b.2.entry 0 "note" = some (.int 8) := by
  decide +kernel

/-- Without `reset` the old entry stays: what C58 says about entries needs `reset=True`. -/
example :
    let doc : Val := .dict [(.str "children", .list [])]
    let m := Form.map (Path.ops lib) lib family 10 0 (.data doc) [] false (.str .ignore) false
    (m two).2.entry 0 "child" = none ∧ (m twoUsed).2.entry 0 "child" = some (.int 9) := by
  decide +kernel

/-- The state `two`, but the form holds an old `child`. -/
def twoStale : St Path := { two with forms :=
  [⟨0, [(.str "child", .int 9)], none⟩, ⟨1, [(.str "a", .int 7)], none⟩] }

/-- Capturing: the undeclared key `note` is captured alike. -/
example :
    let doc : Val := .dict [(.str "note", .int 5)]
    (Form.map (Path.ops lib) lib family 10 0 (.data doc) [] true (.str .capture) false two).2.forms[0]? =
    (Form.map (Path.ops lib) lib family 10 0 (.data doc) [] true (.str .capture) false twoStale).2.forms[0]? := by
  intro doc
  exact (C58_capture (I := Path.ops lib) (L := lib) family_calmKeys 10 0 (.data doc) [] (u := .str .capture) .str false
    two_live (s' := twoStale) ⟨rfl, rfl, rfl, rfl⟩ rfl rfl rfl (by decide +kernel)).2.1

/-- With an undeclared entry in the form the capture differs: a key that the form has is not captured. -/
example :
    let doc : Val := .dict [(.str "note", .int 5)]
    let m := Form.map (Path.ops lib) lib family 10 0 (.data doc) [] true (.str .capture) false
    (m two).2.entry 0 "note" = some (.int 5) ∧ (m twoUsed).2.entry 0 "note" = some (.int 8) := by
  decide +kernel

end

end Pilo
