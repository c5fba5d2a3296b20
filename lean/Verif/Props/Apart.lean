import Verif.MoveForm
import Verif.Props.Independent
import Verif.Props.FormsDemo

/-!
# C88: the fields of a form are mapped apart from each other
-/

namespace Pilo
variable {P : Type} {I : PathOps P} {L : Lib} {C : Classes}

/-- A source that is read the same way whatever the class of the form: `p` is where reading starts. -/
inductive Fixed (I : PathOps P) : SrcArg P → P → Prop where
  | source (p : P) : Fixed I (.source (.ok p)) p
  | dict (kvs : List (Val × Val)) : Fixed I (.data (.dict kvs)) (I.native (.dict kvs) none)

/-- `j` is a form of a class that declares the field `f` and nothing else; it has no value for `f` yet. -/
structure Holder (C : Classes) (s : St P) (f : Field) (j : Nat) : Prop where
  cls : ∃ c, (s.forms[j]?).map FormObj.cls = some c ∧ (C c).fields = [f]
  fresh : ∀ m, f.name = some m → s.entry j m = none

namespace Move
variable {S : Inert I} {W : LawfulPath I} {Z : Pin I} {p0 : P}

theorem reset_step (id : Nat) (tags : List String) (fs : List Field) (env : Env) : ∀ τ : TSt P, (∀ f ∈ fs, f.name.isSome) →
    ∃ F, Lex.formReset id tags fs env τ = (.ok (), { τ with forms := F }) ∧ F.length = τ.forms.length ∧
      (∀ m, entryIn τ.forms id m = none → entryIn F id m = none) ∧
      ∀ j : Nat, (F[j]?).map FormObj.cls = (τ.forms[j]?).map FormObj.cls := by
  induction fs with
  | nil => intro τ _; exact ⟨τ.forms, rfl, rfl, fun _ h => h, fun _ => rfl⟩
  | cons f fs ih =>
    intro τ hn
    unfold Lex.formReset
    by_cases hs : selected tags f = true
    · obtain ⟨n, hn'⟩ := Option.isSome_iff_exists.1 (hn f (by simp))
      have hkey : f.key = .str n := by unfold Field.key; rw [hn']
      rw [if_pos hs]
      obtain ⟨F, h1, h2, h3, h4⟩ := ih { τ with forms := τ.forms.modify id fun o => { o with items := dictDel o.items f.key } }
        fun g hg => hn g (by simp [hg])
      refine ⟨F, ?_, by rw [h2]; simp, ?_, ?_⟩
      · rw [T.bind_ok (show T.formModify id (dictDel · f.key) env τ = (.ok (),
          { τ with forms := τ.forms.modify id fun o => { o with items := dictDel o.items f.key } }) from rfl)]
        exact h1
      · intro m hm
        refine h3 m ?_
        dsimp only
        by_cases hid : id < τ.forms.length
        · unfold entryIn at hm ⊢
          rw [entry_modify _ _ (fun d => dictDel d f.key) hid, hkey, dictGet?_dictDel]
          rw [List.getElem?_eq_getElem hid] at hm
          split
          · rfl
          · exact hm
        · unfold entryIn
          rw [List.getElem?_eq_none (by simpa using hid)]
          rfl
      · intro j
        rw [h4 j]
        dsimp only
        rw [List.getElem?_modify]
        cases τ.forms[j]? with
        | none => rfl
        | some o =>
          show some (FormObj.cls (if id = j then _ else o)) = some o.cls
          split <;> rfl
    · rw [if_neg hs]
      exact ih τ fun g hg => hn g (by simp [hg])

/-- The result of a mapping, back in the state `t` but for the forms. -/
def leave (t : TSt P) : Except Exc Unit × TSt P → Except Exc (List Err) × TSt P
  | (.ok _, τ) => (.ok (items τ), { τ with path := t.path, errs := t.errs })
  | (.error e, τ) => (.error e, { τ with path := t.path, errs := t.errs })

theorem outer (p : P) (body : T P Unit) (env : Env) (t : TSt P) {z : Except Exc Unit × TSt P}
    (h : body { env with src := some true }
      { path := some (some (t.npaths, p)), errs := some ⟨false, []⟩, forms := t.forms, npaths := t.npaths + 1 } = z) :
    T.withErrs false (T.withSource (.ok p) body) env t =
      ((leave t z).1.map fun es => ((), es), (leave t z).2) := by
  unfold T.withErrs T.withSource
  dsimp only
  rw [h]
  rcases z with ⟨r, τ⟩
  cases r <;> rfl

/-- What mapping a form is: its field loop, from a state at the start of the source. -/
theorem formMap_loop (hN : Named C) (G : Ground S W Z p0) {src : SrcArg P} (hsrc : Fixed I src p0) (k : Nat) {id cls : Nat}
    (tags : List String) (reset : Bool) {s : St P} (hl : Live s) (hcls : (s.forms[id]?).map FormObj.cls = some cls) :
    ∃ σ : TSt P, Here p0 [] σ ∧ σ.forms.length = s.forms.length ∧
      (∀ m, s.entry id m = none → entryIn σ.forms id m = none) ∧
      let x := Lex.formMap I C (Lex.mapField I L C k) id src tags reset (.str .ignore) false s.env s.view
      let y := Lex.mapFields (Lex.mapField I L C k) id (pickTags tags s.env.tags) (C cls).fields
        (inForm { s.env with src := some true } id) σ
      ((∃ e, (I.mapping p0).1 = .error e ∧ x.1 = .error e) ∨
        (∃ kv, (I.mapping p0).1 = .ok kv) ∧ x.2.forms = y.2.forms ∧
          match y.1 with
          | .ok _ => x.1 = .ok (items y.2)
          | .error e => x.1 = .error e) := by
  obtain ⟨cs, hcs⟩ := hl.src
  obtain ⟨F, h1, h2, h3, h4⟩ : ∃ F, Lex.formResetIf C id (pickTags tags s.env.tags) reset s.env s.view =
      (.ok (), { s.view with forms := F }) ∧ F.length = s.forms.length ∧
      (∀ m, entryIn s.forms id m = none → entryIn F id m = none) ∧
      ∀ j : Nat, (F[j]?).map FormObj.cls = (s.forms[j]?).map FormObj.cls := by
    unfold Lex.formResetIf
    cases reset with
    | false => exact ⟨s.forms, rfl, rfl, fun _ h => h, fun _ => rfl⟩
    | true =>
      rw [if_pos rfl]
      have hc : T.formCls id s.env s.view = (.ok cls, s.view) := by
        unfold T.formCls
        cases ho : s.forms[id]? with
        | none => rw [ho] at hcls; cases hcls
        | some o => rw [ho] at hcls; cases hcls; rw [show s.view.forms = s.forms from rfl, ho]
      rw [T.bind_ok hc]
      exact reset_step id _ _ s.env s.view (hN cls)
  let σ : TSt P := { path := some (some (s.paths.length, p0)), errs := some ⟨false, []⟩, forms := F, npaths := s.paths.length + 1 }
  refine ⟨σ, ⟨⟨_, rfl⟩, rfl⟩, h2, h3, ?_⟩
  intro x y
  have ha : Lex.formMapAt I C (Lex.mapField I L C k) id src (pickTags tags s.env.tags) (.str .ignore) false cs =
      Lex.rootMap I C (Lex.mapField I L C k) id src (pickTags tags s.env.tags) (.str .ignore) false := by
    unfold Lex.formMapAt
    cases hsrc <;> rfl
  have hr : Lex.rootSource I C id src = (T.pure (.ok p0) : T P _) := by
    cases hsrc <;> rfl
  have hb : x = (Lex.rootMap I C (Lex.mapField I L C k) id src (pickTags tags s.env.tags) (.str .ignore) false >>=
      Lex.formFinish false) s.env { s.view with forms := F } := by
    show Lex.formMap _ _ _ _ _ _ _ _ _ _ _ = _
    unfold Lex.formMap
    rw [T.bind_ok (show T.ctxGet? Env.tags s.env s.view = (.ok s.env.tags, s.view) from rfl), T.bind_ok h1,
      T.bind_ok (show T.ctxGet Env.src "src" s.env { s.view with forms := F } = (.ok cs, { s.view with forms := F }) from by
        unfold T.ctxGet; rw [hcs]), ha]
  clear_value x
  have hsame : (I.mapping p0).2 = p0 := G.same _ (Z.mapping G.at0)
  have hm : T.onPath I.mapping { s.env with src := some true } σ = ((I.mapping p0).1, σ) := by
    show ((I.mapping p0).1, ({ σ with path := some (some (s.paths.length, (I.mapping p0).2)) } : TSt P)) = _
    rw [hsame]
  have hc : T.formCls id { s.env with src := some true } σ = (.ok cls, σ) := by
    unfold T.formCls
    have h5 := h4 id
    rw [hcls] at h5
    show (match F[id]? with
      | some o => ((.ok o.cls, σ) : Except Exc Nat × TSt P)
      | none => (.error (.other "ReferenceError" "dangling form"), σ)) = _
    cases ho : F[id]? with
    | none => rw [ho] at h5; cases h5
    | some o => rw [ho] at h5; cases h5; rfl
  -- the body, from `σ`
  obtain ⟨z, hz0⟩ : ∃ z, Lex.formMapBody I C (Lex.mapField I L C k) id (pickTags tags s.env.tags) (.str .ignore)
    { s.env with src := some true } σ = z := ⟨_, rfl⟩
  have hx : x = leave s.view z := by
    rw [hb]
    have e1 := outer p0 (Lex.formMapBody I C (Lex.mapField I L C k) id (pickTags tags s.env.tags) (.str .ignore)) s.env
      { s.view with forms := F } hz0
    rcases z with ⟨r, τ⟩
    unfold Lex.rootMap
    rw [hr]
    cases r with
    | ok u =>
      refine T.bind_ok (a := items τ) ?_
      rw [T.bind_ok (show (T.pure (.ok p0) : T P (Except Exc P)) s.env { s.view with forms := F } = (.ok (.ok p0), _) from rfl),
        T.bind_ok e1]
      rfl
    | error e =>
      refine T.bind_error ?_
      rw [T.bind_ok (show (T.pure (.ok p0) : T P (Except Exc P)) s.env { s.view with forms := F } = (.ok (.ok p0), _) from rfl)]
      exact T.bind_error e1
  have hz : z = (do
      let _ ← T.onPath I.mapping
      let cls ← T.formCls id
      T.withEnv (fun env => { env with form := some id, parent := some (.form id) })
        (Lex.mapFields (Lex.mapField I L C k) id (pickTags tags s.env.tags) (C cls).fields)
      Lex.applyUnmapped (Lex.mapField I L C k) id (.str .ignore) : T P Unit) { s.env with src := some true } σ := hz0.symm
  cases hmp : (I.mapping p0).1 with
  | error e =>
    rw [hmp] at hm
    rw [T.bind_error hm] at hz
    refine .inl ⟨e, rfl, ?_⟩
    rw [hx, hz]
    rfl
  | ok kv =>
    rw [hmp] at hm
    rw [T.bind_ok hm, T.bind_ok hc] at hz
    refine .inr ⟨⟨kv, rfl⟩, ?_⟩
    have hy : T.withEnv (fun env => { env with form := some id, parent := some (.form id) })
        (Lex.mapFields (Lex.mapField I L C k) id (pickTags tags s.env.tags) (C cls).fields) { s.env with src := some true } σ = y := rfl
    clear_value y
    rcases y with ⟨r, τ⟩
    cases r with
    | ok u =>
      rw [T.bind_ok hy] at hz
      rw [hx, hz]
      exact ⟨rfl, rfl⟩
    | error e =>
      rw [T.bind_error hy] at hz
      rw [hx, hz]
      exact ⟨rfl, rfl⟩

end Move

theorem Move.pair_up {l : List (Field × Nat)} {Φ : Field × Nat → TSt P → Prop} (h : ∀ x ∈ l, ∃ t, Φ x t) :
    ∃ xs : List (Move.Solo P), (xs.map fun x => (x.field, x.form)) = l ∧ ∀ x ∈ xs, Φ (x.field, x.form) x.start := by
  induction l with
  | nil => exact ⟨[], rfl, by intro x h; cases h⟩
  | cons x l ih =>
    obtain ⟨xs, h1, h2⟩ := ih fun y hy => h y (by simp [hy])
    obtain ⟨t, ht⟩ := h x (by simp)
    refine ⟨⟨x.1, x.2, t⟩ :: xs, by rw [List.map_cons, h1], fun y hy => ?_⟩
    rcases List.mem_cons.1 hy with hy | hy
    · subst hy; exact ht
    · exact h2 y hy

theorem Move.flatMap_same {α β : Type} {l : List α} {f g : α → List β} (h : ∀ x ∈ l, f x = g x) : l.flatMap f = l.flatMap g := by
  induction l with
  | nil => rfl
  | cons x l ih => rw [List.flatMap_cons, List.flatMap_cons, h x (by simp), ih fun y hy => h y (by simp [hy])]

open Move in
/-- C88. A form of a class without hooks, and beside it, for each field of that class, a form of a class with this field
only; all are mapped from the same source in the same state.  If mapping each of these forms returns, mapping the whole
form returns: its errors are the errors of the fields alone, one field after the other in class order, and each field
has in it the value it has alone (or none, if it has none alone), with the same sub forms.  If mapping one of them raises
and mapping those before it returns, mapping the whole form raises the same exception.  (Path objects and sub forms are
the same but for their identities; of sub forms, class and contents.) -/
theorem C88_apart {S : Inert I} {W : LawfulPath I} {Z : Pin I} {p : P} (hL : FormlessLib L) (hC : C.All Decent) (hN : Named C)
    (G : Ground S W Z p) (n : Nat) {id cls : Nat} {src : SrcArg P} (hsrc : Fixed I src p) (tags : List String) (reset : Bool)
    {s : St P} (hl : Live s) (hcls : (s.forms[id]?).map FormObj.cls = some cls) (hs : List (Field × Nat))
    (hfields : hs.map Prod.fst = (C cls).fields) (hnames : ((C cls).fields.map Field.name).Nodup)
    (hholder : ∀ x ∈ hs, Holder C s x.1 x.2) (hfresh : ∀ f ∈ (C cls).fields, ∀ m, f.name = some m → s.entry id m = none) :
    let whole := Form.map I L C n id src tags reset (.str .ignore) false s
    let alone := fun j => Form.map I L C n j src tags reset (.str .ignore) false s
    (hs ≠ [] → ∀ es : Nat → List Err, (∀ x ∈ hs, outcome (alone x.2) = .ok (es x.2)) →
      (∃ ds, outcome whole = .ok ds ∧ ds.map Twin.bareErr = (hs.flatMap fun x => es x.2).map Twin.bareErr) ∧
      ∀ x ∈ hs, ∀ m, x.1.name = some m → Copied s.forms.length x.2 id m (alone x.2).2.forms whole.2.forms) ∧
    (∀ pre x post z, hs = pre ++ x :: post → (∀ y ∈ pre, ∃ es, outcome (alone y.2) = .ok es) →
      outcome (alone x.2) = .error z → ∃ z', outcome whole = .error z' ∧ Twin.bare z' = Twin.bare z) := by
  intro whole alone
  have hH : C.All LexNode := hC.imp fun _ h => h.free.lexNode
  have href : ∀ j, RefEAt (Form.map I L C n j src tags reset (.str .ignore) false)
      (Lex.formMap I C (Lex.mapField I L C n) j src tags reset (.str .ignore) false) s.env s.view s := fun j =>
    RefE.formMap (I := I) hH (Ref.mapField (I := I) (L := L) hH n) j src tags reset .str false s.env s.view s hl.agree
  have hid : id < s.forms.length := by
    apply Decidable.byContradiction
    intro h
    rw [List.getElem?_eq_none (by omega)] at hcls
    cases hcls
  obtain ⟨σ, hσ, hσl, hσn, hB⟩ := formMap_loop (L := L) hN G hsrc n tags reset hl hcls
  have hA : ∀ x ∈ hs, ∃ τ : TSt P, Here p [] τ ∧ τ.forms.length = s.forms.length ∧
      (∀ m, s.entry x.2 m = none → entryIn τ.forms x.2 m = none) ∧ x.2 < s.forms.length ∧
      let X := Lex.formMap I C (Lex.mapField I L C n) x.2 src tags reset (.str .ignore) false s.env s.view
      let Y := Solo.run I L C n (pickTags tags s.env.tags) { s.env with src := some true } ⟨x.1, x.2, τ⟩
      ((∃ e, (I.mapping p).1 = .error e ∧ X.1 = .error e) ∨
        (∃ kv, (I.mapping p).1 = .ok kv) ∧ X.2.forms = Y.2.forms ∧
          match Y.1 with
          | .ok _ => X.1 = .ok (items Y.2)
          | .error e => X.1 = .error e) := by
    intro x hx
    obtain ⟨c, hc, hcf⟩ := (hholder x hx).cls
    obtain ⟨τ, h1, h2, h3, h4⟩ := formMap_loop (L := L) hN G hsrc n tags reset hl hc
    refine ⟨τ, h1, h2, h3, ?_, ?_⟩
    · apply Decidable.byContradiction
      intro h
      rw [List.getElem?_eq_none (by omega)] at hc
      cases hc
    · have e1 : Lex.mapFields (Lex.mapField I L C n) x.2 (pickTags tags s.env.tags) (C c).fields
          (inForm { s.env with src := some true } x.2) τ =
          Solo.run I L C n (pickTags tags s.env.tags) { s.env with src := some true } ⟨x.1, x.2, τ⟩ := by
        rw [hcf]
        unfold Solo.run Lex.mapFields
        rcases h : Lex.mapOne (Lex.mapField I L C n) x.2 (pickTags tags s.env.tags) x.1
          (inForm { s.env with src := some true } x.2) τ with ⟨r, τ'⟩
        cases r with
        | ok u => rw [T.bind_ok h]; rfl
        | error e => rw [T.bind_error h]
      rw [e1] at h4
      exact h4
  obtain ⟨xs, hxs, hX⟩ := pair_up hA
  have hof : ∀ j, outcome (Form.map I L C n j src tags reset (.str .ignore) false s) =
      (Lex.formMap I C (Lex.mapField I L C n) j src tags reset (.str .ignore) false s.env s.view).1 :=
    fun j => Blind.outcome_eq (href j)
  have hforms : ∀ j, (Form.map I L C n j src tags reset (.str .ignore) false s).2.forms =
      (Lex.formMap I C (Lex.mapField I L C n) j src tags reset (.str .ignore) false s.env s.view).2.forms :=
    fun j => (href j).agree.forms
  have hmem : ∀ y ∈ xs, (y.field, y.form) ∈ hs := fun y hy => hxs ▸ List.mem_map.2 ⟨y, hy, rfl⟩
  have hfs : xs.map Solo.field = (C cls).fields := by
    rw [← hfields, ← hxs, List.map_map]
    rfl
  obtain ⟨hok, hbad⟩ := loop hL hC hN G n (pickTags tags s.env.tags) hid { s.env with src := some true } xs σ []
    (fun y hy => ⟨by
        have : y.field ∈ (C cls).fields := hfs ▸ List.mem_map.2 ⟨y, hy, rfl⟩
        exact hC cls _ this, (hX y hy).2.2.2.1, (hX y hy).1, (hX y hy).2.1, by
        have hf : y.field ∈ (C cls).fields := hfs ▸ List.mem_map.2 ⟨y, hy, rfl⟩
        obtain ⟨m, hm⟩ := Option.isSome_iff_exists.1 (hN cls _ hf)
        exact ⟨m, hm, (hX y hy).2.2.1 m ((hholder _ (hmem y hy)).fresh m hm)⟩⟩)
    (by rw [← hfs, List.map_map] at hnames; exact hnames) hσ (by omega)
    (fun y hy m hm => hσn m (hfresh y.field (hfs ▸ List.mem_map.2 ⟨y, hy, rfl⟩) m hm))
  rw [hfs] at hok hbad
  have hone : ∀ y ∈ xs, ∀ es, outcome (alone y.form) = .ok es →
      (∃ kv, (I.mapping p).1 = .ok kv) ∧
      (y.run I L C n (pickTags tags s.env.tags) { s.env with src := some true }).1 = .ok () ∧
      items (y.run I L C n (pickTags tags s.env.tags) { s.env with src := some true }).2 = es ∧
      (alone y.form).2.forms = (y.run I L C n (pickTags tags s.env.tags) { s.env with src := some true }).2.forms := by
    intro y hy es he
    rw [hof] at he
    rcases (hX y hy).2.2.2.2 with ⟨e, _, h2⟩ | ⟨h1, h2, h3⟩
    · rw [h2] at he; cases he
    · refine ⟨h1, ?_⟩
      rw [show (alone y.form).2.forms = _ from hforms y.form]
      cases hr : (y.run I L C n (pickTags tags s.env.tags) { s.env with src := some true }).1 with
      | error e => rw [hr] at h3; rw [h3] at he; cases he
      | ok u => rw [hr] at h3; rw [h3] at he; cases he; exact ⟨rfl, rfl, h2⟩
  refine ⟨fun hne es hes => ?_, ?_⟩
  · have hall : ∀ y ∈ xs, _ := fun y hy => hone y hy (es y.form) (hes _ (hmem y hy))
    obtain ⟨h1, ⟨ds, h2, h3⟩, -, -, h4⟩ := hok fun y hy => (hall y hy).2.1
    have hw : outcome whole = .ok ds ∧ whole.2.forms = (Lex.mapFields (Lex.mapField I L C n) id (pickTags tags s.env.tags) (C cls).fields
        (inForm { s.env with src := some true } id) σ).2.forms := by
      have hne' : xs ≠ [] := by rintro rfl; exact hne hxs.symm
      obtain ⟨y, hy⟩ := List.exists_mem_of_ne_nil _ hne'
      obtain ⟨kv, hkv⟩ := (hall y hy).1
      rw [show outcome whole = _ from hof id, show whole.2.forms = _ from hforms id]
      rcases hB with ⟨e, h5, _⟩ | ⟨_, h5, h6⟩
      · rw [hkv] at h5; cases h5
      · rw [h1] at h6
        refine ⟨h6.trans ?_, h5⟩
        unfold items
        rw [h3.errs]
        rfl
    refine ⟨⟨ds, hw.1, ?_⟩, ?_⟩
    · have h5 : (hs.flatMap fun x => es x.2) = xs.flatMap fun y => items
          (y.run I L C n (pickTags tags s.env.tags) { s.env with src := some true }).2 := by
        rw [← hxs, List.flatMap_map]
        exact flatMap_same fun y hy => (hall y hy).2.2.1.symm
      rw [h5]
      exact h2.symm
    · intro x hx m hm
      rw [← hxs] at hx
      obtain ⟨y, hy, rfl⟩ := List.mem_map.1 hx
      rw [hw.2, show (alone (y.field, y.form).2).2.forms = _ from (hall y hy).2.2.2]
      exact h4 y hy m hm
  · intro pre x post z h hpre hx
    rw [← hxs] at h
    obtain ⟨pre', rest, hp1, hp2, hp3⟩ := List.map_eq_append_iff.1 h
    obtain ⟨y, post', hp4, hp5, hp6⟩ := List.map_eq_cons_iff.1 hp3
    subst hp1 hp4
    have hyx : y ∈ pre' ++ y :: post' := by simp
    rw [← hp5, hof] at hx
    rw [show outcome whole = _ from hof id]
    have hlone : ∀ e, (I.mapping p).1 = .error e → ∃ z', (Lex.formMap I C (Lex.mapField I L C n) id src tags reset
        (.str .ignore) false s.env s.view).1 = .error z' ∧ z' = e := by
      intro e he
      rcases hB with ⟨e', h5, h6⟩ | ⟨⟨kv, h5⟩, _⟩
      · rw [he] at h5; cases h5; exact ⟨_, h6, rfl⟩
      · rw [he] at h5; cases h5
    rcases (hX y hyx).2.2.2.2 with ⟨e, h1, h2⟩ | ⟨⟨kv, h1⟩, h2, h3⟩
    · obtain ⟨z', h4, h5⟩ := hlone e h1
      rw [show (Lex.formMap I C (Lex.mapField I L C n) (y.field, y.form).2 src tags reset (.str .ignore) false s.env s.view).1
        = _ from h2] at hx
      cases hx
      exact ⟨z', h4, by rw [h5]⟩
    · have hr : (y.run I L C n (pickTags tags s.env.tags) { s.env with src := some true }).1 = .error z := by
        cases hr : (y.run I L C n (pickTags tags s.env.tags) { s.env with src := some true }).1 with
        | ok u => rw [hr] at h3; rw [show (Lex.formMap I C (Lex.mapField I L C n) (y.field, y.form).2 src tags reset (.str .ignore) false s.env s.view).1
            = _ from h3] at hx; cases hx
        | error e => rw [hr] at h3; rw [show (Lex.formMap I C (Lex.mapField I L C n) (y.field, y.form).2 src tags reset (.str .ignore) false s.env s.view).1
            = _ from h3] at hx; cases hx; rfl
      obtain ⟨z', h4, h5⟩ := hbad pre' y post' z rfl (fun w hw => by
        obtain ⟨es, hes⟩ := hpre (w.field, w.form) (hp2 ▸ List.mem_map.2 ⟨w, hw, rfl⟩)
        exact (hone w (by simp [hw]) es hes).2.1) hr
      rcases hB with ⟨e', h6, _⟩ | ⟨_, _, h6⟩
      · rw [h1] at h6; cases h6
      · rw [h4] at h6
        exact ⟨z', h6, h5.symm⟩

/-- The place of a native, JSON or configuration source of plain data is not changed by reading below it, if it is the
root, or its value is at hand. -/
theorem Path.ground {L : Lib} (hL : CleanLib L) {q : SPath} (h : q.AtHand) (hc : (Path.base (.simple q)).Clean)
    (hw : (Path.lawful L).WF (.base (.simple q))) :
    Move.Ground (Path.inert hL) (Path.lawful L) (Path.pin L h) (.base (.simple q)) where
  q := ⟨hc, hw⟩
  wf := hw
  at0 := ⟨q, rfl, SPath.Past.refl⟩
  same := by
    rintro _ ⟨q', rfl, h⟩
    rw [h.zero]

open Move in
/-- C88 for a dictionary of plain data. -/
theorem C88_data {C : Classes} (hL : FormlessLib L) (hL' : CleanLib L) (hC : C.All Decent) (hN : Named C) (n : Nat) {id cls : Nat}
    {kvs : List (Val × Val)} (hd : Clean (.dict kvs)) (tags : List String) (reset : Bool)
    {s : St Path} (hl : Live s) (hcls : (s.forms[id]?).map FormObj.cls = some cls) (hs : List (Field × Nat))
    (hfields : hs.map Prod.fst = (C cls).fields) (hnames : ((C cls).fields.map Field.name).Nodup)
    (hholder : ∀ x ∈ hs, Holder C s x.1 x.2) (hfresh : ∀ f ∈ (C cls).fields, ∀ m, f.name = some m → s.entry id m = none) :
    let whole := Form.map (Path.ops L) L C n id (.data (.dict kvs)) tags reset (.str .ignore) false s
    let alone := fun j => Form.map (Path.ops L) L C n j (.data (.dict kvs)) tags reset (.str .ignore) false s
    (hs ≠ [] → ∀ es : Nat → List Err, (∀ x ∈ hs, outcome (alone x.2) = .ok (es x.2)) →
      (∃ ds, outcome whole = .ok ds ∧ ds.map Twin.bareErr = (hs.flatMap fun x => es x.2).map Twin.bareErr) ∧
      ∀ x ∈ hs, ∀ m, x.1.name = some m → Copied s.forms.length x.2 id m (alone x.2).2.forms whole.2.forms) ∧
    (∀ pre x post z, hs = pre ++ x :: post → (∀ y ∈ pre, ∃ es, outcome (alone y.2) = .ok es) →
      outcome (alone x.2) = .error z → ∃ z', outcome whole = .error z' ∧ Twin.bare z' = Twin.bare z) :=
  C88_apart hL hC hN (Path.ground hL' (q := SPath.native (.dict kvs) none) (.inl rfl)
    (Path.native_clean hd (by intro a h; cases h)) (Path.lawful L).native_wf) n (.dict kvs) tags reset hl hcls hs hfields hnames
    hholder hfresh

/-! ## Examples -/

namespace Demo

theorem lib_formless : FormlessLib lib where
  call := by intro id v h; cases h; exact .int 7
  compile := by intro s v h; cases h
  load := by intro n a v h; cases n <;> cases h

theorem decent_plain {c : FieldCore} {k : Kind} (hh : HookFree (.mk c k)) (hd : c.default = .unset := by rfl)
    (ht : c.translations = [] := by rfl) (hi : c.ignores = [] := by rfl)
    (hk : ∀ kf vf kfl r m, k ≠ .dict kf vf kfl r m := by intro _ _ _ _ _ h; cases h)
    (hg : ∀ fs, k ≠ .group fs := by intro _ h; cases h) : Decent (.mk c k) where
  free := hh
  keyFilter kf vf kfl r m h := absurd h (hk _ _ _ _ _)
  default := by intro v h; simp only [Field.core, hd] at h; cases h
  translations := by intro p h; simp only [Field.core, ht] at h; cases h
  ignores := by intro p h; simp only [Field.core, hi] at h; cases h
  required kf vf kfl ks m h := absurd h (hk _ _ _ _ _)
  captures fs h := absurd h (hg _)

/-- `class Child: x = Integer()`. -/
def apartChild : Field := field "child" (.subform 5 false (.str .ignore))
def apartList : Field := field "children" (.list (.mk {} (.subform 5 false (.str .ignore))) none none false)

/-- `class Whole: a = Integer(); child = SubForm(Child); children = List(SubForm(Child)); b = Integer()`, and four classes
with one of these fields each. -/
def apart : Classes
  | 0 => { fields := [field "a" (.integer {}), apartChild, apartList, field "b" (.integer {})] }
  | 1 => { fields := [field "a" (.integer {})] }
  | 2 => { fields := [apartChild] }
  | 3 => { fields := [apartList] }
  | 4 => { fields := [field "b" (.integer {})] }
  | _ => { fields := [field "x" (.integer {})] }

theorem apart_decent : apart.All Decent := by
  have hi : ∀ n, (field n (.integer {})).All Decent := fun n =>
    .mk (decent_plain (hookFree_plain (by intro _ _ _ _ _ h; cases h))) .integer
  have hc : apartChild.All Decent := .mk (decent_plain (hookFree_plain (by intro _ _ _ _ _ h; cases h))) (.subform .str)
  have hl : apartList.All Decent := .mk (decent_plain (hookFree_plain (by intro _ _ _ _ _ h; cases h)))
    (.list (.mk (decent_plain (hookFree_plain (by intro _ _ _ _ _ h; cases h))) (.subform .str)))
  intro cls f hf
  match cls with
  | 0 =>
    simp only [apart, List.mem_cons, List.not_mem_nil, or_false] at hf
    rcases hf with rfl | rfl | rfl | rfl <;> first | exact hi _ | exact hc | exact hl
  | 1 | 2 | 3 | 4 | n + 5 =>
    simp only [apart, List.mem_cons, List.not_mem_nil, or_false] at hf
    subst hf
    first | exact hi _ | exact hc | exact hl

theorem apart_named : Named apart := by
  intro cls f hf
  match cls with
  | 0 =>
    simp only [apart, List.mem_cons, List.not_mem_nil, or_false] at hf
    rcases hf with rfl | rfl | rfl | rfl <;> rfl
  | 1 | 2 | 3 | 4 | n + 5 =>
    simp only [apart, List.mem_cons, List.not_mem_nil, or_false] at hf
    subst hf
    rfl

/-- `a` is no integer, `b` is missing. -/
def apartDoc : List (Val × Val) := [(.str "a", .str "u"), (.str "child", .dict [(.str "x", .int 1)]),
  (.str "children", .list [.dict [(.str "x", .int 2)], .dict [(.str "x", .int 3)]])]

/-- A thread with a form of each class. -/
def five : St Path := { holding 0 [] with forms := [⟨0, [], none⟩, ⟨1, [], none⟩, ⟨2, [], none⟩, ⟨3, [], none⟩, ⟨4, [], none⟩] }

theorem five_live : Live five where
  root := by simp [five, holding]
  path := by intro r h; simp [five, holding, curPath, lookup, FrameSrc.path?, rootFrame] at h
  errs := by intro e h; simp [five, holding, lookup, rootFrame] at h
  ids := by intro fr hfr id h; simp [five, holding] at hfr; subst hfr; simp [rootFrame] at h

/-- The form `j` is mapped. -/
local macro "apartRun" j:term:max : term =>
  `(Form.map (Path.ops lib) lib apart 10 $j (.data (.dict apartDoc)) [] false (.str .ignore) false five)

def apartHolders : List (Field × Nat) :=
  [(field "a" (.integer {}), 1), (apartChild, 2), (apartList, 3), (field "b" (.integer {}), 4)]

/-- The errors of the whole form, and of the fields alone; the list of sub forms in the whole form and alone. -/
example :
    (match outcome (apartRun 0) with | .ok es => es.map fun e => (e.kind, e.path) | .error _ => []) =
      [(.invalid "\"u\" is not an integer", "a"), (.missing, "b")] ∧
    ([1, 2, 3, 4].map fun j => match outcome (apartRun j) with | .ok es => es.map fun e => (e.kind, e.path) | .error _ => []) =
      [[(.invalid "\"u\" is not an integer", "a")], [], [], [(.missing, "b")]] ∧
    (apartRun 0).2.entry 0 "children" = some (.list [.form 6, .form 7]) ∧
    (apartRun 3).2.entry 3 "children" = some (.list [.form 5, .form 6]) ∧
    (apartRun 0).2.entry 6 "x" = some (.int 2) ∧ (apartRun 3).2.entry 5 "x" = some (.int 2) := by
  decide +kernel

theorem apart_data : Clean (.dict apartDoc) := by
  have hx : ∀ i, Clean (.dict [(.str "x", .int i)]) := fun i => .dict
    (by intro p h; simp only [List.mem_singleton] at h; subst h; exact ⟨rfl, rfl, rfl⟩)
    (by intro p h; simp only [List.mem_singleton] at h; subst h; exact .int i)
  refine .dict ?_ ?_
  · intro p h
    simp only [apartDoc, List.mem_cons, List.not_mem_nil, or_false] at h
    rcases h with rfl | rfl | rfl <;> exact ⟨rfl, rfl, rfl⟩
  · intro p h
    simp only [apartDoc, List.mem_cons, List.not_mem_nil, or_false] at h
    rcases h with rfl | rfl | rfl
    · exact .str _
    · exact hx 1
    · refine .list ?_
      intro x h
      simp only [List.mem_cons, List.not_mem_nil, or_false] at h
      rcases h with rfl | rfl
      · exact hx 2
      · exact hx 3

theorem apart_holders : ∀ x ∈ apartHolders, Holder apart five x.1 x.2 := by
  intro x h
  simp only [apartHolders, List.mem_cons, List.not_mem_nil, or_false] at h
  rcases h with rfl | rfl | rfl | rfl <;> exact ⟨⟨_, rfl, rfl⟩, fun m _ => rfl⟩

/-- The errors of the form `j` mapped. -/
def apartErrs (j : Nat) : List Err := match outcome (apartRun j) with | .ok es => es | .error _ => []

theorem apart_returns : ∀ x ∈ apartHolders, outcome (apartRun x.2) = .ok (apartErrs x.2) := by
  have h : ∀ j, (match outcome (apartRun j) with | .ok _ => true | .error _ => false) = true →
      outcome (apartRun j) = .ok (apartErrs j) := by
    intro j h
    unfold apartErrs
    cases hj : outcome (apartRun j) with
    | ok es => rfl
    | error e => rw [hj] at h; cases h
  intro x hx
  simp only [apartHolders, List.mem_cons, List.not_mem_nil, or_false] at hx
  rcases hx with rfl | rfl | rfl | rfl <;> exact h _ (by decide +kernel)

/-- C88 at work. -/
example : (∃ ds, outcome (apartRun 0) = .ok ds ∧
      ds.map Twin.bareErr = (apartHolders.flatMap fun x => apartErrs x.2).map Twin.bareErr) ∧
    ∀ x ∈ apartHolders, ∀ m, x.1.name = some m → Move.Copied five.forms.length x.2 0 m (apartRun x.2).2.forms (apartRun 0).2.forms := by
  have h := (C88_data lib_formless lib_clean apart_decent apart_named 10 (id := 0) (cls := 0) apart_data [] false five_live rfl
    apartHolders rfl (by decide) apart_holders (fun f hf m hm => rfl)).1 (by simp [apartHolders]) apartErrs
  have hr := apart_returns
  exact h hr

end Demo
end Pilo
