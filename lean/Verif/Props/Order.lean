import Verif.Props.Apart

/-!
# C89: what a class declares besides a field, and in which order, does not matter to the field
-/

namespace Pilo
variable {P : Type} {I : PathOps P} {L : Lib} {C : Classes}

/-- The field `m` has the same value in the form `a`, among `fs`, and in the form `b`, among `gs` (or in neither): there
are forms of which the new ones in both values are copies. -/
def SameEntry (base a b : Nat) (m : String) (fs gs : List FormObj) : Prop :=
  ∃ c hs, Move.Copied base c a m hs fs ∧ Move.Copied base c b m hs gs

open Move in
/-- C89. Two classes without hooks, the second of which declares some of the fields of the first, in any order.  Forms
of them are mapped from the same source in the same state.  If mapping the first returns, so does mapping the second; each
field adds the same errors to both, and has the same value in both. -/
theorem C89_fewer {S : Inert I} {W : LawfulPath I} {Z : Pin I} {p : P} (hL : FormlessLib L) (hC : C.All Decent) (hN : Named C)
    (G : Ground S W Z p) (n : Nat) {a b A B : Nat} {src : SrcArg P} (hsrc : Fixed I src p) (tags : List String) (reset : Bool)
    {s : St P} (hl : Live s) (hA : (s.forms[a]?).map FormObj.cls = some A) (hB : (s.forms[b]?).map FormObj.cls = some B)
    (hAnames : ((C A).fields.map Field.name).Nodup) (hBnames : ((C B).fields.map Field.name).Nodup)
    (hsub : ∀ f ∈ (C B).fields, f ∈ (C A).fields)
    (hAfresh : ∀ f ∈ (C A).fields, ∀ m, f.name = some m → s.entry a m = none)
    (hBfresh : ∀ f ∈ (C B).fields, ∀ m, f.name = some m → s.entry b m = none) :
    let x := Form.map I L C n a src tags reset (.str .ignore) false s
    let y := Form.map I L C n b src tags reset (.str .ignore) false s
    ∀ es, outcome x = .ok es → ∃ ds, outcome y = .ok ds ∧
      (∃ adds : Field → List Err, es.map Twin.bareErr = (C A).fields.flatMap adds ∧ ds.map Twin.bareErr = (C B).fields.flatMap adds) ∧
      ∀ f ∈ (C B).fields, ∀ m, f.name = some m → SameEntry s.forms.length a b m x.2.forms y.2.forms := by
  intro x y es hes
  have hH : C.All LexNode := hC.imp fun _ h => h.free.lexNode
  have href : ∀ j, RefEAt (Form.map I L C n j src tags reset (.str .ignore) false)
      (Lex.formMap I C (Lex.mapField I L C n) j src tags reset (.str .ignore) false) s.env s.view s := fun j =>
    RefE.formMap (I := I) hH (Ref.mapField (I := I) (L := L) hH n) j src tags reset .str false s.env s.view s hl.agree
  have hof : ∀ j, outcome (Form.map I L C n j src tags reset (.str .ignore) false s) =
      (Lex.formMap I C (Lex.mapField I L C n) j src tags reset (.str .ignore) false s.env s.view).1 :=
    fun j => Blind.outcome_eq (href j)
  have hforms : ∀ j, (Form.map I L C n j src tags reset (.str .ignore) false s).2.forms =
      (Lex.formMap I C (Lex.mapField I L C n) j src tags reset (.str .ignore) false s.env s.view).2.forms :=
    fun j => (href j).agree.forms
  have hlt : ∀ {j c : Nat}, (s.forms[j]?).map FormObj.cls = some c → j < s.forms.length := by
    intro j c hj
    apply Decidable.byContradiction
    intro h
    rw [List.getElem?_eq_none (by omega)] at hj
    cases hj
  obtain ⟨σ, hσ, hσl, hσn, hX⟩ := formMap_loop (L := L) hN G hsrc n tags reset hl hA
  obtain ⟨τ, hτ, hτl, hτn, hY⟩ := formMap_loop (L := L) hN G hsrc n tags reset hl hB
  let E : Env := { s.env with src := some true }
  let T := pickTags tags s.env.tags
  let solo : Field → Solo P := fun f => ⟨f, a, σ⟩
  have hback : ∀ fs : List Field, (fs.map solo).map Solo.field = fs := by
    intro fs
    rw [List.map_map]
    exact (List.map_congr_left fun _ _ => rfl).trans (List.map_id fs)
  have hready : ∀ w ∈ (C A).fields.map solo, w.Ready p s.forms.length := by
    intro w hw
    obtain ⟨f, hf, rfl⟩ := List.mem_map.1 hw
    obtain ⟨m, hm⟩ := Option.isSome_iff_exists.1 (hN A f hf)
    exact ⟨hC A f hf, hlt hA, hσ, hσl, m, hm, hσn m (hAfresh f hf m hm)⟩
  have hnod : ∀ fs : List Field, (fs.map Field.name).Nodup → ((fs.map solo).map fun w => w.field.name).Nodup := by
    intro fs h
    rw [List.map_map]
    exact h
  obtain ⟨hok, hbad⟩ := loop hL hC hN G n T (hlt hA) E ((C A).fields.map solo) σ [] hready (hnod _ hAnames) hσ (by omega) (by
    intro w hw m hm
    obtain ⟨f, hf, rfl⟩ := List.mem_map.1 hw
    exact hσn m (hAfresh f hf m hm))
  obtain ⟨hok', -⟩ := loop hL hC hN G n T (hlt hB) E ((C B).fields.map solo) τ []
    (fun w hw => by
      obtain ⟨f, hf, rfl⟩ := List.mem_map.1 hw
      exact hready _ (List.mem_map.2 ⟨f, hsub f hf, rfl⟩)) (hnod _ hBnames) hτ (by omega) (by
    intro w hw m hm
    obtain ⟨f, hf, rfl⟩ := List.mem_map.1 hw
    exact hτn m (hBfresh f hf m hm))
  rw [hback] at hok hbad hok'
  rw [show outcome x = _ from hof a] at hes
  rcases hX with ⟨e, _, h2⟩ | ⟨⟨kv, hkv⟩, hXf, hX⟩
  · rw [h2] at hes; cases hes
  · -- every field alone returns
    have hrun : ∀ w ∈ (C A).fields.map solo, (w.run I L C n T E).1 = .ok () := by
      apply Decidable.byContradiction
      intro hno
      have hfirst : ∀ ws : List (Solo P), (¬ ∀ w ∈ ws, (w.run I L C n T E).1 = .ok ()) →
          ∃ pre w post z, ws = pre ++ w :: post ∧ (∀ v ∈ pre, (v.run I L C n T E).1 = .ok ()) ∧ (w.run I L C n T E).1 = .error z := by
        intro ws
        induction ws with
        | nil => intro h; exact absurd (by intro w hw; cases hw) h
        | cons w ws ih =>
          intro h
          cases hr : (w.run I L C n T E).1 with
          | error z => exact ⟨[], w, ws, z, rfl, (by intro _ h; cases h), hr⟩
          | ok u =>
            obtain ⟨pre, v, post, z, h1, h2, h3⟩ := ih fun h' => h fun v hv => by
              rcases List.mem_cons.1 hv with rfl | hv
              · exact hr
              · exact h' v hv
            refine ⟨w :: pre, v, post, z, by rw [h1]; rfl, fun u hu => ?_, h3⟩
            rcases List.mem_cons.1 hu with rfl | hu
            · exact hr
            · exact h2 u hu
      obtain ⟨pre, w, post, z, h1, h2, h3⟩ := hfirst _ hno
      obtain ⟨z', h4, -⟩ := hbad pre w post z h1 h2 h3
      rw [h4] at hX
      rw [hX] at hes
      cases hes
    obtain ⟨h1, ⟨ds1, h2, h3⟩, -, -, h4⟩ := hok hrun
    obtain ⟨k1, ⟨ds2, k2, k3⟩, -, -, k4⟩ := hok' fun w hw => by
      obtain ⟨f, hf, rfl⟩ := List.mem_map.1 hw
      exact hrun _ (List.mem_map.2 ⟨f, hsub f hf, rfl⟩)
    have hes' : es = ds1 := by
      rw [h1] at hX
      rw [hX] at hes
      cases hes
      unfold items
      rw [h3.errs]
      rfl
    subst hes'
    have hy : outcome y = .ok ds2 ∧ y.2.forms = (Lex.mapFields (Lex.mapField I L C n) b T (C B).fields (inForm E b) τ).2.forms := by
      rw [show outcome y = _ from hof b, show y.2.forms = _ from hforms b]
      rcases hY with ⟨e, h5, _⟩ | ⟨_, h5, h6⟩
      · rw [hkv] at h5; cases h5
      · rw [k1] at h6
        refine ⟨h6.trans ?_, h5⟩
        unfold items
        rw [k3.errs]
        rfl
    refine ⟨ds2, hy.1, ⟨fun f => (items ((solo f).run I L C n T E).2).map Twin.bareErr, ?_, ?_⟩, ?_⟩
    · refine h2.symm.trans ?_
      rw [List.flatMap_map, List.map_flatMap]
    · refine k2.symm.trans ?_
      rw [List.flatMap_map, List.map_flatMap]
    · intro f hf m hm
      refine ⟨a, ((solo f).run I L C n T E).2.forms, ?_, ?_⟩
      · rw [show x.2.forms = _ from (hforms a).trans hXf]
        exact h4 (solo f) (List.mem_map.2 ⟨f, hsub f hf, rfl⟩) m hm
      · rw [hy.2]
        exact k4 (solo f) (List.mem_map.2 ⟨f, hf, rfl⟩) m hm

open Move in
/-- C89, the same fields in another order: the same errors, in another order, and the same values. -/
theorem C89_order {S : Inert I} {W : LawfulPath I} {Z : Pin I} {p : P} (hL : FormlessLib L) (hC : C.All Decent) (hN : Named C)
    (G : Ground S W Z p) (n : Nat) {a b A B : Nat} {src : SrcArg P} (hsrc : Fixed I src p) (tags : List String) (reset : Bool)
    {s : St P} (hl : Live s) (hA : (s.forms[a]?).map FormObj.cls = some A) (hB : (s.forms[b]?).map FormObj.cls = some B)
    (hnames : ((C A).fields.map Field.name).Nodup) (hperm : (C B).fields.Perm (C A).fields)
    (hAfresh : ∀ f ∈ (C A).fields, ∀ m, f.name = some m → s.entry a m = none)
    (hBfresh : ∀ f ∈ (C B).fields, ∀ m, f.name = some m → s.entry b m = none) :
    let x := Form.map I L C n a src tags reset (.str .ignore) false s
    let y := Form.map I L C n b src tags reset (.str .ignore) false s
    ((∃ es, outcome x = .ok es) ↔ ∃ ds, outcome y = .ok ds) ∧
    ∀ es ds, outcome x = .ok es → outcome y = .ok ds →
      (ds.map Twin.bareErr).Perm (es.map Twin.bareErr) ∧
      ∀ f ∈ (C A).fields, ∀ m, f.name = some m → SameEntry s.forms.length a b m x.2.forms y.2.forms := by
  intro x y
  have hnB : ((C B).fields.map Field.name).Nodup := (hperm.map _).nodup_iff.2 hnames
  have h1 := C89_fewer hL hC hN G n hsrc tags reset hl hA hB hnames hnB (fun f hf => hperm.mem_iff.1 hf) hAfresh hBfresh
  have h2 := C89_fewer hL hC hN G n hsrc tags reset hl hB hA hnB hnames (fun f hf => hperm.mem_iff.2 hf) hBfresh hAfresh
  refine ⟨⟨fun ⟨es, he⟩ => ?_, fun ⟨ds, hd⟩ => ?_⟩, fun es ds he hd => ?_⟩
  · obtain ⟨ds, hd, -⟩ := h1 es he
    exact ⟨ds, hd⟩
  · obtain ⟨es, he, -⟩ := h2 ds hd
    exact ⟨es, he⟩
  · obtain ⟨ds', hd', ⟨adds, e1, e2⟩, h3⟩ := h1 es he
    have : ds' = ds := by
      have := hd'.symm.trans hd
      cases this
      rfl
    subst this
    refine ⟨?_, fun f hf m hm => h3 f (hperm.mem_iff.2 hf) m hm⟩
    rw [e1, e2]
    exact hperm.flatMap_right adds

open Move in
/-- C89 for a dictionary of plain data. -/
theorem C89_data {C : Classes} (hL : FormlessLib L) (hL' : CleanLib L) (hC : C.All Decent) (hN : Named C) (n : Nat) {a b A B : Nat}
    {kvs : List (Val × Val)} (hd : Clean (.dict kvs)) (tags : List String) (reset : Bool)
    {s : St Path} (hl : Live s) (hA : (s.forms[a]?).map FormObj.cls = some A) (hB : (s.forms[b]?).map FormObj.cls = some B)
    (hnames : ((C A).fields.map Field.name).Nodup) (hperm : (C B).fields.Perm (C A).fields)
    (hAfresh : ∀ f ∈ (C A).fields, ∀ m, f.name = some m → s.entry a m = none)
    (hBfresh : ∀ f ∈ (C B).fields, ∀ m, f.name = some m → s.entry b m = none) :
    let x := Form.map (Path.ops L) L C n a (.data (.dict kvs)) tags reset (.str .ignore) false s
    let y := Form.map (Path.ops L) L C n b (.data (.dict kvs)) tags reset (.str .ignore) false s
    ((∃ es, outcome x = .ok es) ↔ ∃ ds, outcome y = .ok ds) ∧
    ∀ es ds, outcome x = .ok es → outcome y = .ok ds →
      (ds.map Twin.bareErr).Perm (es.map Twin.bareErr) ∧
      ∀ f ∈ (C A).fields, ∀ m, f.name = some m → SameEntry s.forms.length a b m x.2.forms y.2.forms :=
  C89_order hL hC hN (Path.ground hL' (q := SPath.native (.dict kvs) none) (.inl rfl)
    (Path.native_clean hd (by intro a h; cases h)) (Path.lawful L).native_wf) n (.dict kvs) tags reset hl hA hB hnames hperm
    hAfresh hBfresh

/-! ## Examples -/

namespace Demo

/-- The class `Whole` of C88 (0), the same with its fields in another order (1), one with two of them (2), and the class of
the sub forms. -/
def permuted : Classes
  | 0 => apart 0
  | 1 => { fields := [field "b" (.integer {}), apartList, field "a" (.integer {}), apartChild] }
  | 2 => { fields := [apartList, field "a" (.integer {})] }
  | _ => apart 5

theorem permuted_fields : ∀ cls, ∀ f ∈ (permuted cls).fields, f ∈ (apart 0).fields ∨ f ∈ (apart 5).fields := by
  intro cls f hf
  match cls with
  | 0 => exact .inl hf
  | 1 =>
    simp only [permuted, List.mem_cons, List.not_mem_nil, or_false] at hf
    rcases hf with rfl | rfl | rfl | rfl <;> simp [apart]
  | 2 =>
    simp only [permuted, List.mem_cons, List.not_mem_nil, or_false] at hf
    rcases hf with rfl | rfl <;> simp [apart]
  | n + 3 => exact .inr hf

theorem permuted_decent : permuted.All Decent := by
  intro cls f hf
  rcases permuted_fields cls f hf with h | h
  · exact apart_decent 0 f h
  · exact apart_decent 5 f h

theorem permuted_named : Named permuted := by
  intro cls f hf
  rcases permuted_fields cls f hf with h | h
  · exact apart_named 0 f h
  · exact apart_named 5 f h

local macro "permutedRun" j:term:max : term =>
  `(Form.map (Path.ops lib) lib permuted 10 $j (.data (.dict apartDoc)) [] false (.str .ignore) false five)

/-- The errors come in the order of declaration; the values are the same, the sub forms but for their identities. -/
example :
    ([0, 1, 2].map fun j => match outcome (permutedRun j) with | .ok es => es.map fun e => (e.kind, e.path) | .error _ => []) =
      [[(.invalid "\"u\" is not an integer", "a"), (.missing, "b")],
       [(.missing, "b"), (.invalid "\"u\" is not an integer", "a")],
       [(.invalid "\"u\" is not an integer", "a")]] ∧
    (permutedRun 0).2.entry 0 "children" = some (.list [.form 6, .form 7]) ∧
    (permutedRun 1).2.entry 1 "children" = some (.list [.form 5, .form 6]) ∧
    (permutedRun 2).2.entry 2 "children" = some (.list [.form 5, .form 6]) ∧
    (permutedRun 0).2.entry 7 "x" = some (.int 3) ∧ (permutedRun 1).2.entry 6 "x" = some (.int 3) := by
  decide +kernel

/-- C89 at work. -/
example : (∃ es, outcome (permutedRun 0) = .ok es) ↔ ∃ ds, outcome (permutedRun 1) = .ok ds :=
  (C89_data lib_formless lib_clean permuted_decent permuted_named 10 (a := 0) (b := 1) (A := 0) (B := 1) apart_data [] false five_live rfl rfl
    (by decide) (by
      show [field "b" (.integer {}), apartList, field "a" (.integer {}), apartChild].Perm
        [field "a" (.integer {}), apartChild, apartList, field "b" (.integer {})]
      exact ((List.Perm.swap _ _ _).trans (((List.Perm.refl _).append (List.perm_append_comm (l₁ := [field "b" (.integer {})]) (l₂ := [field "a" (.integer {}), apartChild])) : ([apartList] ++ ([field "b" (.integer {})] ++ [field "a" (.integer {}), apartChild])).Perm _).trans
        ((List.perm_append_comm (l₁ := [apartList]) (l₂ := [field "a" (.integer {}), apartChild])).append_right [field "b" (.integer {})]))))
    (fun f hf m hm => rfl) (fun f hf m hm => rfl)).1

end Demo
end Pilo
