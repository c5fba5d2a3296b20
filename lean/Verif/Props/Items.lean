import Verif.MoveItems
import Verif.Props.Container
import Verif.Props.Apart
import Verif.Source.AtHand

/-!
# C90: the items of a container are mapped apart from each other
-/

namespace Pilo
variable {P : Type} {I : PathOps P} {L : Lib} {C : Classes} {α : Type}

/-! ## What is done for one item -/

/-- What `m` does in the context `Field.map` of a container `f` makes for its parsing:
`with ctx(field=f, parent=f), ctx(src=f.src): ctx.src_path.exists; ctx.src_path.is_null; m`. -/
def inside (I : PathOps P) (f : Field) (m : M P α) : M P α :=
  let body : M P α := do
    let _ ← readPath I.exists_
    let _ ← readPath I.isNull
    m
  withPush I (pushVars { field := some f.name, parent := some .field })
    (if noSrc f.core.src then body else atKey I f.core.src body)

/-- The item at `k` of the container `f`, mapped by the field `g` and nothing else. -/
def itemAlone (I : PathOps P) (L : Lib) (C : Classes) (n : Nat) (f g : Field) (k : Val) : M P Val :=
  inside I f (atKey I k (mapField I L C n g .NONE))

/-- The entry at `k` of the dict `f`, its value mapped by `vf` and its key by `kf`, and nothing else. -/
def entryAlone (I : PathOps P) (L : Lib) (C : Classes) (n : Nat) (f kf vf : Field) (k : Val) : M P (Option (Val × Val)) :=
  inside I f (dictEntry I L C (mapField I L C n) kf vf none k)

namespace Move
variable {S : Inert I} {W : LawfulPath I} {Z : Pin I} {f : Field} {s : St P} {r : Nat} {q : P} {text : String} {b : ErrBuf}

/-- The lexical version of `inside`. -/
def insideT (I : PathOps P) (f : Field) (t : T P α) : T P α :=
  let body : T P α := do
    let _ ← T.onPath I.exists_
    let _ ← T.onPath I.isNull
    t
  T.withEnv (fun env => { env with field := some f.name, parent := some .field })
    (if noSrc f.core.src then body else T.withKey I f.core.src body)

theorem Ref_inside {m : M P α} {t : T P α} (h : Ref m t) : Ref (inside I f m) (insideT I f t) := by
  have hb : Ref ((do let _ ← readPath I.exists_; let _ ← readPath I.isNull; m) : M P α)
      (do let _ ← T.onPath I.exists_; let _ ← T.onPath I.isNull; t) :=
    .bind (.readPath _) fun _ => .bind (.readPath _) fun _ => h
  exact Ref.vars (g := fun env => { env with field := some f.name, parent := some .field })
    (.ite (fun _ => hb) fun _ => Ref.key hb) rfl (fun _ => rfl) (by intro id h; cases h)

theorem place_eq (hg : ∀ fs, f.kind ≠ .group fs) (p : P) :
    f.place I p = if noSrc f.core.src then .ok p else I.append p f.core.src := by
  unfold Field.place
  cases hk : f.kind <;> first | rfl | exact absurd hk (hg _)

theorem innerEnv_eq (hg : ∀ fs, f.kind ≠ .group fs) (env : Env) :
    f.innerEnv env = if noSrc f.core.src then { env with field := some f.name, parent := some .field }
      else { env with field := some f.name, parent := some .field, src := some (!f.core.src.isNull) } := by
  unfold Field.innerEnv
  cases hk : f.kind <;> first | rfl | exact absurd hk (hg _)

/-- The state in which a container parses. -/
def openSt (I : PathOps P) (s : St P) (r : Nat) (q : P) : TSt P := { s.view with path := some (some (r, asked I q)) }

theorem inside_run (sp : Spot I W f s r q text b) (hg : ∀ fs, f.kind ≠ .group fs) (hpr : Present I q) (G : Ground S W Z (asked I q))
    {m : M P α} {t : T P α} (h : Ref m t)
    {act : (Nat → Nat) → α → α} (ht : Job S W act t) :
    let x := t (f.innerEnv s.env) (openSt I s r q)
    (inside I f m s).1 = x.1 ∧ curErrs (inside I f m s).2 = x.2.errs ∧ (inside I f m s).2.forms = x.2.forms := by
  intro x
  obtain ⟨p, hp, hpl⟩ := sp.place
  have hwp := curPathObj_wf sp.inv hp
  have hkeep := ht.keeps (f.innerEnv s.env) (openSt I s r q) (by intro r q h; cases h; exact G.wf)
  obtain ⟨q2, hq2, hs2⟩ := hkeep.path
  have hsame := Same.trans W (asked_same (W := W) sp.wf) hs2
  have hbody : ∀ env, env = f.innerEnv s.env → ((do let _ ← T.onPath I.exists_; let _ ← T.onPath I.isNull; t) : T P α) env
      { s.view with path := some (some (r, q)) } = x := by
    rintro env rfl
    rw [T.bind_ok (show T.onPath I.exists_ (f.innerEnv s.env) { s.view with path := some (some (r, q)) } =
        (.ok true, { s.view with path := some (some (r, (I.exists_ q).2)) }) by rw [T.onPath_run (r := r) (p := q) rfl, hpr.ex]),
      T.bind_ok (show T.onPath I.isNull (f.innerEnv s.env) { s.view with path := some (some (r, (I.exists_ q).2)) } =
        (.ok false, openSt I s r q) by rw [T.onPath_run (r := r) (p := (I.exists_ q).2) rfl, hpr.nonnull]; rfl)]
  have hrun : ∃ p', insideT I f t s.env s.view = (x.1, { x.2 with path := p' }) := by
    unfold insideT T.withEnv
    dsimp only
    rw [place_eq hg] at hpl
    rw [innerEnv_eq hg] at hbody
    by_cases hn : noSrc f.core.src = true
    · rw [if_pos hn] at hpl ⊢
      cases hpl
      have hv : s.view = { s.view with path := some (some (r, q)) } := by rw [← hp]; rfl
      rw [hv, hbody _ (by rw [if_pos hn])]
      exact ⟨x.2.path, rfl⟩
    · rw [if_neg hn] at hpl ⊢
      obtain ⟨hk, _⟩ := W.append_keys hwp hpl
      obtain ⟨p3, hpop, _⟩ := W.pop_keys (p := q2) (ks := I.keys p) (k := f.core.src) hsame.wf (by rw [hsame.keys, hk])
      exact ⟨_, T.withKey_run hp hpl (by rw [hbody _ (by rw [if_neg hn])]) hq2 hpop⟩
  obtain ⟨p', hrun⟩ := hrun
  obtain ⟨h1, h2, h3, _⟩ := (Ref_inside (I := I) (f := f) h).run sp.live
  rw [hrun] at h1 h2 h3
  exact ⟨h1, h2, h3⟩

/-! ## The loops, one item after the other -/

theorem seqT_cons (t : T P α) (ts : List (T P α)) :
    seqT (t :: ts) = (t >>= fun a => seqT ts >>= fun as => T.pure (a :: as)) := rfl

theorem listLoop_seq (rec : TRec P) (g : Field) (n : Nat) : ∀ i, Lex.listLoop I rec g i n =
    (seqT ((List.range' i n).map fun (i : Nat) => T.withKey I (.int i) (rec g .NONE)) >>= fun rs => T.pure (usable rs)) := by
  induction n with
  | zero => intro i; rfl
  | succ n ih =>
    intro i
    unfold Lex.listLoop
    rw [ih, List.range'_succ, List.map_cons, seqT_cons]
    simp only [T.bind_assoc, T.pure_bind]
    refine congrArg _ (funext fun a => congrArg _ (funext fun as => ?_))
    unfold usable
    cases h : a.isIgnore <;> simp [h]

theorem tupleLoop_seq (rec : TRec P) (fs : List Field) : ∀ i, Lex.tupleLoop I rec i fs =
    (seqT ((fs.zipIdx i).map fun x => T.withKey I (.int x.2) (rec x.1 .NONE)) >>= fun rs => T.pure (usable rs)) := by
  induction fs with
  | nil => intro i; rfl
  | cons f fs ih =>
    intro i
    unfold Lex.tupleLoop
    rw [ih, List.zipIdx_cons, List.map_cons, seqT_cons]
    simp only [T.bind_assoc, T.pure_bind]
    refine congrArg _ (funext fun a => congrArg _ (funext fun as => ?_))
    unfold usable
    cases h : a.isIgnore <;> simp [h]

/-- The lexical version of `dictEntry`, without a key filter. -/
def entryT (I : PathOps P) (rec : TRec P) (kf vf : Field) (k : Val) : T P (Option (Val × Val)) := do
  let v ← T.withKey I k (rec vf .NONE)
  if v.isIgnore then T.pure none
  else do
    let k' ← rec kf k
    if k'.isIgnore then T.pure none
    else if k'.hashable then T.pure (some (k', v))
    else T.raise (.typeError "unhashable type")

theorem dictLoop_seq (rec : TRec P) (kf vf : Field) (ks : List Val) : ∀ acc, Lex.dictLoop I L C rec kf vf none ks acc =
    (seqT (ks.map (entryT I rec kf vf)) >>= fun es =>
      T.pure ((es.filterMap id).foldl (fun d kv => dictSet d kv.1 kv.2) acc)) := by
  induction ks with
  | nil => intro acc; rfl
  | cons k ks ih =>
    intro acc
    unfold Lex.dictLoop
    rw [List.map_cons, seqT_cons, T.bind_assoc]
    unfold entryT Lex.keepKey
    simp only [T.pure_bind, Bool.not_true, Bool.false_eq_true, if_false, T.bind_assoc]
    refine congrArg _ (funext fun v => ?_)
    cases hv : v.isIgnore with
    | true =>
      simp only [if_true, T.pure_bind, ih]
      rfl
    | false =>
      simp only [Bool.false_eq_true, if_false, T.bind_assoc]
      refine congrArg _ (funext fun k' => ?_)
      cases hk' : k'.isIgnore with
      | true =>
        simp only [if_true, T.pure_bind, ih]
        rfl
      | false =>
        cases hh : k'.hashable with
        | true =>
          simp only [Bool.false_eq_true, Bool.not_true, if_false, if_true, T.pure_bind, ih]
          rfl
        | false =>
          simp only [Bool.false_eq_true, Bool.not_false, if_false, if_true]
          rfl

theorem Ref_entry {rec : Rec P} {trec : TRec P} (hr : RecRef rec trec) {kf vf : Field} (hk : kf.All LexNode) (hv : vf.All LexNode)
    (k : Val) : Ref (dictEntry I L C rec kf vf none k) (entryT I trec kf vf k) := by
  have e : dictEntry I L C rec kf vf none k = (do
      let v ← atKey I k (rec vf .NONE)
      if v.isIgnore then M.pure none
      else do
        let k' ← rec kf k
        if k'.isIgnore then M.pure none
        else if k'.hashable then M.pure (some (k', v))
        else M.raise (.typeError "unhashable type")) := rfl
  rw [e]
  exact .bind (.key (hr vf .NONE hv)) fun v => .ite (fun _ => .pure _) fun _ => .bind (hr kf k hk) fun k' =>
    .ite (fun _ => .pure _) fun _ => .ite (fun _ => .pure _) fun _ => .raise _

/-! ## The items as steps -/

theorem item_job (hL : FormlessLib L) (hC : C.All Decent) (hN : Named C) (n : Nat) {g : Field} (hg : g.All Decent) (k : Val) :
    Job S W Val.mv (T.withKey I k (Lex.mapField I L C n g .NONE)) where
  run R := .withKey k ((mapField (S := S) (R := R) hL hC hN n).one hg)
  keeps := .withKey k (TKeeps.mapField (W := W) (L := L) (hC.imp fun _ h => h.free.calm) n g .NONE (hg.imp fun _ h => h.free.calm))

/-- The entry with other forms in place of its forms. -/
def mvEntry (g : Nat → Nat) : Option (Val × Val) → Option (Val × Val) := Option.map fun kv => (kv.1.mv g, kv.2.mv g)

theorem entry_job (hL : FormlessLib L) (hC : C.All Decent) (hN : Named C) (n : Nat) {kf vf : Field} (hk : kf.All Decent)
    (hv : vf.All Decent) {k : Val} (hkf : Free k) : Job S W mvEntry (entryT I (Lex.mapField I L C n) kf vf k) where
  run R := by
    have hr := mapField (S := S) (R := R) hL hC hN n
    refine .bindV (.withKey k (hr.one hv)) fun v => ?_
    rw [isIgnore_mv]
    refine .ite Iff.rfl (fun _ => .pure rfl) fun _ => .bindV (hr kf kf k (.same hk) hkf) fun k' => ?_
    rw [isIgnore_mv, hashable_mv]
    exact .ite Iff.rfl (fun _ => .pure rfl) fun _ => .ite Iff.rfl (fun _ => .pure rfl) fun _ => .raise' _
  keeps := by
    have hm := TKeeps.mapField (W := W) (I := I) (L := L) (hC.imp fun _ h => h.free.calm) n
    exact .bind (.withKey k (hm vf .NONE (hv.imp fun _ h => h.free.calm))) fun v => .ite (fun _ => .pure _) fun _ =>
      .bind (hm kf k (hk.imp fun _ h => h.free.calm)) fun k' => .ite (fun _ => .pure _) fun _ => .ite (fun _ => .pure _) fun _ => .raise _

/-! ## The container -/

theorem old_innerEnv (hold : ∃ a, s.env.form = some a ∧ a < s.forms.length) : OldEnv s.forms.length (f.innerEnv s.env) := by
  obtain ⟨a, h1, h2⟩ := hold
  have hf : (f.innerEnv s.env).form = s.env.form := by
    unfold Field.innerEnv
    cases f.kind <;> dsimp only <;> first | rfl | (split <;> rfl)
  have hp : (f.innerEnv s.env).parent = some .field := by
    unfold Field.innerEnv
    cases f.kind <;> dsimp only <;> first | rfl | (split <;> rfl)
  exact ⟨⟨a, hf.trans h1, h2⟩, by intro i h; rw [hp] at h; cases h⟩

theorem openSt_here (sp : Spot I W f s r q text b) : Here (asked I q) b.items (openSt I s r q) := by
  refine ⟨⟨r, rfl⟩, ?_⟩
  show curErrs s = _
  rw [sp.errs, ← sp.collect]

/-- The forms after the container was mapped. -/
theorem parsed_forms {n : Nat} (sp : Spot I W f s r q text b) (hC : C.All HookFree) (hfa : f.All HookFree)
    (ha : f.core.attachParent = false) (ht : f.core.translations = []) (hpr : Present I q) {v : Val}
    (hv : v.isIgnore = false) (hi : v.inList f.core.ignores = false) {τ2 τ3 : TSt P} {ok : Bool}
    (hparse : Lex.kindParse I L C (Lex.mapField I L C n) f (f.innerEnv s.env) (openSt I s r q) = (.ok v, τ2))
    (hval : Lex.kindValidate I L f v (f.innerEnv s.env) τ2 = (.ok ok, τ3)) (hpath : τ3.path = τ2.path) :
    (Pilo.mapField I L C (n + 1) f .NONE s).2.forms = τ3.forms := by
  have hf := hfa.node
  obtain ⟨p, hp, hpl⟩ := sp.place
  have hwp := curPathObj_wf sp.inv hp
  have hasked := asked_same (W := W) sp.wf
  have hkeep := TKeeps.kindParse (W := W) (ok := fun _ => True) (L := L) hC.calm (TKeeps.mapField (L := L) hC.calm n) hfa.calm
    (f.innerEnv s.env) (openSt I s r q) (by intro r' p' h; cases h; exact hasked.wf)
  rw [hparse] at hkeep
  obtain ⟨q2, hq2, hs2⟩ := hkeep.path
  have hc : Lex.fieldCompute I L C (Lex.mapField I L C n) f (f.innerEnv s.env)
      { s.view with path := some (some (r, q)) } = (.ok v, τ2) := by
    rw [fieldCompute_present (τ := { s.view with path := some (some (r, q)) }) hf rfl hpr]
    show T.tryCatch _ _ _ (openSt I s r q) = _
    unfold T.tryCatch
    rw [hparse]
  have hrun : Lex.fieldStart I L C (Lex.mapField I L C n) f (f.innerEnv s.env)
      { s.view with path := some (some (r, q)) } = (.ok (if ok then v else .ERROR), τ3) := by
    rw [fieldStart_value hf hc hv, fieldCheck_plain hf ht hv hi]
    exact (T.bind_ok hval).trans rfl
  obtain ⟨p', hfin⟩ := lexMap_run (W := W) (τ := s.view) hf.resolve ha hwp hp hpl hrun (hpath.trans hq2)
    (Same.trans W hasked hs2)
  have href := Ref.mapField (I := I) (L := L) (hC.imp fun _ h => h.lexNode) (n + 1) f .NONE
    (hfa.imp fun _ h => h.lexNode)
  obtain ⟨_, _, h3, _⟩ := href.run sp.live
  have he : Lex.mapField I L C (n + 1) f .NONE s.env s.view =
    (.ok (if ok then v else .ERROR), { τ3 with path := some (some (r, p')) }) := hfin
  rw [he] at h3
  exact h3

/-- What the items give when mapped one after the other, from what each gives alone. -/
theorem items_run {κ : Type} {act : (Nat → Nat) → α → α} (sp : Spot I W f s r q text b) (hg : ∀ fs, f.kind ≠ .group fs)
    (hpr : Present I q) (G : Ground S W Z (asked I q)) (hold : ∃ a, s.env.form = some a ∧ a < s.forms.length) {ks : List κ}
    {m : κ → M P α} {t : κ → T P α} (href : ∀ k ∈ ks, Ref (m k) (t k)) (hj : ∀ k ∈ ks, Job S W act (t k)) {v : κ → α} {es : κ → List Err}
    (hit : ∀ k ∈ ks, (inside I f (m k) s).1 = .ok (v k) ∧
      curErrs (inside I f (m k) s).2 = some { b with items := b.items ++ es k }) :
    ∃ ws ds τ2, seqT (ks.map t) (f.innerEnv s.env) (openSt I s r q) = (.ok ws, τ2) ∧
      ds.map Twin.bareErr = (ks.flatMap es).map Twin.bareErr ∧ Here (asked I q) (b.items ++ ds) τ2 ∧
      Each (fun k w => CopyOf act s.forms.length (v k) w (inside I f (m k) s).2.forms τ2.forms) ks ws := by
  have hrun := fun k hk => inside_run sp hg hpr G (href k hk) (hj k hk)
  obtain ⟨h1, -⟩ := jobs G (old_innerEnv hold) (openSt_here sp) rfl t ks (openSt I s r q) b.items hj (openSt_here sp) (Nat.le_refl _)
  obtain ⟨ws, ds, j1, j2, j3, j4, j5⟩ := h1 es (fun k hk => ⟨v k, by rw [← (hrun k hk).1]; exact (hit k hk).1⟩) fun k hk => by
    unfold items
    rw [← (hrun k hk).2.1, (hit k hk).2]
    rfl
  refine ⟨ws, ds, _, Prod.ext j1 rfl, j2.symm, j3, j5.mono fun k hk w hw => ?_⟩
  rw [(hrun k hk).2.2]
  exact hw _ (by rw [← (hrun k hk).1]; exact (hit k hk).1)

/-- The check of a container leaves the forms as they are. -/
theorem checked_forms {n : Nat} (sp : Spot I W f s r q text b) (hC : C.All HookFree) (hfa : f.All HookFree)
    (ha : f.core.attachParent = false) (ht : f.core.translations = []) (hpr : Present I q) {v : Val}
    (hv : v.isIgnore = false) (hi : v.inList f.core.ignores = false) {τ2 : TSt P} {es : List Err}
    (hparse : Lex.kindParse I L C (Lex.mapField I L C n) f (f.innerEnv s.env) (openSt I s r q) = (.ok v, τ2))
    (hh : Here (asked I q) es τ2)
    (hval : Lex.kindValidate I L f v = T.pure true ∨ ∃ msg, Lex.kindValidate I L f v = Lex.rejectWith I msg) :
    (Pilo.mapField I L C (n + 1) f .NONE s).2.forms = τ2.forms := by
  rcases hval with h | ⟨msg, h⟩
  · exact parsed_forms sp hC hfa ha ht hpr hv hi hparse (τ3 := τ2) (ok := true) (by rw [h]; rfl) rfl
  · obtain ⟨r', hr'⟩ := hh.path
    have hx := rejectWith_run (I := I) (env := f.innerEnv s.env) msg hr'
      (by rw [Same.render (asked_same (W := W) sp.wf) sp.wf, sp.text]) hh.errs rfl (innerEnv_field _ _)
    rw [← h] at hx
    have := parsed_forms sp hC hfa ha ht hpr hv hi hparse hx rfl
    exact this

end Move

open Move in
/-- C90 for `List`. The source has a sequence of `len` items at the place of the list.  Mapping the item field at `0`,
`1`, …, each time from the same state, gives `v 0`, `v 1`, … and adds the errors `es 0`, `es 1`, ….  Then mapping the list
adds these errors, those of the first item first.  If the number of items that give something is within the bounds, the
result is the list of what they give; if not, the result is `ERROR`, and one further `Invalid` error is added.  (Path
objects and new forms are the same but for their identities; of new forms, class and contents.) -/
theorem C90_list {S : Inert I} {W : LawfulPath I} {Z : Pin I} {f g : Field} {s : St P} {r : Nat} {q : P} {text : String}
    {b : ErrBuf} (hL : FormlessLib L) (hC : C.All Decent) (hN : Named C) (n : Nat) (sp : Spot I W f s r q text b)
    (G : Ground S W Z (asked I q)) (hf : f.All Decent) {lo hi : Option Nat} {allow : Bool} (hk : f.kind = .list g lo hi allow)
    (ha : f.core.attachParent = false) (ht : f.core.translations = []) (hi' : f.core.ignores = []) (hpr : Present I q) {len : Nat}
    (hseq : (I.sequence (asked I q)).1 = .ok len) (hold : ∃ a, s.env.form = some a ∧ a < s.forms.length)
    (v : Nat → Val) (es : Nat → List Err) :
    let alone := fun i : Nat => itemAlone I L C n f g (.int i) s
    let whole := mapField I L C (n + 1) f .NONE s
    (∀ i, i < len → (alone i).1 = .ok (v i) ∧ curErrs (alone i).2 = some { b with items := b.items ++ es i }) →
    ∃ ws ds, Each (fun i w => CopyOf Val.mv s.forms.length (v i) w (alone i).2.forms whole.2.forms) (List.range len) ws ∧
      ds.map Twin.bareErr = ((List.range len).flatMap es).map Twin.bareErr ∧
      (LenOK lo hi (usable ws).length → whole.1 = .ok (.list (usable ws)) ∧
        curErrs whole.2 = some { b with items := b.items ++ ds }) ∧
      (¬ LenOK lo hi (usable ws).length → whole.1 = .ok .ERROR ∧ ∃ msg, curErrs whole.2 = some { b with items := b.items ++ ds ++
        [{ kind := .invalid msg, path := text, field := f.name, pathRef := some r }] }) := by
  intro alone whole hit
  have hH : C.All HookFree := hC.imp fun _ h => h.free
  have hfa : f.All HookFree := hf.imp fun _ h => h.free
  have hg : g.All Decent := by
    have := hf.kind
    rw [hk] at this
    cases this with | list h => exact h
  have hng : ∀ fs, f.kind ≠ .group fs := by intro fs h; rw [hk] at h; cases h
  obtain ⟨ws, ds, τ2, hrun, hds, hh, heach⟩ := items_run (act := Val.mv) sp hng hpr G hold (ks := List.range len)
    (m := fun i : Nat => atKey I (.int i) (mapField I L C n g .NONE)) (t := fun i : Nat => T.withKey I (.int i) (Lex.mapField I L C n g .NONE))
    (fun i _ => .key (Ref.mapField (I := I) (L := L) (hC.imp fun _ h => h.free.lexNode) n g .NONE (hg.imp fun _ h => h.free.lexNode)))
    (fun i _ => item_job hL hC hN n hg (.int i)) (v := v) (es := es) fun i hi => hit i (List.mem_range.1 hi)
  have hparse : Lex.listParse I (Lex.mapField I L C n) g allow (f.innerEnv s.env) (openSt I s r q) = (.ok (.list (usable ws)), τ2) := by
    have hs : T.onPath I.sequence (f.innerEnv s.env) (openSt I s r q) = (.ok len, openSt I s r q) := by
      rw [T.onPath_run (r := r) (p := asked I q) rfl, hseq, G.same _ (Z.sequence G.at0)]
      rfl
    have ht : Lex.seqTry I (f.innerEnv s.env) (openSt I s r q) = (.ok (.ok len), openSt I s r q) := by
      unfold Lex.seqTry T.tryCatch
      rw [T.bind_ok hs]
      rfl
    unfold Lex.listParse
    rw [T.bind_ok ht]
    dsimp only
    rw [listLoop_seq, T.bind_assoc, ← List.range_eq_range']
    rw [T.bind_ok hrun]
    rfl
  have hparse' : Lex.kindParse I L C (Lex.mapField I L C n) f (f.innerEnv s.env) (openSt I s r q) =
      (.ok (.list (usable ws)), τ2) := by
    unfold Lex.kindParse; rw [hk]; exact hparse
  have hin : (Val.list (usable ws)).inList f.core.ignores = false := by rw [hi']; rfl
  obtain ⟨h1, h2⟩ := C24_list_bounds (L := L) sp hH hfa hk ha ht hin hpr hparse hh.errs
  obtain ⟨hok, hbad⟩ := listValidate_spec (I := I) (lo := lo) (hi := hi) (usable ws)
  have hforms : whole.2.forms = τ2.forms := by
    refine checked_forms sp hH hfa ha ht hpr rfl hin hparse' hh ?_
    rw [kindValidate_nonnull rfl, hk]
    by_cases h : LenOK lo hi (usable ws).length
    · exact .inl (hok h)
    · exact .inr (hbad h)
  have hcol : (⟨false, b.items ++ ds⟩ : ErrBuf) = { b with items := b.items ++ ds } := by rw [← sp.collect]
  rw [hcol] at h1 h2
  refine ⟨ws, ds, ?_, hds, h1, h2⟩
  rw [hforms]
  exact heach

open Move in
/-- C90 for `Tuple`. The source has a sequence of as many items as the tuple has fields.  Mapping the field of each item,
each time from the same state, gives `v` and adds `es` (by field and index).  Then mapping the tuple gives the tuple of
what the items give, and adds their errors, those of the first item first. -/
theorem C90_tuple {S : Inert I} {W : LawfulPath I} {Z : Pin I} {f : Field} {s : St P} {r : Nat} {q : P} {text : String}
    {b : ErrBuf} (hL : FormlessLib L) (hC : C.All Decent) (hN : Named C) (n : Nat) (sp : Spot I W f s r q text b)
    (G : Ground S W Z (asked I q)) (hf : f.All Decent) {fs : List Field} (hk : f.kind = .tuple fs)
    (ha : f.core.attachParent = false) (ht : f.core.translations = []) (hi' : f.core.ignores = []) (hpr : Present I q)
    (hseq : (I.sequence (asked I q)).1 = .ok fs.length) (hold : ∃ a, s.env.form = some a ∧ a < s.forms.length)
    (v : Field × Nat → Val) (es : Field × Nat → List Err) :
    let alone := fun x : Field × Nat => itemAlone I L C n f x.1 (.int x.2) s
    let whole := mapField I L C (n + 1) f .NONE s
    (∀ x ∈ fs.zipIdx, (alone x).1 = .ok (v x) ∧ curErrs (alone x).2 = some { b with items := b.items ++ es x }) →
    ∃ ws ds, Each (fun x w => CopyOf Val.mv s.forms.length (v x) w (alone x).2.forms whole.2.forms) fs.zipIdx ws ∧
      ds.map Twin.bareErr = (fs.zipIdx.flatMap es).map Twin.bareErr ∧
      whole.1 = .ok (.tuple (usable ws)) ∧ curErrs whole.2 = some { b with items := b.items ++ ds } := by
  intro alone whole hit
  have hH : C.All HookFree := hC.imp fun _ h => h.free
  have hfa : f.All HookFree := hf.imp fun _ h => h.free
  have hg : ∀ g ∈ fs, g.All Decent := by
    have := hf.kind
    rw [hk] at this
    cases this with | tuple h => exact h
  have hng : ∀ fs, f.kind ≠ .group fs := by intro fs h; rw [hk] at h; cases h
  have hmem : ∀ x ∈ fs.zipIdx, x.1 ∈ fs := fun x hx => List.fst_mem_of_mem_zipIdx hx
  obtain ⟨ws, ds, τ2, hrun, hds, hh, heach⟩ := items_run (act := Val.mv) sp hng hpr G hold (ks := fs.zipIdx)
    (m := fun x => atKey I (.int x.2) (mapField I L C n x.1 .NONE)) (t := fun x => T.withKey I (.int x.2) (Lex.mapField I L C n x.1 .NONE))
    (fun x hx => .key (Ref.mapField (I := I) (L := L) (hC.imp fun _ h => h.free.lexNode) n x.1 .NONE
      ((hg _ (hmem x hx)).imp fun _ h => h.free.lexNode)))
    (fun x hx => item_job hL hC hN n (hg _ (hmem x hx)) (.int x.2)) (v := v) (es := es) hit
  have hparse' : Lex.kindParse I L C (Lex.mapField I L C n) f (f.innerEnv s.env) (openSt I s r q) =
      (.ok (.tuple (usable ws)), τ2) := by
    unfold Lex.kindParse; rw [hk]
    have hs : T.onPath I.sequence (f.innerEnv s.env) (openSt I s r q) = (.ok fs.length, openSt I s r q) := by
      rw [T.onPath_run (r := r) (p := asked I q) rfl, hseq, G.same _ (Z.sequence G.at0)]
      rfl
    show Lex.tupleParse I _ fs _ _ = _
    unfold Lex.tupleParse
    rw [T.bind_ok hs, if_neg (by simp), tupleLoop_seq, T.bind_assoc, T.bind_ok hrun]
    rfl
  have hin : (Val.tuple (usable ws)).inList f.core.ignores = false := by rw [hi']; rfl
  have hval : Lex.kindValidate I L f (.tuple (usable ws)) = T.pure true := by rw [kindValidate_nonnull rfl, hk]
  obtain ⟨h1, -⟩ := parsed_checked (L := L) sp hH hfa ha ht hin rfl hpr hparse' hh.errs
  have hforms : whole.2.forms = τ2.forms := checked_forms sp hH hfa ha ht hpr rfl hin hparse' hh (.inl hval)
  have hcol : (⟨false, b.items ++ ds⟩ : ErrBuf) = { b with items := b.items ++ ds } := by rw [← sp.collect]
  rw [hcol] at h1
  refine ⟨ws, ds, ?_, hds, h1 hval⟩
  rw [hforms]
  exact heach

open Move in
/-- C90 for `Dict`. The source has a mapping with the keys `ks`.  Mapping the value field at each key and the key field
with the key, each time from the same state, gives `v k` (no entry if one of the two gives nothing) and adds `es k`.  Then
mapping the dict adds these errors, those of the first key first; the entries are put into a dict in order.  If it has the
required keys and not too many keys, it is the result; if not, the result is `ERROR`, and one further `Invalid` error is
added. -/
theorem C90_dict {S : Inert I} {W : LawfulPath I} {Z : Pin I} {f kf vf : Field} {s : St P} {r : Nat} {q : P} {text : String}
    {b : ErrBuf} (hL : FormlessLib L) (hC : C.All Decent) (hN : Named C) (n : Nat) (sp : Spot I W f s r q text b)
    (G : Ground S W Z (asked I q)) (hf : f.All Decent) {req : Required} {rks : List Val} {mx : Option Nat}
    (hk : f.kind = .dict kf vf none req mx) (hr : req.Asks rks) (hm : mx ≠ some 0)
    (hj : ∀ ms, ms ≠ [] → ms ⊆ rks → ∃ t, L.joinKeys ms = some t)
    (ha : f.core.attachParent = false) (ht : f.core.translations = []) (hi' : f.core.ignores = []) (hpr : Present I q) {ks : List Val}
    (hmap : (I.mapping (asked I q)).1 = .ok (some { ks := ks, iterErr := none }))
    (hold : ∃ a, s.env.form = some a ∧ a < s.forms.length) (v : Val → Option (Val × Val)) (es : Val → List Err) :
    let alone := fun k => entryAlone I L C n f kf vf k s
    let whole := mapField I L C (n + 1) f .NONE s
    (∀ k ∈ ks, (alone k).1 = .ok (v k) ∧ curErrs (alone k).2 = some { b with items := b.items ++ es k }) →
    ∃ ws ds, Each (fun k w => CopyOf mvEntry s.forms.length (v k) w (alone k).2.forms whole.2.forms) ks ws ∧
      ds.map Twin.bareErr = (ks.flatMap es).map Twin.bareErr ∧
      (DictOK rks mx (dictOf ws) → whole.1 = .ok (.dict (dictOf ws)) ∧
        curErrs whole.2 = some { b with items := b.items ++ ds }) ∧
      (¬ DictOK rks mx (dictOf ws) → whole.1 = .ok .ERROR ∧ ∃ msg, curErrs whole.2 = some { b with items := b.items ++ ds ++
        [{ kind := .invalid msg, path := text, field := f.name, pathRef := some r }] }) := by
  intro alone whole hit
  have hH : C.All HookFree := hC.imp fun _ h => h.free
  have hfa : f.All HookFree := hf.imp fun _ h => h.free
  have hg : kf.All Decent ∧ vf.All Decent := by
    have := hf.kind
    rw [hk] at this
    cases this with | dict h h' => exact ⟨h, h'⟩
  have hng : ∀ fs, f.kind ≠ .group fs := by intro fs h; rw [hk] at h; cases h
  have hfree : ∀ k ∈ ks, Free k := S.keys_free G.q hmap
  obtain ⟨ws, ds, τ2, hrun, hds, hh, heach⟩ := items_run (act := mvEntry) sp hng hpr G hold (ks := ks)
    (m := dictEntry I L C (mapField I L C n) kf vf none) (t := entryT I (Lex.mapField I L C n) kf vf)
    (fun k _ => Ref_entry (Ref.mapField (I := I) (L := L) (hC.imp fun _ h => h.free.lexNode) n)
      (hg.1.imp fun _ h => h.free.lexNode) (hg.2.imp fun _ h => h.free.lexNode) k)
    (fun k hk => entry_job hL hC hN n hg.1 hg.2 (hfree k hk)) (v := v) (es := es) hit
  have hparse : Lex.dictParse I L C (Lex.mapField I L C n) f kf vf none (f.innerEnv s.env) (openSt I s r q) =
      (.ok (.dict (dictOf ws)), τ2) := by
    have hs : T.onPath I.mapping (f.innerEnv s.env) (openSt I s r q) =
        (.ok (some { ks := ks, iterErr := none }), openSt I s r q) := by
      rw [T.onPath_run (r := r) (p := asked I q) rfl, hmap, G.same _ (Z.mapping G.at0)]
      rfl
    unfold Lex.dictParse
    rw [T.bind_ok hs]
    dsimp only
    rw [T.bind_ok (show Lex.iterKeys { ks := ks, iterErr := none } (f.innerEnv s.env) (openSt I s r q) =
      (.ok ks, openSt I s r q) from rfl), dictLoop_seq, T.bind_assoc, T.bind_ok hrun]
    rfl
  have hparse' : Lex.kindParse I L C (Lex.mapField I L C n) f (f.innerEnv s.env) (openSt I s r q) =
      (.ok (.dict (dictOf ws)), τ2) := by
    unfold Lex.kindParse; rw [hk]; exact hparse
  have hin : (Val.dict (dictOf ws)).inList f.core.ignores = false := by rw [hi']; rfl
  obtain ⟨h1, h2⟩ := C26_dict_bounds (L := L) sp hH hfa hk hr hm hj ha ht hin hpr hparse hh.errs
  obtain ⟨hok, hbad⟩ := dictValidate_spec (I := I) hr mx hm hj (dictOf ws)
  have hforms : whole.2.forms = τ2.forms := by
    refine checked_forms sp hH hfa ha ht hpr rfl hin hparse' hh ?_
    rw [kindValidate_nonnull rfl, hk]
    by_cases h : DictOK rks mx (dictOf ws)
    · exact .inl (hok h)
    · exact .inr (hbad h)
  have hcol : (⟨false, b.items ++ ds⟩ : ErrBuf) = { b with items := b.items ++ ds } := by rw [← sp.collect]
  rw [hcol] at h1 h2
  refine ⟨ws, ds, ?_, hds, h1, h2⟩
  rw [hforms]
  exact heach

open Move in
/-- At a path of a native, JSON or configuration source that has a value. -/
theorem Path.ground_asked (hL : CleanLib L) {q : SPath} (hc : (Path.base (.simple q)).Clean)
    (hw : (Path.lawful L).WF (.base (.simple q))) (h : (q.exists_ L).1 = .ok true) :
    ∃ Z : Pin (Path.ops L), Ground (Path.inert hL) (Path.lawful L) Z (asked (Path.ops L) (.base (.simple q))) := by
  obtain ⟨q', h1, h2⟩ := SPath.asked_atHand L h
  have he : asked (Path.ops L) (.base (.simple q)) = .base (.simple q') := by rw [← h1]; rfl
  rw [he]
  refine ⟨Path.pin L h2, Path.ground hL h2 ?_ ?_⟩
  · rw [← he]
    exact (Path.sane hL).isNull ((Path.sane hL).exists_ (p := .base (.simple q)) hc)
  · rw [← he]
    exact (asked_same hw).wf

open Move in
/-- C90 for a `List` at a path of a native, JSON or configuration source of plain data. -/
theorem C90_list_data {f g : Field} {s : St Path} {r : Nat} {q : SPath} {text : String} {b : ErrBuf} (hL : FormlessLib L)
    (hL' : CleanLib L) (hC : C.All Decent) (hN : Named C) (n : Nat)
    (sp : Spot (Path.ops L) (Path.lawful L) f s r (.base (.simple q)) text b) (hc : (Path.base (.simple q)).Clean)
    (hf : f.All Decent) {lo hi : Option Nat} {allow : Bool} (hk : f.kind = .list g lo hi allow)
    (ha : f.core.attachParent = false) (ht : f.core.translations = []) (hi' : f.core.ignores = [])
    (hpr : Present (Path.ops L) (.base (.simple q))) {len : Nat}
    (hseq : ((Path.ops L).sequence (asked (Path.ops L) (.base (.simple q)))).1 = .ok len)
    (hold : ∃ a, s.env.form = some a ∧ a < s.forms.length) (v : Nat → Val) (es : Nat → List Err) :
    let alone := fun i : Nat => itemAlone (Path.ops L) L C n f g (.int i) s
    let whole := mapField (Path.ops L) L C (n + 1) f .NONE s
    (∀ i, i < len → (alone i).1 = .ok (v i) ∧ curErrs (alone i).2 = some { b with items := b.items ++ es i }) →
    ∃ ws ds, Each (fun i w => CopyOf Val.mv s.forms.length (v i) w (alone i).2.forms whole.2.forms) (List.range len) ws ∧
      ds.map Twin.bareErr = ((List.range len).flatMap es).map Twin.bareErr ∧
      (LenOK lo hi (usable ws).length → whole.1 = .ok (.list (usable ws)) ∧
        curErrs whole.2 = some { b with items := b.items ++ ds }) ∧
      (¬ LenOK lo hi (usable ws).length → whole.1 = .ok .ERROR ∧ ∃ msg, curErrs whole.2 = some { b with items := b.items ++ ds ++
        [{ kind := .invalid msg, path := text, field := f.name, pathRef := some r }] }) := by
  obtain ⟨Z, G⟩ := Path.ground_asked hL' hc sp.wf hpr.ex
  exact C90_list hL hC hN n sp G hf hk ha ht hi' hpr hseq hold v es

/-! ## Examples -/

namespace Demo

/-- The place of a field that reads the key `k` of native data, among all paths. -/
def spotOf (v : Val) (k : String) : Path := .base (.simple (placeOf v k))

theorem here_path_spot (L : Lib) (f : Field) (v : Val) {k : String} (hf : f.core.src = .str k) (hg : ∀ fs, f.kind ≠ .group fs) :
    Spot (Path.ops L) (Path.lawful L) f (here (Path.ops L) v) 0 (spotOf v k) k ⟨false, []⟩ where
  inv := here_inv _ v
  live := here_live v
  place := by
    refine ⟨.base (.simple (SPath.native v none)), rfl, ?_⟩
    unfold Field.place
    have : noSrc f.core.src = false := by rw [hf]; rfl
    cases h : f.kind <;> first | exact absurd h (hg _) | (rw [this, hf]; rfl)
  text := by
    show withLocation none (Except.ok (k ++ "")) = _
    simp [withLocation]
  errs := rfl
  collect := rfl

theorem spot_clean {v : Val} (hv : Clean v) (k : String) : (spotOf v k).Clean :=
  (Path.sane lib_clean).append (p := .base (.simple (SPath.native v none))) (k := .str k)
    (Path.native_clean hv (by intro a h; cases h)) rfl

def itemsDoc : Val := .dict [(.str "children", .list [.dict [(.str "x", .int 2)], .dict [(.str "x", .str "u")], .dict [(.str "x", .int 3)]]),
  (.str "pair", .list [.int 4, .dict [(.str "x", .int 5)]]), (.str "map", .dict [(.str "k", .dict [(.str "x", .int 6)]), (.str "l", .int 0)])]

theorem items_data : Clean itemsDoc := by
  have hx : ∀ v, Clean v → Clean (.dict [(.str "x", v)]) := fun v hv => .dict
    (by intro p h; simp only [List.mem_singleton] at h; subst h; exact ⟨rfl, rfl, rfl⟩)
    (by intro p h; simp only [List.mem_singleton] at h; subst h; exact hv)
  refine .dict ?_ ?_
  · intro p h
    simp only [List.mem_cons, List.not_mem_nil, or_false] at h
    rcases h with rfl | rfl | rfl <;> exact ⟨rfl, rfl, rfl⟩
  · intro p h
    simp only [List.mem_cons, List.not_mem_nil, or_false] at h
    rcases h with rfl | rfl | rfl
    · refine .list fun x h => ?_
      simp only [List.mem_cons, List.not_mem_nil, or_false] at h
      rcases h with rfl | rfl | rfl
      · exact hx _ (.int 2)
      · exact hx _ (.str "u")
      · exact hx _ (.int 3)
    · refine .list fun x h => ?_
      simp only [List.mem_cons, List.not_mem_nil, or_false] at h
      rcases h with rfl | rfl
      · exact .int 4
      · exact hx _ (.int 5)
    · refine .dict ?_ ?_
      · intro p h
        simp only [List.mem_cons, List.not_mem_nil, or_false] at h
        rcases h with rfl | rfl <;> exact ⟨rfl, rfl, rfl⟩
      · intro p h
        simp only [List.mem_cons, List.not_mem_nil, or_false] at h
        rcases h with rfl | rfl
        · exact hx _ (.int 6)
        · exact .int 0

/-- The item field of `apartList`. -/
def apartItem : Field := .mk {} (.subform 5 false (.str .ignore))

local macro "itemRun" i:term:max : term =>
  `(itemAlone (Path.ops lib) lib apart 10 apartList apartItem (.int $i) (here (Path.ops lib) itemsDoc))
local macro "listRun" : term => `(mapField (Path.ops lib) lib apart (10 + 1) apartList .NONE (here (Path.ops lib) itemsDoc))

/-- Each item alone makes the form `1`; the second has no integer in it.  In the list, the forms are `1`, `2` and `3`. -/
example : ([0, 1, 2].map fun i : Nat => ((itemRun i).1.toOption, (curErrs (itemRun i).2).map fun b => b.items.map Err.path)) =
      [(some (.form 1), some []), (some .ERROR, some ["children[1].x"]), (some (.form 1), some [])] ∧
    listRun.1.toOption = some (.list [.form 1, .form 3]) ∧
    (curErrs listRun.2).map (fun b => b.items.map Err.path) = some ["children[1].x"] ∧
    (itemRun 2).2.entry 1 "x" = some (.int 3) ∧ listRun.2.entry 3 "x" = some (.int 3) := by
  decide +kernel

/-- What the item alone gives. -/
def itemVal (i : Nat) : Val := match (itemRun i).1 with | .ok v => v | .error _ => .none
def itemErrs (i : Nat) : List Err := ((curErrs (itemRun i).2).elim [] ErrBuf.items)

theorem items_return : ∀ i : Nat, i < 3 → (itemRun i).1 = .ok (itemVal i) ∧ curErrs (itemRun i).2 = some ⟨false, [] ++ itemErrs i⟩ := by
  have h : ∀ i : Nat, ((match (itemRun i).1 with | .ok _ => true | .error _ => false) &&
      (match curErrs (itemRun i).2 with | some b => !b.raising | none => false)) = true →
      (itemRun i).1 = .ok (itemVal i) ∧ curErrs (itemRun i).2 = some ⟨false, [] ++ itemErrs i⟩ := by
    intro i h
    rw [Bool.and_eq_true] at h
    constructor
    · unfold itemVal
      cases hj : (itemRun i).1 with
      | ok es => rfl
      | error e => rw [hj] at h; cases h.1
    · unfold itemErrs
      cases hj : curErrs (itemRun i).2 with
      | none => rw [hj] at h; cases h.2
      | some b =>
        rw [hj] at h
        obtain ⟨rs, es⟩ := b
        cases rs with
        | true => cases h.2
        | false => rfl
  intro i hi
  have : i = 0 ∨ i = 1 ∨ i = 2 := by omega
  rcases this with rfl | rfl | rfl <;> exact h _ (by decide +kernel)

/-- C90 at work: what the list gives, from what the items give alone. -/
example : ∃ ws ds, Each (fun (i : Nat) w => Move.CopyOf Val.mv (here (Path.ops lib) itemsDoc).forms.length (itemVal i) w
      (itemRun i).2.forms listRun.2.forms) (List.range 3) ws ∧
    ds.map Twin.bareErr = ((List.range 3).flatMap itemErrs).map Twin.bareErr ∧ listRun.1 = .ok (.list (usable ws)) ∧
    curErrs listRun.2 = some ⟨false, [] ++ ds⟩ := by
  have h := C90_list_data (q := placeOf itemsDoc "children") (b := ⟨false, []⟩) lib_formless lib_clean apart_decent apart_named 10 (f := apartList)
    (g := apartItem) (here_path_spot lib apartList itemsDoc rfl (by intro _ h; cases h)) (spot_clean items_data "children")
    (apart_decent 3 apartList (by simp [apart])) rfl rfl rfl rfl ⟨by decide +kernel, by decide +kernel⟩ (len := 3)
    (by decide +kernel) ⟨0, rfl, by decide⟩ itemVal itemErrs
  have hr := items_return
  obtain ⟨ws, ds, h1, h2, h3, -⟩ := h hr
  have h4 : LenOK none none (usable ws).length := ⟨(by intro _ h; cases h), (by intro _ h; cases h)⟩
  have h5 := h3 h4
  dsimp only at h1 h5
  exact ⟨ws, ds, h1, h2, h5⟩

/-! A tuple and a dict. -/

def pairField : Field := field "pair" (.tuple [.mk {} (.integer {}), apartItem])
def mappedField : Field := field "map" (.dict (.mk {} (.string {})) apartItem none (.set [.str "k"]) (some 2))

theorem pair_decent : pairField.All Decent := .mk (decent_plain (hookFree_plain (by intro _ _ _ _ _ h; cases h))) (.tuple (by
  intro g hg
  simp only [List.mem_cons, List.not_mem_nil, or_false] at hg
  rcases hg with rfl | rfl
  · exact .mk (decent_plain (hookFree_plain (by intro _ _ _ _ _ h; cases h))) .integer
  · exact .mk (decent_plain (hookFree_plain (by intro _ _ _ _ _ h; cases h))) (.subform .str)))

theorem map_decent : mappedField.All Decent := .mk
  { free := hookFree_plain (by intro _ _ _ _ _ h; cases h), keyFilter := by intro _ _ _ _ _ h; cases h; rfl
    default := by intro _ h; cases h
    translations := by intro _ h; cases h
    ignores := by intro _ h; cases h
    required := by
      intro _ _ _ _ _ h k hk
      cases h
      simp only [List.mem_cons, List.not_mem_nil, or_false] at hk
      subst hk
      exact .str _
    captures := by intro _ h; cases h }
  (.dict (.mk (decent_plain (hookFree_plain (by intro _ _ _ _ _ h; cases h))) .string)
    (.mk (decent_plain (hookFree_plain (by intro _ _ _ _ _ h; cases h))) (.subform .str)))

local macro "pairItem" x:term:max : term =>
  `(itemAlone (Path.ops lib) lib apart 10 pairField (Prod.fst $x) (.int (Prod.snd (α := Field) (β := Nat) $x)) (here (Path.ops lib) itemsDoc))
local macro "pairRun" : term => `(mapField (Path.ops lib) lib apart (10 + 1) pairField .NONE (here (Path.ops lib) itemsDoc))
local macro "mapEntry" k:term:max : term =>
  `(entryAlone (Path.ops lib) lib apart 10 mappedField (.mk {} (.string {})) apartItem $k (here (Path.ops lib) itemsDoc))
local macro "mapRun" : term => `(mapField (Path.ops lib) lib apart (10 + 1) mappedField .NONE (here (Path.ops lib) itemsDoc))

/-- The second item of the pair makes a form; the entry at `l` of the map is no mapping, so it is left out. -/
example : pairRun.1.toOption = some (.tuple [.int 4, .form 1]) ∧ mapRun.1.toOption = some (.dict [(.str "k", .form 1)]) ∧
    (mapEntry (.str "k")).1.toOption = some (some (.str "k", .form 1)) ∧ (mapEntry (.str "l")).1.toOption = some none ∧
    (curErrs (mapEntry (.str "l")).2).map (fun b => b.items.map Err.path) =
      (curErrs mapRun.2).map fun b => b.items.map Err.path := by
  decide +kernel

/-- A run that returns and collects errors. -/
def fine {α : Type} (x : Except Exc α × St Path) : Bool := (match x.1 with | .ok _ => true | .error _ => false) &&
  (match curErrs x.2 with | some b => !b.raising | none => false)

/-- What a run returns. -/
def gotVal {α : Type} (d : α) : Except Exc α → α
  | .ok v => v
  | .error _ => d

theorem got {α : Type} (x : Except Exc α × St Path) (d : α) (h : fine x = true) :
    x.1 = .ok (gotVal d x.1) ∧
      curErrs x.2 = some ⟨false, [] ++ (curErrs x.2).elim [] ErrBuf.items⟩ := by
  obtain ⟨r, s⟩ := x
  unfold fine at h
  dsimp only at h ⊢
  rw [Bool.and_eq_true] at h
  constructor
  · cases r with
    | ok v => rfl
    | error e => cases h.1
  · generalize curErrs s = o at h ⊢
    cases o with
    | none => cases h.2
    | some b =>
      obtain ⟨rs, es⟩ := b
      cases rs with
      | true => cases h.2
      | false => rfl

def pairVal (x : Field × Nat) : Val := gotVal .none (pairItem x).1
def pairErrs (x : Field × Nat) : List Err := (curErrs (pairItem x).2).elim [] ErrBuf.items
def mapVal (k : Val) : Option (Val × Val) := gotVal none (mapEntry k).1
def mapErrs (k : Val) : List Err := (curErrs (mapEntry k).2).elim [] ErrBuf.items

theorem pair_return : ∀ x ∈ [Field.mk {} (.integer {}), apartItem].zipIdx, (pairItem x).1 = .ok (pairVal x) ∧
    curErrs (pairItem x).2 = some ⟨false, [] ++ pairErrs x⟩ := by
  have h : ∀ x, fine (pairItem x) = true → (pairItem x).1 = .ok (pairVal x) ∧ curErrs (pairItem x).2 = some ⟨false, [] ++ pairErrs x⟩ := by
    intro x hx
    unfold pairVal pairErrs
    generalize hy : pairItem x = y at hx ⊢
    exact got y _ hx
  intro x hx
  refine h x ?_
  simp only [List.zipIdx_cons, List.zipIdx_nil, List.mem_cons, List.not_mem_nil, or_false] at hx
  rcases hx with rfl | rfl <;> decide +kernel

theorem map_return : ∀ k ∈ [Val.str "k", Val.str "l"], (mapEntry k).1 = .ok (mapVal k) ∧
    curErrs (mapEntry k).2 = some ⟨false, [] ++ mapErrs k⟩ := by
  have h : ∀ k, fine (mapEntry k) = true → (mapEntry k).1 = .ok (mapVal k) ∧ curErrs (mapEntry k).2 = some ⟨false, [] ++ mapErrs k⟩ := by
    intro k hk
    unfold mapVal mapErrs
    generalize hy : mapEntry k = y at hk ⊢
    exact got y _ hk
  intro x hx
  refine h x ?_
  simp only [List.mem_cons, List.not_mem_nil, or_false] at hx
  rcases hx with rfl | rfl <;> decide +kernel

/-- C90 at work for the pair. -/
example : ∃ ws ds, ds.map Twin.bareErr = (([Field.mk {} (.integer {}), apartItem].zipIdx).flatMap pairErrs).map Twin.bareErr ∧
    pairRun.1 = .ok (.tuple (usable ws)) ∧ curErrs pairRun.2 = some ⟨false, [] ++ ds⟩ := by
  have sp := here_path_spot lib pairField itemsDoc (k := "pair") rfl (by intro _ h; cases h)
  have hpr : Present (Path.ops lib) (spotOf itemsDoc "pair") := ⟨by decide +kernel, by decide +kernel⟩
  obtain ⟨Z, G⟩ := Path.ground_asked lib_clean (spot_clean items_data "pair") sp.wf hpr.ex
  have h := C90_tuple lib_formless apart_decent apart_named 10 sp G pair_decent
    (fs := [.mk {} (.integer {}), apartItem]) rfl rfl rfl rfl hpr (by decide +kernel) ⟨0, rfl, by decide⟩ pairVal pairErrs
  have hr := pair_return
  obtain ⟨ws, ds, -, h2, h3, h4⟩ := h hr
  exact ⟨ws, ds, h2, h3, h4⟩

/-- C90 at work for the map. -/
example : ∃ ws ds, ds.map Twin.bareErr = ([Val.str "k", Val.str "l"].flatMap mapErrs).map Twin.bareErr ∧
    (DictOK [.str "k"] (some 2) (dictOf ws) → mapRun.1 = .ok (.dict (dictOf ws)) ∧ curErrs mapRun.2 = some ⟨false, [] ++ ds⟩) := by
  have sp := here_path_spot lib mappedField itemsDoc (k := "map") rfl (by intro _ h; cases h)
  have hpr : Present (Path.ops lib) (spotOf itemsDoc "map") := ⟨by decide +kernel, by decide +kernel⟩
  obtain ⟨Z, G⟩ := Path.ground_asked lib_clean (spot_clean items_data "map") sp.wf hpr.ex
  have h := C90_dict lib_formless apart_decent apart_named 10 sp G map_decent (kf := .mk {} (.string {})) (vf := apartItem)
    (req := .set [.str "k"]) (mx := some 2) rfl (.set _) (by decide) (fun _ _ _ => ⟨_, rfl⟩) rfl rfl rfl hpr
    (ks := [.str "k", .str "l"]) (by rfl) ⟨0, rfl, by decide⟩ mapVal mapErrs
  have hr := map_return
  obtain ⟨ws, ds, -, h2, h3, -⟩ := h hr
  exact ⟨ws, ds, h2, h3⟩

end Demo
end Pilo
