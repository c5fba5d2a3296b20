import Verif.Props.Unparsable

/-!
# C55: a single value in place of a list

`List(field, allow_field=True)` takes a source that is not a sequence for the only item of the list
(`pilo/fields.py:1117-1140`).
-/

namespace Pilo
variable {P : Type} {I : PathOps P} {L : Lib} {W : LawfulPath I} {C : Classes} {rec : Rec P}

/-- C55 (parsing).  When the source cannot be read as a sequence (and reports so with an error of its own),
`List._parse` without `allow_field` raises that error, and with `allow_field` maps the item field once, at the
place of the list itself, and gives the list with just that value.  An unusable value of the item is the value
of the list. -/
theorem C55_parse (c : FieldCore) (f : Field) (lo hi : Option Nat) (allow : Bool) {e : Exc} {s s1 s2 : St P}
    (hseq : readPath I.sequence s = (.error e, s1)) (hsrc : readPath (fun p => (.ok (I.hasSrc p), p)) s1 = (.ok true, s2))
    (he : e.isSourceError = true) :
    kindParse I L C rec (.mk c (.list f lo hi allow)) s =
      if allow then (rec f .NONE >>= fun v => M.pure (if v.isIgnore then v else .list [v])) s2
      else (.error e, s2) := by
  change listParse I rec f allow s = _
  unfold listParse seqTry
  have h1 : M.tryCatch (do let n ← readPath I.sequence; M.pure (.ok n) : M P (Except Exc Nat)) (fun e => do
      let hs ← pathHasSrc I
      if !hs then M.raise (.attributeError "'MountPath' object has no attribute 'src'")
      else if e.isSourceError then M.pure (.error e)
      else M.raise e) s = (.ok (.error e), s2) := by
    unfold M.tryCatch
    rw [M.bind_error hseq]
    simp only
    unfold pathHasSrc
    rw [M.bind_ok hsrc]
    simp [he]
    rfl
  rw [M.bind_ok h1]
  cases allow <;> rfl

variable {f : Field} {s : St P} {r : Nat} {q : P} {text : String} {b : ErrBuf}

/-- The path is not a sequence, and says so with an error of the source. -/
structure NoSequence (I : PathOps P) (q : P) : Prop where
  present : Present I q
  raises : ∃ e, (I.sequence (asked I q)).1 = .error e ∧ e.isSourceError = true
  hasSrc : I.hasSrc (I.sequence (asked I q)).2 = true

theorem seqTry_single {e : Exc} {env : Env} {τ : TSt P} (hp : τ.path = some (some (r, asked I q)))
    (h : (I.sequence (asked I q)).1 = .error e) (he : e.isSourceError = true)
    (hs : I.hasSrc (I.sequence (asked I q)).2 = true) :
    Lex.seqTry I env τ = (.ok (.error e), { τ with path := some (some (r, (I.sequence (asked I q)).2)) }) := by
  unfold Lex.seqTry T.tryCatch
  have h1 : T.onPath I.sequence env τ =
      (.error e, { τ with path := some (some (r, (I.sequence (asked I q)).2)) }) := by
    rw [T.onPath_run hp, h]
  rw [T.bind_error h1]
  simp only
  unfold Lex.pathHasSrc
  rw [T.bind_ok (a := true) (τ' := { τ with path := some (some (r, (I.sequence (asked I q)).2)) })
    (by rw [T.onPath_run (r := r) (p := (I.sequence (asked I q)).2) rfl, hs])]
  simp [he]
  rfl

/-- C55.  A `List` field with `allow_field` at a place that is not a sequence, whose item field gives the usable
value `v` at that place: if one item is within the bounds of the list, the result is the list `[v]` and the
errors are those the item field reported; otherwise it is `ERROR` with one further `Invalid` error. -/
theorem C55_single {n : Nat} {g : Field} {lo hi : Option Nat} {v : Val} {τ2 : TSt P} {b2 : ErrBuf}
    (sp : Spot I W f s r q text b) (hC : C.All HookFree) (hfa : f.All HookFree)
    (hk : f.kind = .list g lo hi true) (ha : f.core.attachParent = false) (ht : f.core.translations = [])
    (hi' : (Val.list [v]).inList f.core.ignores = false) (hns : NoSequence I q) (hv : v.isIgnore = false)
    (hitem : Lex.mapField I L C n g .NONE (f.innerEnv s.env)
      { s.view with path := some (some (r, (I.sequence (asked I q)).2)) } = (.ok v, τ2))
    (hb2 : τ2.errs = some b2) :
    (LenOK lo hi 1 → (mapField I L C (n + 1) f .NONE s).1 = .ok (.list [v]) ∧
      curErrs (mapField I L C (n + 1) f .NONE s).2 = some b2) ∧
    (¬ LenOK lo hi 1 → (mapField I L C (n + 1) f .NONE s).1 = .ok .ERROR ∧
      ∃ msg, curErrs (mapField I L C (n + 1) f .NONE s).2 = some { b2 with items := b2.items ++
        [{ kind := .invalid msg, path := text, field := f.name, pathRef := some r }] }) := by
  obtain ⟨e, he, hse⟩ := hns.raises
  refine C24_list_bounds (xs := [v]) sp hC hfa hk ha ht hi' hns.present (τ2 := τ2) ?_ hb2
  unfold Lex.listParse
  rw [T.bind_ok (seqTry_single (r := r) rfl he hse hns.hasSrc)]
  simp only [Bool.not_true, Bool.false_eq_true, if_false]
  rw [T.bind_ok hitem]
  simp only [hv, Bool.false_eq_true, if_false]
  rfl

/-- C55, without `allow_field`: the same place is an error of the list, `Invalid`, with the path of the list. -/
theorem C55_refused {n : Nat} {g : Field} {lo hi : Option Nat}
    (sp : Spot I W f s r q text b) (hC : C.All HookFree) (hfa : f.All HookFree)
    (hk : f.kind = .list g lo hi false) (ha : f.core.attachParent = false) (hns : NoSequence I q) :
    (mapField I L C (n + 1) f .NONE s).1 = .ok .ERROR ∧
      ∃ msg, curErrs (mapField I L C (n + 1) f .NONE s).2 = some { b with items := b.items ++
        [{ kind := .invalid msg, path := text, field := f.name, pathRef := some r }] } := by
  obtain ⟨e, he, hse⟩ := hns.raises
  have hw := (asked_same (I := I) (W := W) sp.wf).wf
  have href := Ref.mapField (I := I) (L := L) (hC.imp fun _ h => h.lexNode) (n + 1) f .NONE
    (hfa.imp fun _ h => h.lexNode)
  have hparse : ∀ τ : TSt P, τ.path = some (some (r, asked I q)) →
      Lex.kindParse I L C (Lex.mapField I L C n) f (f.innerEnv s.env) τ =
        (.error e, { τ with path := some (some (r, (I.sequence (asked I q)).2)) }) := by
    intro τ hp
    unfold Lex.kindParse
    rw [hk]
    simp only
    unfold Lex.listParse
    rw [T.bind_ok (seqTry_single hp he hse hns.hasSrc)]
    rfl
  obtain ⟨h1, h2, _⟩ := sp.run hfa.node.resolve ha href (starts_raise hfa.node sp.wf hns.present (by rw [hse]; rfl)
    (W.sequence_keys hw) sp.text sp.collect (innerEnv_field _ _) hparse)
  exact ⟨h1, _, h2⟩

/-! ## Examples -/

section
open Demo

/-- `Integer()` as the item of a list. -/
def intItem : Field := .mk {} (.integer {})

/-- `List(Integer(), min_length=lo, allow_field=allow)`. -/
def intsField (lo : Option Nat) (allow : Bool) : Field := field "a" (.list intItem lo none allow)

theorem ints_free (lo : Option Nat) (allow : Bool) : (intsField lo allow).All HookFree :=
  .mk (free _ _ (by intro _ _ _ _ _ h; cases h)) (.list (.mk (hookFree_plain (by intro _ _ _ _ _ h; cases h)) .integer))

/-- The document `{'a': 5}`. -/
def docFive : Val := .dict [(.str "a", .int 5)]

theorem five_noSequence : NoSequence (SPath.ops lib) (placeOf docFive "a") where
  present := (settled_dflt (by decide +kernel : _ = Except.ok (Val.int 5)) rfl).1.present rfl
  raises := by
    refine ⟨_, (by decide +kernel : _ = Except.error (Exc.sourceError "is not a sequence")), rfl⟩
  hasSrc := by decide +kernel

/-- C55: `5` is taken for `[5]`. -/
example : (mapField (SPath.ops lib) lib noClasses 2 (intsField (some 1) true) .NONE
    (here (SPath.ops lib) docFive)).1 = .ok (.list [.int 5]) :=
  ((C55_single (n := 1) (g := intItem) (here_spot lib _ _ rfl (by intro _ h; cases h)) (noClasses_all _)
    (ints_free _ _) rfl rfl rfl rfl five_noSequence rfl
    rfl (b2 := ⟨false, []⟩) rfl).1
    ⟨by rintro n ⟨⟩; decide, by intro n h; cases h⟩).1

/-- C55, C24: but not when two items are wanted. -/
example : (mapField (SPath.ops lib) lib noClasses 2 (intsField (some 2) true) .NONE
    (here (SPath.ops lib) docFive)).1 = .ok .ERROR :=
  ((C55_single (n := 1) (g := intItem) (here_spot lib _ _ rfl (by intro _ h; cases h)) (noClasses_all _)
    (ints_free _ _) rfl rfl rfl rfl five_noSequence rfl
    rfl (b2 := ⟨false, []⟩) rfl).2
    fun h => absurd (h.1 2 rfl) (by decide)).1

/-- C55: nor without `allow_field`. -/
example : (mapField (SPath.ops lib) lib noClasses 2 (intsField none false) .NONE
    (here (SPath.ops lib) docFive)).1 = .ok .ERROR :=
  (C55_refused (n := 1) (here_spot lib _ _ rfl (by intro _ h; cases h)) (noClasses_all _)
    (ints_free _ _) rfl rfl five_noSequence).1

end

end Pilo
