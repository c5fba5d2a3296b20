import Verif.Wired

/-!
# Mapping a field whose hooks read other fields
-/

namespace Pilo
variable {P : Type} {I : PathOps P} {L : Lib} {W : LawfulPath I} {Z : Pin I}

namespace Wired
variable {D : String → Option Field} {id cls N k : Nat} {s1 : St P} {p0 px : P} {g : Field → Except Exc Val}
  {ρ : String → Except Exc Val} {F : List Frame} {ι : Type} {C : ι → Classes} {n : ι → Nat} {φ : ι → Prog → Prog} {f : Field}

/-- The fields `k` steps away. -/
abbrev Near (D : String → Option Field) (id k : Nat) (name : String) : Prop := ∃ c, D name = some c ∧ Wired D id k c

/-- Mapping with different class tables and limits of recursion, and the hooks changed in ways that do not matter. -/
structure Crew (I : PathOps P) (L : Lib) (W : LawfulPath I) (D : String → Option Field) (ρ : String → Except Exc Val)
    (g : Field → Except Exc Val) (id cls : Nat) (s1 : St P) (p0 : P) (k : Nat) (C : ι → Classes) (n : ι → Nat)
    (φ : ι → Prog → Prog) : Prop where
  table : ∀ i, (C i cls).field? = D
  gives : ∀ i, Gives I L W D ρ g id cls s1 p0 k (C i) (n i)
  deep : ∀ i, k ≤ n i
  reads : ∀ i q, Peeks (Near D id k) id q → Peeks (Near D id k) id (φ i q)
  same : ∀ i q o, Peeks (Near D id k) id q → (φ i q).given L ρ o = q.given L ρ o

variable (hR : Rig Z W D id s1 p0 N g) (hk : k ≤ N) (hcr : Crew I L W D ρ g id cls s1 p0 k C n φ) (hF : Inside I W Z id p0 F px)
include hR hk hcr hF

theorem prog {q : Prog} (hq : Peeks (Near D id k) id q) :
    Sure (Seat Z W s1 id cls (Foretold D ρ g) F px) (Seat Z W s1 id cls (Foretold D ρ g) F px)
      fun i => evalProg I L (C i) (mapField I L (C i) (n i)) (φ i q) := by
  have hrep := fun e => Seat.report (ι := Unit) (Z := Z) (s1 := s1) (cls := cls) (Γ := Foretold D ρ g) hF.light hF.wf e
  refine ⟨q.given L ρ fun e => Classical.choose (hrep e), fun i s hs => ?_⟩
  rw [← hcr.same i q _ hq]
  exact eval hR (hcr.table i) hk (hcr.gives i) hF (fun e s hs => Classical.choose_spec (hrep e) () s hs) (hcr.reads i q hq) hs

omit hk hcr in
theorem form {α : Type} (h : Hook α) (ht : h.target = none) :
    ∀ s, Seat Z W s1 id cls (Foretold D ρ g) F px s → hookTarget h s = (.ok (.form id), s) := by
  intro s hs
  unfold hookTarget
  rw [ht]
  dsimp only
  have h2 : ctxGet Frame.form "form" s = (.ok id, s) := by
    refine ctxGet_ok ?_
    obtain ⟨rest, htop⟩ := hR.top
    rw [hs.stack, hF.light.form, htop]
    rfl
  rw [M.bind_ok h2]
  rfl

theorem hook {h : Hook Prog} (hh : h.Peeks (Near D id k) id) :
    Sure (Seat Z W s1 id cls (Foretold D ρ g) F px) (Seat Z W s1 id cls (Foretold D ρ g) F px)
      fun i => callHook I L (C i) (mapField I L (C i) (n i)) (h.on (φ i)) := by
  obtain ⟨r, hr⟩ := prog hR hk hcr hF hh.2
  refine ⟨r, fun i s hs => ?_⟩
  have : callHook I L (C i) (mapField I L (C i) (n i)) (h.on (φ i)) s =
      evalProg I L (C i) (mapField I L (C i) (n i)) (φ i (h.body (.form id))) s := by
    unfold callHook
    rw [M.bind_ok (form hR hF (h.on (φ i)) hh.1 s hs)]
    rfl
  dsimp only
  rw [this]
  exact hr i s hs

theorem hook1 {h : Hook (Val → Prog)} (hh : h.Peeks1 (Near D id k) id) (v : Val) :
    Sure (Seat Z W s1 id cls (Foretold D ρ g) F px) (Seat Z W s1 id cls (Foretold D ρ g) F px)
      fun i => callHook1 I L (C i) (mapField I L (C i) (n i)) (h.on1 (φ i)) v := by
  obtain ⟨r, hr⟩ := prog hR hk hcr hF (hh.2 v)
  refine ⟨r, fun i s hs => ?_⟩
  have : callHook1 I L (C i) (mapField I L (C i) (n i)) (h.on1 (φ i)) v s =
      evalProg I L (C i) (mapField I L (C i) (n i)) (φ i (h.body (.form id) v)) s := by
    unfold callHook1
    rw [M.bind_ok (form hR hF (h.on1 (φ i)) hh.1 s hs)]
    rfl
  dsimp only
  rw [this]
  exact hr i s hs

theorem default (hf : f.core.default.Peeks (Near D id k) id) :
    Sure (Seat Z W s1 id cls (Foretold D ρ g) F px) (Seat Z W s1 id cls (Foretold D ρ g) F px)
      fun i => fieldDefault I L (C i) (mapField I L (C i) (n i)) (f.on (φ i)) := by
  obtain ⟨c, kd⟩ := f
  have hf : c.default.Peeks (Near D id k) id := hf
  refine .bind (.ctxGet fun _ h => h.stack) fun ig => .ite (fun _ => Seat.missingNotSet hF.light hF.wf) fun _ => ?_
  show Sure _ _ fun i => (match c.default.on (φ i) with
    | .unset => missingNotSet I
    | .hook h => callHook I L (C i) (mapField I L (C i) (n i)) h
    | .callable p => evalProg I L (C i) (mapField I L (C i) (n i)) p
    | .value (.const .NOT_SET) => missingNotSet I
    | .value (.func id) => M.ofExcept (L.call id)
    | .value v => M.pure v)
  cases hd : c.default with
  | unset => exact Seat.missingNotSet hF.light hF.wf
  | hook h => rw [hd] at hf; exact hook hR hk hcr hF hf
  | callable p => rw [hd] at hf; exact prog hR hk hcr hF hf
  | value v =>
    cases v with
    | func x => exact .ofExcept _
    | const x =>
      cases x with
      | NOT_SET => exact Seat.missingNotSet hF.light hF.wf
      | _ => exact .pure _
    | _ => exact .pure _

theorem check (hf : f.HooksRead (Near D id k) id) (v : Val) :
    Sure (Seat Z W s1 id cls (Foretold D ρ g) F px) (Seat Z W s1 id cls (Foretold D ρ g) F px)
      fun i => fieldCheck I L (C i) (mapField I L (C i) (n i)) (f.on (φ i)) v := by
  have hdef := default (f := f) hR hk hcr hF hf.default
  refine .bind ?_ fun v => .ite (fun _ => hdef) fun _ => .ite (fun _ => .pure _) fun _ => .bind ?_ fun keep =>
    .ite (fun _ => hdef) fun _ => .bind ?_ fun ok => .pure _
  · obtain ⟨c, kd⟩ := f
    refine .bind (.ofExcept (fieldMunge (.mk c kd) _)) fun v => .ite (fun _ => .pure _) fun _ => ?_
    show Sure _ _ fun i => (match c.munge.map (Hook.on1 (φ i)) with
      | some h => callHook1 I L (C i) (mapField I L (C i) (n i)) h v
      | none => M.pure v)
    cases hm : c.munge with
    | none => exact .pure _
    | some h => exact hook1 hR hk hcr hF (hf.munge h hm) v
  · obtain ⟨c, kd⟩ := f
    refine .ite (c := fieldFilter (.mk c kd) v = true) (fun _ => ?_) fun _ => .pure _
    show Sure _ _ fun i => (match c.filter.map (Hook.on1 (φ i)) with
      | some h => do
        let r ← callHook1 I L (C i) (mapField I L (C i) (n i)) h v
        M.pure r.truthy
      | none => M.pure true)
    cases hm : c.filter with
    | none => exact .pure _
    | some h => exact .bind (hook1 hR hk hcr hF (hf.filter h hm) v) fun _ => .pure _
  · obtain ⟨c, kd⟩ := f
    refine .bind (.congr (m' := fun _ => kindValidate I L (.mk c kd) v) (fun i => ?_) (Seat.validate hF.light hF.wf v)) fun ok =>
      .ite (fun _ => ?_) fun _ => .pure _
    · rfl
    show Sure _ _ fun i => (match c.validate.map (Hook.on1 (φ i)) with
      | some h => do
        let r ← callHook1 I L (C i) (mapField I L (C i) (n i)) h v
        M.pure r.truthy
      | none => M.pure true)
    cases hm : c.validate with
    | none => exact .pure _
    | some h => exact .bind (hook1 hR hk hcr hF (hf.validate h hm) v) fun _ => .pure _

omit hR hk hF in
/-- Without a `compute` hook, the classes and hooks do not matter. -/
theorem compute_congr (hl : Level (k + 1) f.unwired) (hd : f.kind.usesDefault = true → f.core.default.plain = f.core.default) (i : ι) :
    fieldCompute I L (C i) (mapField I L (C i) (n i)) (f.on (φ i)) = fieldCompute I L noClasses (mapField I L noClasses k) f.unwired := by
  have hp := Level.parse_congr (I := I) (L := L) (C := C i) (C' := noClasses) (rec := mapField I L (C i) (n i))
    (rec' := mapField I L noClasses k) hl fun g hg => Level.mapField hg (hcr.deep i) (Nat.le_refl k)
  have hparse := hl.1.parse
  obtain ⟨c, kd⟩ := f
  have h1 : kindParse I L (C i) (mapField I L (C i) (n i)) ((Field.mk c kd).on (φ i)) =
      kindParse I L (C i) (mapField I L (C i) (n i)) (Field.mk c kd).unwired := by
    have hdef : kd.usesDefault = true → fieldDefault I L (C i) (mapField I L (C i) (n i)) ((Field.mk c kd).on (φ i)) =
        fieldDefault I L (C i) (mapField I L (C i) (n i)) (Field.mk c kd).unwired := by
      intro hu
      have hd : c.default.plain = c.default := hd hu
      have : c.default.on (φ i) = c.default.plain := by
        rw [hd]
        cases hc : c.default with
        | hook h => rw [hc] at hd; cases hd
        | callable p => rw [hc] at hd; cases hd
        | _ => rfl
      show (do
        let ig ← ctxGet Frame.ignoreDefault "ignore_default"
        if ig then missingNotSet I
        else match c.default.on (φ i) with
          | .unset => missingNotSet I
          | .hook h => callHook I L (C i) (mapField I L (C i) (n i)) h
          | .callable p => evalProg I L (C i) (mapField I L (C i) (n i)) p
          | .value (.const .NOT_SET) => missingNotSet I
          | .value (.func id) => M.ofExcept (L.call id)
          | .value v => M.pure v : M P Val) = _
      rw [this]
      rfl
    cases kd with
    | dict kf vf kfl r m =>
      show dictParse I L (C i) _ _ kf vf kfl = dictParse I L (C i) _ _ kf vf kfl
      unfold dictParse
      rw [hdef rfl]
    | group fs =>
      show groupParse I L (C i) _ _ fs = groupParse I L (C i) _ _ fs
      unfold groupParse
      rw [hdef rfl]
    | _ => rfl
  have h2 : fieldParse I L (C i) (mapField I L (C i) (n i)) ((Field.mk c kd).on (φ i)) =
      fieldParse I L noClasses (mapField I L noClasses k) (Field.mk c kd).unwired := by
    have hparse : c.parse = none := hparse
    show (match c.parse with
      | some h => callHook I L (C i) (mapField I L (C i) (n i)) h
      | none => kindParse I L (C i) (mapField I L (C i) (n i)) ((Field.mk c kd).on (φ i))) = (match c.parse with
      | some h => callHook I L noClasses (mapField I L noClasses k) h
      | none => kindParse I L noClasses (mapField I L noClasses k) (Field.mk c kd).unwired)
    rw [hparse]
    exact h1.trans hp
  unfold fieldCompute
  rw [h2]

omit hR hk hcr hF in
theorem compute_lifts (hl : Level (k + 1) f.unwired) : Lifts Z W (fieldCompute I L noClasses (mapField I L noClasses k) f.unwired) := by
  have hall := hl.all
  refine ⟨Keeps.fieldCompute (Keeps.mapField k) _, Lex.fieldCompute I L noClasses (Lex.mapField I L noClasses k) f.unwired, ?_, ?_, ?_⟩
  · exact Ref.fieldCompute (noClasses_all _) (Ref.mapField (noClasses_all _) k) (hall.imp fun _ h => h.1.lexNode)
  · exact Closed.fieldCompute (K := Lone.closed Z L noClasses) (noClasses_all _) (Closed.mapField (noClasses_all _) k)
      (hall.imp fun _ h => ⟨h.1.calm, h.2⟩)
  · exact TKeeps.fieldCompute (noClasses_all _) (TKeeps.mapField (noClasses_all _) k) (hall.imp fun _ h => h.1.calm)

theorem start (hw : Wired D id (k + 1) f) :
    Sure (Perch W s1 id cls (Foretold D ρ g) F px) (Seat Z W s1 id cls (Foretold D ρ g) F px)
      fun i => fieldStart I L (C i) (mapField I L (C i) (n i)) (f.on (φ i)) := by
  obtain ⟨hr, hc⟩ := hw
  refine .bind (K' := Seat Z W s1 id cls (Foretold D ρ g) F px) ?_ fun v => .ite (fun _ => ?_) fun _ => .ite (fun _ => .pure _) fun _ => check hR hk hcr hF hr v
  · cases h : f.core.compute with
    | some q =>
      rw [h] at hc
      refine .congr (m' := fun i => callHook I L (C i) (mapField I L (C i) (n i)) (q.on (φ i))) (fun i => ?_)
        ((hook hR hk hcr hF hc).weaken (fun s hs => .exact_ hF.over hs) fun _ h => h)
      obtain ⟨c, kd⟩ := f
      have h : c.compute = some q := h
      show (match c.compute.map (Hook.on (φ i)) with
        | some h => callHook I L (C i) (mapField I L (C i) (n i)) h
        | none => _) = _
      rw [h]
      rfl
    | none =>
      rw [h] at hc
      refine Seat.lift (m := fieldCompute I L noClasses (mapField I L noClasses k) f.unwired) (fun i => ?_) (compute_lifts hc.1) hF.light hF.over
      rw [← compute_congr hcr hc.1 hc.2 i]
      obtain ⟨c, kd⟩ := f
      have h : c.compute = none := h
      show (match c.compute.map (Hook.on (φ i)) with
        | some h => callHook I L (C i) (mapField I L (C i) (n i)) h
        | none => fieldCompute I L (C i) (mapField I L (C i) (n i)) ((Field.mk c kd).on (φ i))) = _
      rw [h]
      rfl
  · have hdef := default (f := f) hR hk hcr hF hr.default
    obtain ⟨c, kd⟩ := f
    show Sure _ _ fun i => (match c.default.on (φ i) with
      | .hook h => callHook I L (C i) (mapField I L (C i) (n i)) h
      | _ => fieldDefault I L (C i) (mapField I L (C i) (n i)) ((Field.mk c kd).on (φ i)))
    have hr := hr.default
    have hr : c.default.Peeks (Near D id k) id := hr
    cases hd : c.default with
    | hook h => rw [hd] at hr; exact hook hR hk hcr hF hr
    | _ => exact hdef

omit hR hk hcr hF in
/-- A block. -/
theorem within {fr : Frame} {p p' : P} {Γ : String → Option Val → Prop} {d : Nat} (hl : Light id (fr :: F)) {push : M P Unit} (hpush : PushOK W push)
    (henter : ∀ s, Perch W s1 id cls Γ F p s → ∃ sp, push s = (.ok (), sp) ∧ Perch W s1 id cls Γ (fr :: F) p' sp)
    {α : Type} {body : ι → M P α} (hkeep : ∀ i, Keeps W (body i))
    (hb : Sure (Perch W s1 id cls Γ (fr :: F) p') (Seat Z W s1 id cls Γ (fr :: F) px) body)
    (hd : (fr.src = .absent ∧ (segKeys (fr :: F).reverse).length = d) ∨ ((∃ k, fr.src = .key k) ∧ (segKeys (fr :: F).reverse).length = d + 1)) :
    Sure (Perch W s1 id cls Γ F p) (fun s => ∃ q, Z.O d q ∧ Perch W s1 id cls Γ F q s) fun i => withPush I push (body i) := by
  obtain ⟨r, hr⟩ := hb
  refine ⟨r, fun i s hs => ?_⟩
  obtain ⟨sp, h1, h2⟩ := henter s hs
  obtain ⟨s3, h3, h4, h5⟩ := Perch.block hs.inv hpush h1 (hkeep i)
  dsimp only
  rw [h5]
  refine ⟨(hr i sp h2).1, fun x hx => ?_⟩
  obtain ⟨q, hq, -, hq'⟩ := (hr i sp h2).2 x hx
  rcases hd with ⟨ha, hd⟩ | ⟨ha, hd⟩
  · rw [hd] at hq
    exact ⟨q, hq, hs.leave hl hq' h3 h4 (.inl ⟨ha, rfl⟩)⟩
  · rw [hd] at hq
    obtain ⟨q', h6, h7⟩ := Z.pop hq
    exact ⟨q', h7, hs.leave hl hq' h3 h4 (.inr ⟨ha, h6⟩)⟩

omit hR hk hcr hF in
theorem setParent_lifts (L : Lib) (v : Val) : Lifts Z W (setParent v) :=
  ⟨Keeps.setParent v, _, Ref.setParent v, Closed.setParent (K := Lone.closed Z L noClasses) v, TKeeps.setParent v⟩

/-- A `Group` reads where the form does (`pilo/fields.py:1445-1446`). -/
def _root_.Pilo.Kind.isGroup : Kind → Bool
  | .group _ => true
  | _ => false

/-- The frame `Field.map` pushes. -/
def fieldFrame (f : Field) : Frame := { field := some f.name, parent := some .field }

omit hk hcr hF in
theorem resolved {body : ι → M P Val} {fr : Frame} (hfr : Light id [fr]) (hsrc : fr.src = .absent) (hpar : fr.parent = some .field)
    (hres : f.core.resolve = none) (hkeep : ∀ i, Keeps W (body i))
    (hb : ∀ F px, Inside I W Z id p0 F px →
      Sure (Perch W s1 id cls (Foretold D ρ g) F px) (Seat Z W s1 id cls (Foretold D ρ g) F px) body) :
    Sure (Perch W s1 id cls (Foretold D ρ g) [fr] p0) (Perch W s1 id cls (Foretold D ρ g) [fr] p0)
      fun i => withResolve I L (C i) (mapField I L (C i) (n i)) (f.on (φ i)) (body i) := by
  obtain ⟨c, kd⟩ := f
  have hres : c.resolve = none := hres
  have hseg : segKeys [fr] = [] := by unfold segKeys; rw [hsrc]; rfl
  have hplain : Sure (Perch W s1 id cls (Foretold D ρ g) [fr] p0) (Perch W s1 id cls (Foretold D ρ g) [fr] p0) body := by
    refine (hb [fr] p0 ⟨hfr, ?_, ?_, ?_, hR.wf⟩).weaken (fun _ h => h) ?_
    · simp [lookup, hpar]
    · show AppendsTo I p0 (segKeys [fr]) p0
      rw [hseg]; rfl
    · show Z.O (segKeys [fr]).length p0
      rw [hseg]; exact hR.here
    · rintro s ⟨q, h1, -, h2⟩
      have h1 : Z.O (segKeys [fr]).length q := h1
      rw [hseg] at h1
      rw [hR.zero q h1] at h2
      exact h2
  have hkey : noSrc c.src = false → Sure (Perch W s1 id cls (Foretold D ρ g) [fr] p0) (Perch W s1 id cls (Foretold D ρ g) [fr] p0)
      fun i => withPush I (pushKey I c.src) (body i) := by
    intro _
    cases ha : I.append p0 c.src with
    | error e =>
      refine ⟨.error e, fun i s hs => ⟨?_, fun _ h => nomatch h⟩⟩
      obtain ⟨r, hr, hp⟩ := hs.curPathObj hfr
      have h1 : pushKey I c.src {} s = (.error e, (onPath (pathAppend I c.src) s).2) := by
        obtain ⟨r', hr', hp'⟩ := hs.path
        rw [hr] at hr'; cases hr'
        have hcur : curPath s.stack = some (some r) := by rw [hs.stack, hfr.curPath, hr]
        have h2 : onPath (pathAppend I c.src) s = (.error e, (onPath (pathAppend I c.src) s).2) := by
          unfold onPath
          rw [hcur]
          simp only [hp', pathAppend, ha]
        unfold pushKey
        rw [M.bind_error h2]
      dsimp only
      unfold withPush
      rw [M.bind_error h1]
    | ok q =>
      have hl : Light id ({ src := .key c.src } :: [fr]) := by
        intro x hx
        rcases List.mem_cons.1 hx with rfl | hx
        · exact ⟨rfl, rfl, (by intro h; cases h), .inr ⟨_, rfl⟩⟩
        · exact hfr x hx
      have hseg2 : segKeys ({ src := .key c.src } :: [fr] : List Frame).reverse = [c.src] := by
        show segKeys [fr, { src := .key c.src }] = _
        unfold segKeys; rw [hsrc]; rfl
      have hin : Inside I W Z id p0 ({ src := .key c.src } :: [fr]) q := by
        refine ⟨hl, ?_, ?_, ?_, (W.append_keys hR.wf ha).2⟩
        · simp [lookup, hpar]
        · rw [hseg2]; exact ⟨q, ha, rfl⟩
        · rw [hseg2]; exact Z.append hR.here ha
      refine (within (d := 0) (p' := q) hl (PushOK.key c.src {}) (fun s hs => hs.key hfr ha) hkeep (hb _ q hin) (.inr ⟨⟨_, rfl⟩, by rw [hseg2]; rfl⟩)).weaken
        (fun _ h => h) ?_
      rintro s ⟨q', h1, h2⟩
      rw [hR.zero q' h1] at h2
      exact h2
  have hrun : ∀ i, withResolve I L (C i) (mapField I L (C i) (n i)) ((Field.mk c kd).on (φ i)) (body i) =
      if kd.isGroup || noSrc c.src then body i else withPush I (pushKey I c.src) (body i) := by
    intro i
    unfold withResolve
    have h1 : ((Field.mk c kd).on (φ i)).core.resolve = none := hres
    rw [h1]
    cases kd <;> rfl
  refine .congr hrun (.ite (fun _ => hplain) fun h => hkey ?_)
  simp only [Bool.or_eq_true, not_or, Bool.not_eq_true] at h
  exact h.2

omit hF in
/-- Mapping the field gives the same, whatever the rest of the classes, the limit of recursion, and the hooks as long
as they do the same with what the fields are said to be. -/
theorem field (hw : Wired D id (k + 1) f) :
    Sure (Perch W s1 id cls (Foretold D ρ g) [] p0) (Perch W s1 id cls (Foretold D ρ g) [] p0)
      fun i => mapField I L (C i) (n i + 1) (f.on (φ i)) .NONE := by
  have hl : Light id [fieldFrame f] := by
    intro x hx
    rw [List.mem_singleton.1 hx]
    exact ⟨rfl, rfl, (by intro h; cases h), .inl rfl⟩
  have hname : ∀ i, (f.on (φ i)).name = f.name := by intro i; cases f; rfl
  have hattach : ∀ i, (f.on (φ i)).core.attachParent = f.core.attachParent := by intro i; cases f; rfl
  have hinner := resolved (cls := cls) (ρ := ρ) (C := C) (n := n) (φ := φ) (f := f) (L := L) hR (fr := fieldFrame f) hl rfl rfl hw.1.resolve
    (body := fun i => fieldStart I L (C i) (mapField I L (C i) (n i)) (f.on (φ i)))
    (fun i => Keeps.fieldStart (Keeps.mapField _) _) fun F px hF => start hR hk hcr hF hw
  have hblock : Sure (Perch W s1 id cls (Foretold D ρ g) [] p0) (Perch W s1 id cls (Foretold D ρ g) [] p0)
      fun i => withPush I (pushVars { field := some (f.on (φ i)).name, parent := some .field })
        (fieldMapInner I L (C i) (mapField I L (C i) (n i)) (f.on (φ i)) .NONE) := by
    refine .congr (m' := fun i => withPush I (pushVars { field := some f.name, parent := some .field })
      (withResolve I L (C i) (mapField I L (C i) (n i)) (f.on (φ i)) (fieldStart I L (C i) (mapField I L (C i) (n i)) (f.on (φ i))))) (fun i => ?_) ?_
    · rw [hname]; rfl
    · refine (within (Z := Z) (d := 0) (px := p0) hl (PushOK.vars _) (fun s hs => ⟨_, rfl, hs.vars (fr := fieldFrame f) hl (by intro i h; cases h)⟩)
        (fun i => Keeps.withResolve (Keeps.mapField _) _ (Keeps.fieldStart (Keeps.mapField _) _))
        (hinner.weaken (fun _ h => h) fun s hs => .exact_ hR.here hs) (.inl ⟨rfl, rfl⟩)).weaken (fun _ h => h) ?_
      rintro s ⟨q, h1, h2⟩
      rw [hR.zero q h1] at h2
      exact h2
  refine .bind hblock fun v => ?_
  have hset : Sure (Perch W s1 id cls (Foretold D ρ g) [] p0) (Perch W s1 id cls (Foretold D ρ g) [] p0)
      fun _ : ι => (setParent v : M P Unit) := by
    refine (Seat.lift (F := []) (px := p0) (fun _ => rfl) (setParent_lifts L v) (by intro x h; cases h) hR.here).weaken (fun _ h => h) ?_
    rintro s ⟨q, h1, -, h2⟩
    rw [hR.zero q h1] at h2
    exact h2
  refine .congr (m' := fun _ => if f.core.attachParent && !v.isIgnore then (setParent v >>= fun _ => M.pure v) else M.pure v)
    (fun i => ?_) (.ite (fun _ => .bind hset fun _ => .pure _) fun _ => .pure _)
  rw [hattach]

end Wired
end Pilo
