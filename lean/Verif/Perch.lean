import Verif.Level
import Verif.Props.Read

/-!
# Mapping the fields of one form when hooks read other fields

The states that occur at the fields of a form, and inside hooks, all look the same to fields without sub forms.
-/

namespace Pilo
variable {P : Type} {I : PathOps P} {L : Lib} {C : Classes} {W : LawfulPath I} {Z : Pin I} {α β : Type}

/-- A hook-free computation that does not depend on forms nor on errors. -/
structure Lifts (Z : Pin I) (W : LawfulPath I) (m : M P α) : Prop where
  keeps : Keeps W m
  lex : ∃ t, Ref m t ∧ Lone.Run Z t ∧ TKeeps W (fun _ => False) t

/-- `p` with the keys `ks` appended is `q`. -/
def AppendsTo (I : PathOps P) : P → List Val → P → Prop
  | p, [], q => p = q
  | p, k :: ks, q => ∃ p', I.append p k = .ok p' ∧ AppendsTo I p' ks q

/-- Frames that neither have a source, nor errors, nor a form. -/
def Light (id : Nat) (F : List Frame) : Prop :=
  ∀ fr ∈ F, fr.errors = none ∧ fr.form = none ∧ fr.parent ≠ some (.form id) ∧ (fr.src = .absent ∨ ∃ k, fr.src = .key k)

theorem lookup_light {γ : Type} (g : Frame → Option γ) {F : List Frame} (h : ∀ fr ∈ F, g fr = none) (S : List Frame) :
    lookup g (F ++ S) = lookup g S := by
  unfold lookup
  rw [List.findSome?_append, List.findSome?_eq_none_iff.2 h]
  rfl

namespace Light
variable {id : Nat} {F : List Frame} (h : Light id F) (S : List Frame)
include h

theorem errors : lookup Frame.errors (F ++ S) = lookup Frame.errors S := lookup_light _ (fun fr hf => (h fr hf).1) S
theorem form : lookup Frame.form (F ++ S) = lookup Frame.form S := lookup_light _ (fun fr hf => (h fr hf).2.1) S
theorem curPath : Pilo.curPath (F ++ S) = Pilo.curPath S := by
  refine lookup_light _ (fun fr hf => ?_) S
  rcases (h fr hf).2.2.2 with e | ⟨k, e⟩ <;> rw [e] <;> rfl

end Light

/-- The states at the fields of form `id` of class `cls`, and, with frames `F` above, inside the fields: the path is `p`,
the errors are collected as in `s1`, and the entries of the form satisfy `Γ`. -/
structure Perch (W : LawfulPath I) (s1 : St P) (id cls : Nat) (Γ : String → Option Val → Prop) (F : List Frame) (p : P) (s : St P) : Prop where
  inv : Inv W s
  live : Live s
  stack : s.stack = F ++ s1.stack
  path : ∃ r, curPath s1.stack = some (some r) ∧ s.paths[r]? = some p
  errs : ∃ b b1, curErrs s = some b ∧ curErrs s1 = some b1 ∧ b.raising = b1.raising ∧ (b1.raising = true → b.items = b1.items)
  same : ∀ name, Γ name (s.entry id name)
  ofClass : (s.forms[id]?).map FormObj.cls = some cls

namespace Perch
variable {s1 s s' : St P} {id cls d : Nat} {Γ : String → Option Val → Prop} {F : List Frame} {p : P}

theorem curPathObj (h : Perch W s1 id cls Γ F p s) (hF : Light id F) : ∃ r, curPath s1.stack = some (some r) ∧
    Pilo.curPathObj s = some (some (r, p)) := by
  obtain ⟨r, hr, hp⟩ := h.path
  refine ⟨r, hr, ?_⟩
  unfold Pilo.curPathObj
  rw [h.stack, hF.curPath, hr]
  simp [hp]

theorem after (hF : Light id F) (h : Perch W s1 id cls Γ F p s) {m : M P α} {t : T P α} (hm : Keeps W m) (hr : Ref m t)
    (ht : TKeeps W (fun _ => False) t) {d : Nat} {σ : TSt P} {b : Except Exc α × TSt P}
    (hp : Lone.Post Z d s.view σ (t s.env s.view) b) {x : α} (hx : (m s).1 = .ok x) :
    ∃ q, Z.O d q ∧ (∃ r, (t s.env s.view).2.path = some (some (r, q))) ∧ Perch W s1 id cls Γ F q (m s).2 := by
  obtain ⟨r, hr0, hpath⟩ := h.curPathObj hF
  have hx' := hm.run s h.inv
  obtain ⟨e1, e2, e3, e4, e5⟩ := hr.run h.live
  have htk := ht s.env s.view fun r p hp => curPathObj_wf h.inv hp
  have hst : (m s).2.stack = F ++ s1.stack := by rw [e5, h.stack]
  obtain ⟨p1, hp1, -⟩ := hx'.paths r p (by
    obtain ⟨r', hr', h'⟩ := h.path
    rw [hr0] at hr'; cases hr'; exact h')
  have hcp : Pilo.curPathObj (m s).2 = some (some (r, p1)) := by
    unfold Pilo.curPathObj
    rw [hst, hF.curPath, hr0]
    simp [hp1]
  have hO : Z.O d p1 := hp.rel.over r p1 (by rw [← e4]; exact hcp)
  refine ⟨p1, hO, ⟨r, by rw [← e4]; exact hcp⟩, hx'.inv h.inv, h.live.ext hx', hst, ⟨r, hr0, hp1⟩, ?_, ?_, ?_⟩
  · obtain ⟨b, b1, g1, g2, g3, g4⟩ := h.errs
    have hflag := hp.flag
    rw [← e2] at hflag
    have hv : s.view.errs = some b := g1
    rw [hv] at hflag
    cases hb : curErrs (m s).2 with
    | none => rw [hb] at hflag; cases hflag
    | some b' =>
      rw [hb] at hflag
      have hflag : b'.raising = b.raising := by simpa using hflag
      refine ⟨b', b1, rfl, g2, hflag.trans g3, fun hr1 => ?_⟩
      have hcalm := hp.calm (by rw [hv]; simp [g3, hr1]) x (by rw [← e1]; exact hx)
      rw [← e2, hb, hv] at hcalm
      cases hcalm
      exact g4 hr1
  · intro name
    have hlt : id < s.forms.length := by
      have := h.ofClass
      cases ho : s.forms[id]? with
      | none => rw [ho] at this; cases this
      | some o => exact (List.getElem?_eq_some_iff.1 ho).1
    have := htk.forms id hlt (by intro h; exact h)
    rw [← e3] at this
    rw [entry_of_core this]
    exact h.same name
  · have := h.ofClass
    cases ho : s.forms[id]? with
    | none => rw [ho] at this; cases this
    | some o =>
      obtain ⟨o', h1, h2⟩ := hx'.forms id o ho
      rw [h1]
      rw [ho] at this
      simpa [h2] using this

/-- Two runs. -/
theorem lift {m : M P α} (hm : Lifts Z W m) (hF : Light id F) (h : Perch W s1 id cls Γ F p s) (h' : Perch W s1 id cls Γ F p s')
    (hO : Z.O d p) : (m s).1 = (m s').1 ∧ ∀ x, (m s).1 = .ok x →
      ∃ q, Z.O d q ∧ Perch W s1 id cls Γ F q (m s).2 ∧ Perch W s1 id cls Γ F q (m s').2 := by
  obtain ⟨t, hr, hz, ht⟩ := hm.lex
  have henv : s.env = s'.env := by
    unfold St.env
    rw [h.stack, h'.stack]
  obtain ⟨r, hr0, hp⟩ := h.curPathObj hF
  obtain ⟨r', hr0', hp'⟩ := h'.curPathObj hF
  rw [hr0] at hr0'; cases hr0'
  obtain ⟨b, b1, g1, g2, g3, g4⟩ := h.errs
  obtain ⟨c, b1', k1, k2, k3, k4⟩ := h'.errs
  rw [g2] at k2; cases k2
  have hrel : Lone.Rel Z d s.view s'.view := by
    refine ⟨by show Pilo.curPathObj s = Pilo.curPathObj s'; rw [hp, hp'], ?_, ?_⟩
    · intro r2 p2 e
      have e : Pilo.curPathObj s = some (some (r2, p2)) := e
      rw [hp] at e; cases e; exact hO
    · have e1 : s.view.errs = some b := g1
      have e2 : s'.view.errs = some c := k1
      rw [e1, e2]
      exact ⟨g3.trans k3.symm, fun hb => by rw [g4 (g3 ▸ hb), k4 (g3 ▸ hb)]⟩
  have hrel' : Lone.Rel Z d s'.view s.view := by
    refine ⟨hrel.path.symm, ?_, ?_⟩
    · rw [← hrel.path]; exact hrel.over
    · have e1 : s.view.errs = some b := g1
      have e2 : s'.view.errs = some c := k1
      rw [e1, e2]
      exact ⟨k3.trans g3.symm, fun hb => by rw [g4 (k3 ▸ hb), k4 (k3 ▸ hb)]⟩
  have hpost := hz d s.env s.view s'.view hrel
  have hpost' := hz d s'.env s'.view s.view hrel'
  have hres : (m s).1 = (m s').1 := by
    rw [(hr.run h.live).1, (hr.run h'.live).1, hpost.res, henv]
  refine ⟨hres, fun x hx => ?_⟩
  obtain ⟨q, hq, ⟨r1, hp1⟩, hsp⟩ := h.after hF hm.keeps hr ht hpost hx
  obtain ⟨q', hq', ⟨r1', hp1'⟩, hsp'⟩ := h'.after hF hm.keeps hr ht hpost' (hres ▸ hx)
  have := hpost.rel.path
  rw [hp1, henv, hp1'] at this
  cases this
  exact ⟨q, hq, hsp, hsp'⟩

/-- The frame of a field. -/
theorem vars (h : Perch W s1 id cls Γ F p s) {fr : Frame} (hfr : Light id [{ fr with src := .absent }])
    (hpar : ∀ i, fr.parent ≠ some (.form i)) : Perch W s1 id cls Γ ({ fr with src := .absent } :: F) p (pushVars fr s).2 := by
  have hs : (pushVars fr s).2 = { s with stack := { fr with src := .absent } :: s.stack } := rfl
  have he : fr.errors = none := (hfr { fr with src := .absent } (by simp)).1
  refine ⟨(PushOK.vars fr).inv h.inv, h.live.push (by rw [he]; intro e h; cases h) (fun i hi => absurd hi (hpar i)), ?_, ?_, ?_, ?_, ?_⟩
  · rw [hs, h.stack]; rfl
  · exact h.path
  · obtain ⟨b, b1, g1, g⟩ := h.errs
    refine ⟨b, b1, ?_, g⟩
    rw [← g1]
    unfold curErrs
    rw [hs]
    have : lookup Frame.errors ({ fr with src := .absent } :: s.stack) = lookup Frame.errors s.stack := by
      show lookup Frame.errors ([{ fr with src := .absent }] ++ s.stack) = _
      exact hfr.errors _
    simp only [this]
  · exact h.same
  · exact h.ofClass

/-- The frame of a key. -/
theorem key (hF : Light id F) (h : Perch W s1 id cls Γ F p s) {k : Val} {q : P} (hq : I.append p k = .ok q) :
    ∃ sp, pushKey I k {} s = (.ok (), sp) ∧ Perch W s1 id cls Γ ({ src := .key k } :: F) q sp := by
  obtain ⟨r, hr, hp⟩ := h.path
  have hcur : curPath s.stack = some (some r) := by rw [h.stack, hF.curPath, hr]
  have hlt : r < s.paths.length := (List.getElem?_eq_some_iff.1 hp).1
  let sp : St P := { s with paths := s.paths.set r q, stack := { src := .key k } :: s.stack }
  have hrun : pushKey I k {} s = (.ok (), sp) := by
    unfold pushKey
    have h1 : onPath (pathAppend I k) s = (.ok (), { s with paths := s.paths.set r q }) := by
      unfold onPath
      rw [hcur]
      simp only [hp, pathAppend, hq]
    rw [M.bind_ok h1]
    rfl
  have hlk : ∀ {γ : Type} (g : Frame → Option γ), g { src := .key k } = none → lookup g sp.stack = lookup g s.stack := by
    intro γ g hg
    exact lookup_light g (F := [{ src := .key k }]) (by intro fr hf; simp at hf; subst hf; exact hg) s.stack
  refine ⟨sp, hrun, ?_, ⟨List.mem_cons_of_mem _ h.live.root, ?_, ?_, ?_⟩, ?_, ⟨r, hr, ?_⟩, ?_, h.same, h.ofClass⟩
  · have := (PushOK.key (W := W) (I := I) k {}).inv h.inv
    rw [hrun] at this
    exact this
  · intro r' hr'
    have : curPath sp.stack = curPath s.stack := hlk _ rfl
    rw [this] at hr'
    show r' < (s.paths.set r q).length
    rw [List.length_set]
    exact h.live.path r' hr'
  · intro e he
    have : lookup Frame.errors sp.stack = _ := hlk _ rfl
    rw [this] at he
    exact h.live.errs e he
  · intro fr hfr i hi
    rcases List.mem_cons.1 hfr with rfl | hfr
    · cases hi
    · exact h.live.ids fr hfr i hi
  · show _ :: s.stack = _
    rw [h.stack]; rfl
  · show (s.paths.set r q)[r]? = some q
    simp [hlt]
  · obtain ⟨b, b1, g1, g⟩ := h.errs
    refine ⟨b, b1, ?_, g⟩
    rw [← g1]
    unfold curErrs
    have : lookup Frame.errors sp.stack = _ := hlk _ rfl
    rw [this]

/-- Leaving a frame. -/
theorem leave {fr : Frame} (hF : Light id (fr :: F)) {s2 s3 : St P} {q : P} (h : Perch W s1 id cls Γ F p s)
    (h2 : Perch W s1 id cls Γ (fr :: F) q s2) (hr : restore I s2 = (.ok (), s3)) (hx : Ext W s s3) {q' : P}
    (hq : (fr.src = .absent ∧ q' = q) ∨ ((∃ k, fr.src = .key k) ∧ I.pop q = .ok q')) : Perch W s1 id cls Γ F q' s3 := by
  have hF' : Light id F := fun x hx => hF x (List.mem_cons_of_mem _ hx)
  obtain ⟨r, hr0, hp⟩ := h2.path
  have hlt : r < s2.paths.length := (List.getElem?_eq_some_iff.1 hp).1
  have hs3 : s3.errs = s2.errs ∧ s3.forms = s2.forms ∧ s3.paths[r]? = some q' := by
    unfold restore at hr
    have hst := h2.stack
    rw [List.cons_append] at hst
    rw [hst] at hr
    dsimp only at hr
    rcases hq with ⟨ha, rfl⟩ | ⟨⟨k, hk⟩, hpop⟩
    · rw [ha] at hr
      cases hr
      exact ⟨rfl, rfl, hp⟩
    · rw [hk] at hr
      dsimp only at hr
      unfold onPath at hr
      dsimp only at hr
      rw [hF'.curPath, hr0] at hr
      simp only [hp, pathPop, hpop] at hr
      cases hr
      exact ⟨rfl, rfl, by simp [hlt]⟩
  obtain ⟨g1, g2, g3⟩ := hs3
  have hst : s3.stack = F ++ s1.stack := by rw [hx.stack, h.stack]
  refine ⟨hx.inv h.inv, h.live.ext hx, hst, ⟨r, hr0, g3⟩, ?_, ?_, ?_⟩
  · obtain ⟨b, b1, k1, k⟩ := h2.errs
    refine ⟨b, b1, ?_, k⟩
    rw [← k1]
    unfold curErrs
    rw [hst, h2.stack, hF.errors, hF'.errors, g1]
  · intro name
    have : s3.entry id name = s2.entry id name := by unfold St.entry; rw [g2]
    rw [this]
    exact h2.same name
  · rw [g2]; exact h2.ofClass

/-- Running something in a block. -/
theorem block {push : M P Unit} {m : M P α} {sp : St P} (hi : Inv W s) (hp : PushOK W push) (he : push s = (.ok (), sp))
    (hk : Keeps W m) : ∃ s3, restore I (m sp).2 = (.ok (), s3) ∧ Ext W s s3 ∧ withPush I push m s = ((m sp).1, s3) := by
  have h1 := hp s hi
  rw [he] at h1
  obtain ⟨hinv, h2⟩ := h1
  have h3 := h2 _ (hk.run sp hinv)
  rcases e : restore I (m sp).2 with ⟨x, s3⟩
  rw [e] at h3
  obtain ⟨h4, h5⟩ := h3
  have h4 : x = .ok () := h4
  subst h4
  refine ⟨s3, rfl, h5, ?_⟩
  unfold withPush
  rw [M.bind_ok he]
  exact M.tryFinally_ok (r := (m sp).1) (s1 := (m sp).2) rfl e

theorem pops {r : Nat} : ∀ {d : Nat} {p : P} {s : St P}, curPath s.stack = some (some r) → s.paths[r]? = some p → Z.O d p →
    ∃ q, Z.O 0 q ∧ repeatM (onPath (pathPop I)) d s = (.ok (), { s with paths := s.paths.set r q }) := by
  intro d
  induction d with
  | zero =>
    intro p s hc hp hO
    refine ⟨p, hO, ?_⟩
    have : s.paths.set r p = s.paths := by
      refine List.ext_getElem? fun i => ?_
      rw [List.getElem?_set]
      split
      · rename_i e; subst e
        rw [hp]
        simp [(List.getElem?_eq_some_iff.1 hp).1]
      · rfl
    rw [this]
    rfl
  | succ d ih =>
    intro p s hc hp hO
    obtain ⟨p', h1, h2⟩ := Z.pop hO
    have hlt := (List.getElem?_eq_some_iff.1 hp).1
    have h3 : onPath (pathPop I) s = (.ok (), { s with paths := s.paths.set r p' }) := by
      unfold onPath
      rw [hc]
      simp only [hp, pathPop, h1]
    obtain ⟨q, h4, h5⟩ := ih (s := { s with paths := s.paths.set r p' }) hc (by simp [hlt]) h2
    refine ⟨q, h4, ?_⟩
    unfold repeatM
    rw [M.bind_ok h3, h5, List.set_set]

theorem appends {r : Nat} : ∀ {ks : List Val} {p q : P} {s : St P}, curPath s.stack = some (some r) → s.paths[r]? = some p →
    AppendsTo I p ks q → appendKeys I ks s = (.ok (), { s with paths := s.paths.set r q }) := by
  intro ks
  induction ks with
  | nil =>
    intro p q s hc hp h
    cases h
    have : s.paths.set r p = s.paths := by
      refine List.ext_getElem? fun i => ?_
      rw [List.getElem?_set]
      split
      · rename_i e; subst e
        rw [hp]
        simp [(List.getElem?_eq_some_iff.1 hp).1]
      · rfl
    rw [this]
    rfl
  | cons k ks ih =>
    intro p q s hc hp h
    obtain ⟨p', h1, h2⟩ := h
    have hlt := (List.getElem?_eq_some_iff.1 hp).1
    have h3 : onPath (pathAppend I k) s = (.ok (), { s with paths := s.paths.set r p' }) := by
      unfold onPath
      rw [hc]
      simp only [hp, pathAppend, h1]
    unfold appendKeys
    rw [M.bind_ok h3, ih (s := { s with paths := s.paths.set r p' }) hc (by simp [hlt]) h2, List.set_set]

/-- Going back to the form. -/
theorem back (hF : Light id F) (hne : F ≠ []) {rest : List Frame} (htop : s1.stack = formFrame id :: rest) {p0 : P}
    (hz : ∀ p, Z.O 0 p → p = p0) (h : Perch W s1 id cls Γ F p s) (hO : Z.O (segKeys F.reverse).length p) :
    ∃ r, curPath s1.stack = some (some r) ∧ s.paths[r]? = some p ∧
      rewind I (isFormFrame id) s = (.ok F, { s with stack := s1.stack, paths := s.paths.set r p0 }) := by
  obtain ⟨r, hr, hp⟩ := h.path
  refine ⟨r, hr, hp, ?_⟩
  have hidx : s.stack.findIdx? (isFormFrame id) = some F.length := by
    rw [h.stack, htop, List.findIdx?_append]
    have h1 : F.findIdx? (isFormFrame id) = none := by
      rw [List.findIdx?_eq_none_iff]
      intro fr hfr
      have := (hF fr hfr).2.2.1
      unfold isFormFrame
      simpa using this
    rw [h1]
    simp [List.findIdx?_cons, isFormFrame, formFrame]
  have hlen : F.length ≠ 0 := by simpa using hne
  unfold rewind
  rw [hidx]
  dsimp only
  rw [if_neg hlen, if_neg hlen]
  have htake : s.stack.take F.length = F := by rw [h.stack]; simp
  have hdrop : s.stack.drop F.length = s1.stack := by rw [h.stack]; simp
  rw [htake, hdrop]
  obtain ⟨q, hq, hrun⟩ := pops (I := I) (s := { s with stack := s1.stack }) hr hp hO
  have hq := hz q hq
  subst hq
  have h1 : whenSrcPath (repeatM (onPath (pathPop I)) (segKeys F.reverse).length) { s with stack := s1.stack } =
      (.ok (), { s with stack := s1.stack, paths := s.paths.set r q }) := by
    unfold whenSrcPath
    have h2 : ctxGet (fun f => f.src.path?) "src_path" { s with stack := s1.stack } = (.ok (some r), { s with stack := s1.stack }) :=
      ctxGet_ok hr
    rw [M.bind_ok h2]
    exact hrun
  rw [M.bind_ok h1]
  rfl

/-- Reading a field for which the form has no value. -/
theorem read (hF : Light id F) (hpar : lookup Frame.parent F ≠ none) {rest : List Frame} (htop : s1.stack = formFrame id :: rest)
    {p0 : P} (hz : ∀ p, Z.O 0 p → p = p0) (h : Perch W s1 id cls Γ F p s) (hO : Z.O (segKeys F.reverse).length p)
    {px : P} (hks : AppendsTo I p0 (segKeys F.reverse) px) {f : Field} {name : String} (hf : f.key = .str name)
    (hen : s.entry id name = none) {rec : Rec P} (hrec : Keeps W (rec f .NONE)) {g : Except Exc Val}
    (hstop : g ≠ .error .rewindDidNotStop)
    (ih : ∀ s', Perch W s1 id cls Γ [] p0 s' → (rec f .NONE s').1 = g ∧ ∀ v, g = .ok v → Perch W s1 id cls Γ [] p0 (rec f .NONE s').2) :
    (fieldGet I rec f id s).1 = g ∧ ∀ v, g = .ok v → Perch W s1 id cls Γ F px (fieldGet I rec f id s).2 := by
  have hne : F ≠ [] := by rintro rfl; exact hpar rfl
  obtain ⟨r, hr, hp, hback⟩ := back hF hne htop hz h hO
  have hlt : r < s.paths.length := (List.getElem?_eq_some_iff.1 hp).1
  have hparent : s.env.parent ≠ some (.form id) := by
    show lookup Frame.parent s.stack ≠ _
    rw [h.stack]
    unfold lookup at hpar ⊢
    rw [List.findSome?_append]
    cases hx : F.findSome? Frame.parent with
    | none => exact absurd hx hpar
    | some x =>
      obtain ⟨fr, hfr, hfx⟩ := List.exists_of_findSome?_eq_some hx
      have := (hF fr hfr).2.2.1
      rw [hfx] at this
      exact this
  have hform : s.env.form ≠ none := by
    show lookup Frame.form s.stack ≠ _
    rw [h.stack, hF.form, htop]
    simp [lookup, formFrame]
  have hin : ¬ Getattr.Idle s id := by
    intro hid
    refine hid (formFrame id) ?_ rfl
    rw [h.stack, htop]
    simp
  obtain ⟨s0, frames, hat, hinv, hrw, hget⟩ := Read.get_rewound (W := W) hf h.inv hen hform hparent hin rec hrec
  rw [hback] at hrw
  injection hrw with e1 e2
  injection e1 with e1
  subst e1
  have hl0 : Perch W s1 id cls Γ [] p0 s0 := by
    subst e2
    refine ⟨hinv, ?_, rfl, ⟨r, hr, by simp [hlt]⟩, ?_, h.same, h.ofClass⟩
    · have hl := h.live
      have hst := h.stack
      refine ⟨?_, ?_, ?_, ?_⟩
      · have := hl.root
        rw [hst] at this
        rcases List.mem_append.1 this with h1 | h1
        · have := (hF _ h1).2.2.2
          rcases this with h2 | ⟨k, h2⟩ <;> cases h2
        · exact h1
      · intro r' hr'
        show r' < (s.paths.set r p0).length
        rw [List.length_set]
        refine hl.path r' ?_
        rw [hst, hF.curPath]
        exact hr'
      · intro e he
        refine hl.errs e ?_
        rw [hst, hF.errors]
        exact he
      · intro fr hfr i hi
        exact hl.ids fr (by rw [hst]; exact List.mem_append_right _ hfr) i hi
    · obtain ⟨b, b1, g1, g⟩ := h.errs
      refine ⟨b, b1, ?_, g⟩
      rw [← g1]
      unfold curErrs
      rw [h.stack, hF.errors]
  obtain ⟨i1, i2⟩ := ih s0 hl0
  obtain ⟨s', k1, k2, k3, k4, k5⟩ := hget (by rw [i1]; exact hstop)
  rw [k1]
  refine ⟨i1, fun v hv => ?_⟩
  have hafter := i2 v hv
  have hst : s'.stack = F ++ s1.stack := by rw [k5.stack, h.stack]
  refine ⟨k5.inv h.inv, h.live.ext k5, hst, ⟨r, hr, ?_⟩, ?_, ?_, ?_⟩
  · -- the path
    obtain ⟨r', hr', hp'⟩ := hafter.path
    rw [hr] at hr'; cases hr'
    have hst0 : (rec f .NONE s0).2.stack = s1.stack := by rw [hafter.stack]; rfl
    have hlt' := (List.getElem?_eq_some_iff.1 hp').1
    have h1 := appends (I := I) (s := (rec f .NONE s0).2) (by rw [hst0]; exact hr) hp' hks
    unfold restoreFrames at k2
    rw [if_neg (by simpa using hne)] at k2
    have h2 : whenSrcPath (appendKeys I (segKeys F.reverse)) (rec f .NONE s0).2 =
        (.ok (), { (rec f .NONE s0).2 with paths := (rec f .NONE s0).2.paths.set r px }) := by
      unfold whenSrcPath
      have h3 : ctxGet (fun f => f.src.path?) "src_path" (rec f .NONE s0).2 = (.ok (some r), (rec f .NONE s0).2) :=
        ctxGet_ok (by rw [hst0]; exact hr)
      rw [M.bind_ok h3]
      exact h1
    rw [M.bind_ok h2] at k2
    cases k2
    show ((rec f .NONE s0).2.paths.set r px)[r]? = some px
    simp [hlt']
  · obtain ⟨b, b1, g1, g⟩ := hafter.errs
    refine ⟨b, b1, ?_, g⟩
    rw [← g1]
    unfold curErrs
    rw [hst, hF.errors, k3, hafter.stack]
    rfl
  · intro n
    have : s'.entry id n = (rec f .NONE s0).2.entry id n := by unfold St.entry; rw [k4]
    rw [this]
    exact hafter.same n
  · rw [k4]; exact hafter.ofClass

end Perch
end Pilo
