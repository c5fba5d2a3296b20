import Verif.Perch

/-!
# Computations whose result is settled

Families of computations with one and the same result, in all states of a kind.
-/

namespace Pilo
variable {P : Type} {I : PathOps P} {L : Lib} {W : LawfulPath I} {Z : Pin I} {α β ι : Type}

/-- In all states that satisfy `K`, all computations of the family give the same; with a value, `K'` holds afterwards. -/
def Sure (K K' : St P → Prop) (m : ι → M P α) : Prop :=
  ∃ r : Except Exc α, ∀ i s, K s → (m i s).1 = r ∧ ∀ x, r = .ok x → K' (m i s).2

namespace Sure
variable {K K' K'' : St P → Prop}

theorem pure (a : α) : Sure K K (fun _ : ι => (M.pure a : M P α)) := ⟨.ok a, fun _ _ h => ⟨rfl, fun _ _ => h⟩⟩
theorem raise (e : Exc) : Sure K K' (fun _ : ι => (M.raise e : M P α)) := ⟨.error e, fun _ _ _ => ⟨rfl, fun _ h => nomatch h⟩⟩

theorem ofExcept (x : Except Exc α) : Sure K K (fun _ : ι => (M.ofExcept x : M P α)) := by
  cases x with
  | ok a => exact .pure a
  | error e => exact .raise e

theorem bind {m : ι → M P α} {f : ι → α → M P β} (hm : Sure K K' m) (hf : ∀ a, Sure K' K'' fun i => f i a) :
    Sure K K'' fun i => m i >>= f i := by
  obtain ⟨r, h⟩ := hm
  cases r with
  | error e =>
    refine ⟨.error e, fun i s hs => ?_⟩
    show ((m i >>= f i) s).1 = _ ∧ ∀ x, _ → K'' ((m i >>= f i) s).2
    rcases hx : m i s with ⟨x, s'⟩
    have h1 := (h i s hs).1
    rw [hx] at h1
    dsimp only at h1
    subst h1
    rw [M.bind_error hx]
    exact ⟨rfl, fun _ h => nomatch h⟩
  | ok a =>
    obtain ⟨r, h'⟩ := hf a
    refine ⟨r, fun i s hs => ?_⟩
    show ((m i >>= f i) s).1 = _ ∧ ∀ x, _ → K'' ((m i >>= f i) s).2
    obtain ⟨h1, h2⟩ := h i s hs
    have h2 := h2 a rfl
    rcases hx : m i s with ⟨x, s'⟩
    rw [hx] at h1 h2
    dsimp only at h1
    subst h1
    rw [M.bind_ok hx]
    exact h' i s' h2

theorem ite {c : Prop} [Decidable c] {m m' : ι → M P α} (h : c → Sure K K' m) (h' : ¬c → Sure K K' m') :
    Sure K K' fun i => if c then m i else m' i := by
  split
  · exact h ‹_›
  · exact h' ‹_›

theorem congr {m m' : ι → M P α} (h : ∀ i, m i = m' i) (h' : Sure K K' m') : Sure K K' m := by
  rw [funext h]; exact h'

theorem weaken {K1 : St P → Prop} {m : ι → M P α} (h : Sure K K' m) (hk : ∀ s, K1 s → K s) (hk' : ∀ s, K' s → K'' s) :
    Sure K1 K'' m := by
  obtain ⟨r, h⟩ := h
  exact ⟨r, fun i s hs => ⟨(h i s (hk s hs)).1, fun x hx => hk' _ ((h i s (hk s hs)).2 x hx)⟩⟩

theorem ctxGet {g : Frame → Option α} {n : String} {S : List Frame} (hK : ∀ s, K s → s.stack = S) :
    Sure K K fun _ : ι => (ctxGet g n : M P α) := by
  cases h : lookup g S with
  | none =>
    refine ⟨.error (noCtxAttr n), fun i s hs => ⟨?_, fun _ h => nomatch h⟩⟩
    show (Pilo.ctxGet g n s).1 = _
    unfold Pilo.ctxGet
    rw [hK s hs, h]
  | some a =>
    refine ⟨.ok a, fun i s hs => ?_⟩
    have : Pilo.ctxGet g n s = (.ok a, s) := by unfold Pilo.ctxGet; rw [hK s hs, h]
    show (Pilo.ctxGet g n s).1 = _ ∧ ∀ x, _ → K (Pilo.ctxGet g n s).2
    rw [this]
    exact ⟨rfl, fun _ _ => hs⟩

/-- If the results in any two states are equal, there is one. -/
theorem of_pair {m : ι → M P α} (h : ∀ i j s s', K s → K s' → (m i s).1 = (m j s').1)
    (h' : ∀ i s x, K s → (m i s).1 = .ok x → K' (m i s).2) : Sure K K' m := by
  by_cases hn : ∃ (i : ι) (s : St P), K s
  · obtain ⟨i, s, hs⟩ := hn
    exact ⟨(m i s).1, fun j s' hs' => ⟨h j i s' s hs' hs, fun x hx => h' j s' x hs' ((h j i s' s hs' hs).trans hx)⟩⟩
  · exact ⟨.error .recursion, fun i s hs => absurd ⟨i, s, hs⟩ hn⟩

end Sure

/-- Inside a field, with frames `F` above the form: the path is `px`, up to what is kept at it. -/
def Seat (Z : Pin I) (W : LawfulPath I) (s1 : St P) (id cls : Nat) (Γ : String → Option Val → Prop) (F : List Frame) (px : P)
    (s : St P) : Prop :=
  ∃ p, Z.O (segKeys F.reverse).length p ∧ Same I W.WF W.shape px p ∧ Perch W s1 id cls Γ F p s

namespace Seat
variable {s1 s : St P} {id cls d : Nat} {Γ : String → Option Val → Prop} {F : List Frame} {p px : P}

theorem stack (h : Seat Z W s1 id cls Γ F px s) : s.stack = F ++ s1.stack := by
  obtain ⟨p, -, -, h⟩ := h
  exact h.stack

theorem exact_ (hO : Z.O (segKeys F.reverse).length px) (h : Perch W s1 id cls Γ F px s) : Seat Z W s1 id cls Γ F px s := by
  refine ⟨px, hO, ⟨rfl, ?_, rfl⟩, h⟩
  obtain ⟨r, -, hp⟩ := h.path
  exact h.inv.wf px (List.mem_of_getElem? hp)

/-- Computations without hooks. -/
theorem lift {m : M P α} {m' : ι → M P α} (he : ∀ i, m' i = m) (hm : Lifts Z W m) (hF : Light id F) (hO : Z.O (segKeys F.reverse).length px) :
    Sure (Perch W s1 id cls Γ F px) (Seat Z W s1 id cls Γ F px) m' := by
  refine .congr he (.of_pair (fun i j s s' h h' => (h.lift hm hF h' hO).1) fun i s x h hx => ?_)
  obtain ⟨q, hq, h1, -⟩ := (h.lift hm hF h hO).2 x hx
  refine ⟨q, hq, ?_, h1⟩
  obtain ⟨r, hr, hp⟩ := h.path
  obtain ⟨r', hr', hp'⟩ := h1.path
  rw [hr] at hr'; cases hr'
  obtain ⟨q', hq', hs⟩ := (hm.keeps.run s h.inv).paths r px hp
  rw [hp'] at hq'; cases hq'
  exact hs

theorem text (hs : Same I W.WF W.shape px p) (hx : W.WF px) : I.render p = I.render px := by
  rw [W.render_text hs.wf, W.render_text hx, hs.keys, hs.shape]

/-- `T.report`, when everything is there. -/
theorem report_run (k : ErrKind) {env : Env} {τ : TSt P} {b : ErrBuf} {r : Nat} {p : P} (hb : τ.errs = some b)
    (hp : τ.path = some (some (r, p))) : T.report I k env τ = match env.field with
      | none => (.error (noCtxAttr "field"), τ)
      | some fld => match I.render p with
        | .error x => (.error x, τ)
        | .ok t => (if b.raising then .error (.formError (b.items ++ [⟨k, t, fld, some r⟩])) else .ok (),
            { τ with errs := some { b with items := b.items ++ [⟨k, t, fld, some r⟩] } }) := by
  unfold T.report
  have h1 : T.errsBound env τ = (.ok (), τ) := by unfold T.errsBound; rw [hb]
  rw [T.bind_ok h1]
  cases hf : env.field with
  | none =>
    have h2 : (T.ctxGet Env.field "field" : T P _) env τ = (.error (noCtxAttr "field"), τ) := by unfold T.ctxGet; rw [hf]
    rw [T.bind_error h2]
  | some fld =>
    have h2 : (T.ctxGet Env.field "field" : T P _) env τ = (.ok fld, τ) := by unfold T.ctxGet; rw [hf]
    rw [T.bind_ok h2]
    dsimp only
    cases ht : I.render p with
    | error x =>
      have h3 : T.pathText I env τ = (.error x, τ) := by unfold T.pathText; rw [hp]; simp only [ht]
      rw [T.bind_error h3]
    | ok t =>
      have h3 : T.pathText I env τ = (.ok (t, some r), τ) := by unfold T.pathText; rw [hp]; simp only [ht]
      rw [T.bind_ok h3]
      dsimp only
      unfold T.record
      rw [hb]

/-- Reporting an error. -/
theorem report (hF : Light id F) (hx : W.WF px) (k : ErrKind) :
    Sure (Seat Z W s1 id cls Γ F px) (Seat Z W s1 id cls Γ F px) fun _ : ι => (Pilo.report I k : M P Unit) := by
  have key : ∀ s p, Perch W s1 id cls Γ F p s → Same I W.WF W.shape px p → ∃ b b1 r, curErrs s1 = some b1 ∧ curErrs s = some b ∧
      b.raising = b1.raising ∧ (b1.raising = true → b.items = b1.items) ∧ curPath s1.stack = some (some r) ∧
      T.report I k s.env s.view = match lookup Frame.field (F ++ s1.stack) with
        | none => (.error (noCtxAttr "field"), s.view)
        | some fld => match I.render px with
          | .error x => (.error x, s.view)
          | .ok t => (if b.raising then .error (.formError (b.items ++ [⟨k, t, fld, some r⟩])) else .ok (),
              { s.view with errs := some { b with items := b.items ++ [⟨k, t, fld, some r⟩] } }) := by
    intro s p h hs
    obtain ⟨b, b1, g1, g2, g3, g4⟩ := h.errs
    obtain ⟨r, hr, hp⟩ := h.curPathObj hF
    refine ⟨b, b1, r, g2, g1, g3, g4, hr, ?_⟩
    rw [report_run k (τ := s.view) g1 hp, text hs hx, ← h.stack]
    rfl
  refine .of_pair (fun i j s s' hs hs' => ?_) fun i s x hs hx => ?_
  · obtain ⟨p, hO, hsm, h⟩ := hs
    obtain ⟨p', hO', hsm', h'⟩ := hs'
    obtain ⟨b, b1, r, g1, g2, g3, g4, g5, g6⟩ := key s p h hsm
    obtain ⟨c, b1', r', k1, k2, k3, k4, k5, k6⟩ := key s' p' h' hsm'
    rw [g1] at k1; cases k1
    rw [g5] at k5; cases k5
    show (Pilo.report I k s).1 = (Pilo.report I k s').1
    rw [((Ref.report (I := I) k).run h.live).1, ((Ref.report (I := I) k).run h'.live).1, g6, k6]
    cases lookup Frame.field (F ++ s1.stack) with
    | none => rfl
    | some fld =>
      cases I.render px with
      | error e => rfl
      | ok t =>
        dsimp only
        rw [g3, k3]
        split
        · rw [g4 ‹_›, k4 ‹_›]
        · rfl
  · obtain ⟨p, hO, hsm, h⟩ := hs
    obtain ⟨b, b1, r, g1, g2, g3, g4, g5, g6⟩ := key s p h hsm
    have hx : (Pilo.report I k s).1 = .ok x := hx
    show Seat Z W s1 id cls Γ F _ (Pilo.report I k s).2
    obtain ⟨e1, e2, e3, e4, e5⟩ := (Ref.report (I := I) k).run h.live
    have hext := (Keeps.report (I := I) (W := W) k).run s h.inv
    rw [e1] at hx
    have hcalc : ∃ es, (T.report I k s.env s.view).2 = { s.view with errs := some { b with items := b.items ++ es } } ∧ b.raising = false := by
      rw [g6] at hx ⊢
      cases hfl : lookup Frame.field (F ++ s1.stack) with
      | none => rw [hfl] at hx; cases hx
      | some fld =>
        rw [hfl] at hx
        cases ht : I.render px with
        | error e => rw [ht] at hx; cases hx
        | ok t =>
          rw [ht] at hx
          dsimp only at hx ⊢
          cases hr : b.raising with
          | true => rw [hr] at hx; cases hx
          | false => exact ⟨_, rfl, rfl⟩
    obtain ⟨es, hT, hr⟩ := hcalc
    rw [hT] at e2 e3 e4
    have hst : (Pilo.report I k s).2.stack = F ++ s1.stack := by rw [hext.stack, h.stack]
    refine ⟨p, hO, hsm, hext.inv h.inv, h.live.ext hext, hst, ?_, ⟨_, b1, e2, g1, g3, ?_⟩, ?_, ?_⟩
    · obtain ⟨r', hr', hp'⟩ := h.curPathObj hF
      refine ⟨r', hr', ?_⟩
      have e4 : Pilo.curPathObj (Pilo.report I k s).2 = Pilo.curPathObj s := e4
      rw [hp'] at e4
      unfold Pilo.curPathObj at e4
      rw [hst, hF.curPath, hr'] at e4
      dsimp only at e4
      cases hq : (Pilo.report I k s).2.paths[r']? with
      | none => rw [hq] at e4; cases e4
      | some q => rw [hq] at e4; cases e4; rfl
    · intro hb; rw [← g3, hr] at hb; cases hb
    · intro name
      have : (Pilo.report I k s).2.entry id name = s.entry id name := by
        unfold St.entry
        rw [e3]
        rfl
      rw [this]
      exact h.same name
    · rw [e3]; exact h.ofClass

variable {f : Field}

theorem reject (hF : Light id F) (hx : W.WF px) (msg : String) :
    Sure (Seat Z W s1 id cls Γ F px) (Seat Z W s1 id cls Γ F px) fun _ : ι => (rejectWith I msg : M P Bool) :=
  .bind (report hF hx _) fun _ => .pure _

theorem missingNotSet (hF : Light id F) (hx : W.WF px) :
    Sure (Seat Z W s1 id cls Γ F px) (Seat Z W s1 id cls Γ F px) fun _ : ι => (Pilo.missingNotSet I : M P Val) :=
  .bind (.ctxGet fun _ h => h.stack) fun _ => .ite (fun _ => .pure _) fun _ => .bind (report hF hx _) fun _ => .pure _

theorem range (hF : Light id F) (hx : W.WF px) (lo hi : Option Val) (a b : Val → Val → String) (v : Val) :
    Sure (Seat Z W s1 id cls Γ F px) (Seat Z W s1 id cls Γ F px) fun _ : ι => (rangeValidate I L lo hi a b v : M P Bool) :=
  .bind (.ofExcept _) fun _ => .ite (fun _ => reject hF hx _) fun _ => .bind (.ofExcept _) fun _ =>
    .ite (fun _ => reject hF hx _) fun _ => .pure _

theorem string (hF : Light id F) (hx : W.WF px) (c : StrCfg) (v : Val) :
    Sure (Seat Z W s1 id cls Γ F px) (Seat Z W s1 id cls Γ F px) fun _ : ι => (stringValidate I L f c v : M P Bool) := by
  refine .bind (.ofExcept _) fun _ => .ite (fun _ => .bind (.ofExcept _) fun _ => reject hF hx _) fun _ => .bind (.ofExcept _) fun _ =>
    .ite (fun _ => reject hF hx _) fun _ => .bind (.ofExcept _) fun _ => .ite (fun _ => reject hF hx _) fun _ =>
    .bind (.ofExcept _) fun _ => .ite (fun _ => reject hF hx _) fun _ => .ite (fun _ => ?_) fun _ => .pure _
  split
  · exact reject hF hx _
  · exact reject hF hx _

theorem dict (hF : Light id F) (hx : W.WF px) (req : Required) (mx : Option Nat) (v : Val) :
    Sure (Seat Z W s1 id cls Γ F px) (Seat Z W s1 id cls Γ F px) fun _ : ι => (dictValidate I L req mx v : M P Bool) := by
  refine .bind (.ofExcept _) fun _ => .ite (fun _ => ?_) fun _ => ?_
  · split
    · exact reject hF hx _
    · exact .raise _
  · split
    · exact .pure _
    · exact .pure _
    · exact .bind (.ofExcept _) fun _ => .ite (fun _ => reject hF hx _) fun _ => .pure _

theorem validate (hF : Light id F) (hx : W.WF px) (v : Val) :
    Sure (Seat Z W s1 id cls Γ F px) (Seat Z W s1 id cls Γ F px) fun _ : ι => (kindValidate I L f v : M P Bool) := by
  refine .bind ?_ fun _ => .ite (fun _ => .pure _) fun _ => .ite (fun _ => .pure _) fun _ => ?_
  · exact .ite (fun _ => reject hF hx _) fun _ => .pure _
  · split
    · exact string hF hx _ _
    · exact range hF hx _ _ _ _ _
    · exact range hF hx _ _ _ _ _
    · exact range hF hx _ _ _ _ _
    · exact range hF hx _ _ _ _ _
    · exact range hF hx _ _ _ _ _
    · exact range hF hx _ _ _ _ _
    · exact .bind (.ofExcept _) fun _ => .ite (fun _ => reject hF hx _) fun _ => .bind (.ofExcept _) fun _ =>
        .ite (fun _ => reject hF hx _) fun _ => .pure _
    · exact dict hF hx _ _ _
    · exact .pure _

end Seat
end Pilo
