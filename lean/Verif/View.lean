import Verif.Plain

/-!
# From a context to its lexical view

`St.env` and `St.view` read off a context what a lexical computation needs; for a context without dangling
references the two agree, so theorems about the lexical semantics carry over.
-/

namespace Pilo
variable {P : Type} {α : Type}

/-- What the context variables are bound to. -/
def St.env (s : St P) : Env where
  src := lookup (fun f => f.src.src?) s.stack
  form := lookup Frame.form s.stack
  parent := lookup Frame.parent s.stack
  field := lookup Frame.field s.stack
  tags := lookup Frame.tags s.stack
  ignoreDefault := lookup Frame.ignoreDefault s.stack
  ignoreMissing := lookup Frame.ignoreMissing s.stack

/-- The current path object: `ctx.src_path`. -/
def curPathObj (s : St P) : Option (Option (Nat × P)) :=
  match curPath s.stack with
  | none => none
  | some none => some none
  | some (some r) => (s.paths[r]?).map fun p => some (r, p)

/-- The current error list: `ctx.errors`. -/
def curErrs (s : St P) : Option ErrBuf :=
  match lookup Frame.errors s.stack with
  | none => none
  | some e => s.errs[e]?

/-- The lexical view of a context. -/
def St.view (s : St P) : TSt P where
  path := curPathObj s
  errs := curErrs s
  forms := s.forms
  npaths := s.paths.length

/-- A context as a thread has it: the root frame is there and no reference dangles. -/
structure Live (s : St P) : Prop where
  root : rootFrame ∈ s.stack
  path : ∀ r, curPath s.stack = some (some r) → r < s.paths.length
  errs : ∀ e, lookup Frame.errors s.stack = some e → e < s.errs.length
  ids : ∀ fr ∈ s.stack, ∀ id, fr.parent = some (.form id) → id < s.forms.length

theorem Live.init : Live (St.init : St P) where
  root := by simp [St.init]
  path := by intro r h; simp [St.init, curPath, lookup, rootFrame, FrameSrc.path?] at h
  errs := by intro e h; simp [St.init, lookup, rootFrame] at h
  ids := by intro fr hfr id h; simp [St.init] at hfr; subst hfr; simp [rootFrame] at h

theorem Live.agree {s : St P} (h : Live s) : Agree s.env s.view s where
  src := rfl
  form := rfl
  parent := rfl
  field := rfl
  tags := rfl
  ignoreDefault := rfl
  ignoreMissing := rfl
  path := by
    unfold PathAgree St.view curPathObj
    rcases hc : curPath s.stack with _ | _ | r
    · simp only
    · simp only
    · have hr := h.path r hc
      simp only [List.getElem?_eq_getElem hr, Option.map_some]
      exact ⟨trivial, trivial⟩
  errs := by
    unfold ErrAgree St.view curErrs
    rcases hc : lookup Frame.errors s.stack with _ | e
    · simp only
    · have he := h.errs e hc
      simp only [List.getElem?_eq_getElem he]
      exact ⟨e, rfl, List.getElem?_eq_getElem he⟩
  forms := rfl
  npaths := rfl
  ids := h.ids

theorem Agree.curErrs {env : Env} {τ : TSt P} {s : St P} (h : Agree env τ s) : curErrs s = τ.errs := by
  have := h.errs
  unfold ErrAgree at this
  unfold Pilo.curErrs
  cases hτ : τ.errs with
  | none => simp only [hτ] at this; rw [this]
  | some b =>
    simp only [hτ] at this
    obtain ⟨e, h1, h2⟩ := this
    rw [h1, ← h2]

theorem Agree.curPathObj {env : Env} {τ : TSt P} {s : St P} (h : Agree env τ s) :
    curPathObj s = τ.path := by
  have := h.path
  unfold PathAgree at this
  unfold Pilo.curPathObj
  rcases hτ : τ.path with _ | _ | ⟨r, p⟩ <;> simp only [hτ] at this
  · rw [this]
  · rw [this]
  · rw [this.1]; simp only [this.2]; rfl

theorem lookup_isSome {β : Type} {proj : Frame → Option β} {stack : List Frame} {fr : Frame}
    (hm : fr ∈ stack) (h : (proj fr).isSome) : (lookup proj stack).isSome := by
  unfold lookup
  rw [List.findSome?_isSome_iff]
  exact ⟨fr, hm, h⟩

theorem Live.src {s : St P} (h : Live s) : ∃ b, s.env.src = some b :=
  Option.isSome_iff_exists.1 (lookup_isSome h.root (by rfl))
theorem Live.ignoreDefault {s : St P} (h : Live s) : ∃ b, s.env.ignoreDefault = some b :=
  Option.isSome_iff_exists.1 (lookup_isSome h.root (by rfl))
theorem Live.ignoreMissing {s : St P} (h : Live s) : ∃ b, s.env.ignoreMissing = some b :=
  Option.isSome_iff_exists.1 (lookup_isSome h.root (by rfl))

theorem Live.push {s : St P} {f : Frame} (h : Live s)
    (he : ∀ e, f.errors = some e → e < s.errs.length)
    (hp : ∀ id, f.parent = some (.form id) → id < s.forms.length) : Live (pushVars f s).2 := by
  have hs : (pushVars f s).2 = { s with stack := { f with src := .absent } :: s.stack } := rfl
  rw [hs]
  refine ⟨List.mem_cons_of_mem _ h.root, ?_, ?_, ?_⟩
  · intro r hr
    refine h.path r ?_
    simpa [curPath, lookup, FrameSrc.path?] using hr
  · intro e hr
    simp only [lookup, List.findSome?_cons] at hr
    cases hf : f.errors with
    | none => rw [hf] at hr; exact h.errs e hr
    | some e' => rw [hf] at hr; cases hr; exact he _ hf
  · intro fr hfr id hid
    rcases List.mem_cons.1 hfr with rfl | hfr
    · exact hp id hid
    · exact h.ids fr hfr id hid

/-- Carrying a result over from the lexical semantics. -/
theorem Ref.run {m : M P α} {t : T P α} (h : Ref m t) {s : St P} (hs : Live s) :
    (m s).1 = (t s.env s.view).1 ∧ curErrs (m s).2 = (t s.env s.view).2.errs ∧
      (m s).2.forms = (t s.env s.view).2.forms ∧ curPathObj (m s).2 = (t s.env s.view).2.path ∧
      (m s).2.stack = s.stack := by
  obtain ⟨h1, h2, h3⟩ := h _ _ _ hs.agree
  exact ⟨h1, h2.curErrs, h2.forms, h2.curPathObj, h3.stack⟩

end Pilo
