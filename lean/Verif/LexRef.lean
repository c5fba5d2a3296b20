import Verif.Lex
import Verif.Keeps

/-!
# The context implementation refines the lexical semantics

`Agree env t s`: the stack and heaps of `s` show what `env` and `t` hold.  `Ref m t`: from agreeing states
the two computations give the same result and agreeing states, the stack is back, and no path or error
list other than the current ones has changed.  No property of the path implementation is needed.
-/

namespace Pilo
variable {P : Type} {α β : Type}

/-- The current path of the stack is `o`. -/
def PathAgree (o : Option (Option (Nat × P))) (s : St P) : Prop :=
  match o with
  | none => curPath s.stack = none
  | some none => curPath s.stack = some none
  | some (some (r, p)) => curPath s.stack = some (some r) ∧ s.paths[r]? = some p

/-- The current error list of the stack is `o`. -/
def ErrAgree (o : Option ErrBuf) (s : St P) : Prop :=
  match o with
  | none => lookup Frame.errors s.stack = none
  | some b => ∃ e, lookup Frame.errors s.stack = some e ∧ s.errs[e]? = some b

/-- The context shows what the environment and the lexical state hold. -/
structure Agree (env : Env) (t : TSt P) (s : St P) : Prop where
  src : lookup (fun f => f.src.src?) s.stack = env.src
  form : lookup Frame.form s.stack = env.form
  parent : lookup Frame.parent s.stack = env.parent
  field : lookup Frame.field s.stack = env.field
  tags : lookup Frame.tags s.stack = env.tags
  ignoreDefault : lookup Frame.ignoreDefault s.stack = env.ignoreDefault
  ignoreMissing : lookup Frame.ignoreMissing s.stack = env.ignoreMissing
  path : PathAgree t.path s
  errs : ErrAgree t.errs s
  forms : s.forms = t.forms
  npaths : s.paths.length = t.npaths
  ids : ∀ fr ∈ s.stack, ∀ id, fr.parent = some (.form id) → id < s.forms.length

/-- What a computation leaves alone. -/
structure Fr (s s' : St P) : Prop where
  stack : s'.stack = s.stack
  plen : s.paths.length ≤ s'.paths.length
  paths : ∀ i, i < s.paths.length → curPath s.stack ≠ some (some i) → s'.paths[i]? = s.paths[i]?
  elen : s.errs.length ≤ s'.errs.length
  errs : ∀ i, i < s.errs.length → lookup Frame.errors s.stack ≠ some i → s'.errs[i]? = s.errs[i]?
  forms : s.forms.length ≤ s'.forms.length

theorem Fr.refl (s : St P) : Fr s s :=
  ⟨rfl, Nat.le_refl _, fun _ _ _ => rfl, Nat.le_refl _, fun _ _ _ => rfl, Nat.le_refl _⟩

theorem Fr.trans {s1 s2 s3 : St P} (h : Fr s1 s2) (h' : Fr s2 s3) : Fr s1 s3 where
  stack := h'.stack.trans h.stack
  plen := Nat.le_trans h.plen h'.plen
  paths i hi hc := by
    rw [h'.paths i (Nat.lt_of_lt_of_le hi h.plen) (by rw [h.stack]; exact hc), h.paths i hi hc]
  elen := Nat.le_trans h.elen h'.elen
  errs i hi hc := by
    rw [h'.errs i (Nat.lt_of_lt_of_le hi h.elen) (by rw [h.stack]; exact hc), h.errs i hi hc]
  forms := Nat.le_trans h.forms h'.forms

/-- Refinement at given states. -/
structure RefAt (m : M P α) (t : T P α) (env : Env) (τ : TSt P) (s : St P) : Prop where
  res : (m s).1 = (t env τ).1
  agree : Agree env (t env τ).2 (m s).2
  fr : Fr s (m s).2

/-- Refinement. -/
def Ref (m : M P α) (t : T P α) : Prop := ∀ env τ s, Agree env τ s → RefAt m t env τ s

/-- Refinement for computations returning an error list: by reference and by content. -/
structure RefEAt (m : M P Nat) (t : T P (List Err)) (env : Env) (τ : TSt P) (s : St P) : Prop where
  res : match (m s).1, (t env τ).1 with
    | .ok e, .ok es => ((m s).2.errs[e]?).elim [] ErrBuf.items = es
    | .error x, .error y => x = y
    | _, _ => False
  agree : Agree env (t env τ).2 (m s).2
  fr : Fr s (m s).2

def RefE (m : M P Nat) (t : T P (List Err)) : Prop := ∀ env τ s, Agree env τ s → RefEAt m t env τ s

/-! ## Monad structure -/

theorem T.bind_ok {m : T P α} {f : α → T P β} {env : Env} {τ τ' : TSt P} {a : α}
    (h : m env τ = (.ok a, τ')) : (m >>= f) env τ = f a env τ' := by
  show T.bind m f env τ = _
  unfold T.bind
  rw [h]

theorem T.bind_error {m : T P α} {f : α → T P β} {env : Env} {τ τ' : TSt P} {e : Exc}
    (h : m env τ = (.error e, τ')) : (m >>= f) env τ = (.error e, τ') := by
  show T.bind m f env τ = _
  unfold T.bind
  rw [h]

theorem RefAt.bind {m : M P α} {t : T P α} {f : α → M P β} {g : α → T P β} {env τ} {s : St P}
    (h : RefAt m t env τ s)
    (hf : ∀ a s' τ', m s = (.ok a, s') → t env τ = (.ok a, τ') → Agree env τ' s' → Fr s s' →
      RefAt (f a) (g a) env τ' s') : RefAt (m >>= f) (t >>= g) env τ s := by
  obtain ⟨hr, ha, hfr⟩ := h
  rcases hm : m s with ⟨r, s'⟩
  rcases ht : t env τ with ⟨r', τ'⟩
  simp only [hm, ht] at hr ha hfr
  subst hr
  cases r with
  | error e =>
    refine ⟨?_, ?_, ?_⟩ <;> simp only [M.bind_error hm, T.bind_error ht]
    · exact ha
    · exact hfr
  | ok a =>
    obtain ⟨h1, h2, h3⟩ := hf a s' τ' hm ht ha hfr
    refine ⟨?_, ?_, ?_⟩ <;> simp only [M.bind_ok hm, T.bind_ok ht]
    · exact h1
    · exact h2
    · exact hfr.trans h3

theorem RefEAt.bindAt {m : M P α} {t : T P α} {f : α → M P Nat} {g : α → T P (List Err)} {env τ}
    {s : St P} (h : RefAt m t env τ s)
    (hf : ∀ a s' τ', m s = (.ok a, s') → t env τ = (.ok a, τ') → Agree env τ' s' → Fr s s' →
      RefEAt (f a) (g a) env τ' s') : RefEAt (m >>= f) (t >>= g) env τ s := by
  obtain ⟨hr, ha, hfr⟩ := h
  rcases hm : m s with ⟨r, s'⟩
  rcases ht : t env τ with ⟨r', τ'⟩
  simp only [hm, ht] at hr ha hfr
  subst hr
  cases r with
  | error e =>
    refine ⟨?_, ?_, ?_⟩ <;> simp only [M.bind_error hm, T.bind_error ht]
    · exact ha
    · exact hfr
  | ok a =>
    obtain ⟨h1, h2, h3⟩ := hf a s' τ' hm ht ha hfr
    refine ⟨?_, ?_, ?_⟩ <;> simp only [M.bind_ok hm, T.bind_ok ht]
    · exact h1
    · exact h2
    · exact hfr.trans h3

theorem Ref.bind {m : M P α} {t : T P α} {f : α → M P β} {g : α → T P β} (h : Ref m t)
    (hf : ∀ a, Ref (f a) (g a)) : Ref (m >>= f) (t >>= g) :=
  fun env τ s ha => (h env τ s ha).bind fun a s' τ' _ _ ha' _ => hf a env τ' s' ha'

theorem Ref.bind' {m : M P α} {t : T P α} {f : α → M P β} {g : α → T P β} (h : Ref m t)
    (hf : ∀ a, Ref (f a) (g a)) : Ref (M.bind m f) (T.bind t g) := Ref.bind h hf

theorem RefE.bind {m : M P α} {t : T P α} {f : α → M P Nat} {g : α → T P (List Err)} (h : Ref m t)
    (hf : ∀ a, RefE (f a) (g a)) : RefE (m >>= f) (t >>= g) :=
  fun env τ s ha => RefEAt.bindAt (h env τ s ha) fun a s' τ' _ _ ha' _ => hf a env τ' s' ha'

/-- Reading the returned list. -/
theorem RefEAt.items {m : M P Nat} {t : T P (List Err)} {f : Nat → List Err → M P β} {g : List Err → T P β}
    {env τ} {s : St P} (h : RefEAt m t env τ s)
    (hf : ∀ e es s' τ', m s = (.ok e, s') → t env τ = (.ok es, τ') → Agree env τ' s' → Fr s s' →
      RefAt (f e es) (g es) env τ' s') :
    RefAt (m >>= fun e => errItems e >>= f e) (t >>= g) env τ s := by
  obtain ⟨hr, ha, hfr⟩ := h
  rcases hm : m s with ⟨r, s'⟩
  rcases ht : t env τ with ⟨r', τ'⟩
  simp only [hm, ht] at hr ha hfr
  cases r with
  | error e => cases r' with
    | ok es => exact hr.elim
    | error e' =>
      dsimp only at hr
      subst hr
      refine ⟨?_, ?_, ?_⟩ <;> simp only [M.bind_error hm, T.bind_error ht]
      · exact ha
      · exact hfr
  | ok e => cases r' with
    | error e' => exact hr.elim
    | ok es =>
      dsimp only at hr
      obtain ⟨h1, h2, h3⟩ := hf e es s' τ' hm ht ha hfr
      have hi : errItems e s' = (.ok es, s') := by unfold errItems; rw [hr]
      refine ⟨?_, ?_, ?_⟩ <;> simp only [M.bind_ok hm, T.bind_ok ht, M.bind_ok hi]
      · exact h1
      · exact h2
      · exact hfr.trans h3

theorem RefE.items {m : M P Nat} {t : T P (List Err)} {f : List Err → M P β} {g : List Err → T P β}
    (h : RefE m t) (hf : ∀ es, Ref (f es) (g es)) :
    Ref (m >>= fun e => errItems e >>= f) (t >>= g) :=
  fun env τ s ha => (h env τ s ha).items (f := fun _ => f) fun _ es s' τ' _ _ ha' _ => hf es env τ' s' ha'

theorem Ref.tryCatch {m : M P α} {t : T P α} {f : Exc → M P α} {g : Exc → T P α} (h : Ref m t)
    (hf : ∀ e, Ref (f e) (g e)) : Ref (M.tryCatch m f) (T.tryCatch t g) := by
  intro env τ s ha
  obtain ⟨hr, ha, hfr⟩ := h env τ s ha
  rcases hm : m s with ⟨r, s'⟩
  rcases ht : t env τ with ⟨r', τ'⟩
  simp only [hm, ht] at hr ha hfr
  subst hr
  cases r with
  | ok a =>
    refine ⟨?_, ?_, ?_⟩ <;> simp only [M.tryCatch, T.tryCatch, hm, ht]
    · exact ha
    · exact hfr
  | error e =>
    obtain ⟨h1, h2, h3⟩ := hf e env τ' s' ha
    refine ⟨?_, ?_, ?_⟩ <;> simp only [M.tryCatch, T.tryCatch, hm, ht]
    · exact h1
    · exact h2
    · exact hfr.trans h3

theorem Ref.pure (a : α) : Ref (M.pure a : M P α) (T.pure a) :=
  fun _ _ s ha => ⟨rfl, ha, Fr.refl s⟩

theorem Ref.raise (e : Exc) : Ref (M.raise e : M P α) (T.raise e) :=
  fun _ _ s ha => ⟨rfl, ha, Fr.refl s⟩

theorem Ref.ofExcept (r : Except Exc α) : Ref (M.ofExcept r : M P α) (T.ofExcept r) :=
  fun _ _ s ha => ⟨rfl, ha, Fr.refl s⟩

/-! ## Reading the context -/

theorem Ref.ctxGet {proj : Frame → Option α} {proj' : Env → Option α}
    (h : ∀ env τ (s : St P), Agree env τ s → lookup proj s.stack = proj' env) (name : String) :
    Ref (Pilo.ctxGet proj name : M P α) (T.ctxGet proj' name) := by
  intro env τ s ha
  have h := h env τ s ha
  cases hp : proj' env with
  | none =>
    rw [hp] at h
    refine ⟨?_, ?_, ?_⟩ <;> simp only [Pilo.ctxGet, T.ctxGet, h, hp]
    · exact ha
    · exact Fr.refl s
  | some a =>
    rw [hp] at h
    refine ⟨?_, ?_, ?_⟩ <;> simp only [Pilo.ctxGet, T.ctxGet, h, hp]
    · exact ha
    · exact Fr.refl s

theorem Ref.ctxGet? {proj : Frame → Option α} {proj' : Env → Option α}
    (h : ∀ env τ (s : St P), Agree env τ s → lookup proj s.stack = proj' env) :
    Ref (Pilo.ctxGet? proj : M P _) (T.ctxGet? proj') := by
  intro env τ s ha
  refine ⟨?_, ha, Fr.refl s⟩
  simp only [Pilo.ctxGet?, T.ctxGet?, h env τ s ha]

theorem Ref.onPath (f : P → Except Exc α × P) : Ref (Pilo.onPath f) (T.onPath f) := by
  intro env τ s ha
  have hp := ha.path
  rcases hτ : τ.path with _ | _ | ⟨r, p⟩
  · rw [hτ] at hp
    refine ⟨?_, ?_, ?_⟩ <;> simp only [Pilo.onPath, T.onPath, hτ, show curPath s.stack = none from hp]
    · exact ha
    · exact Fr.refl s
  · rw [hτ] at hp
    refine ⟨?_, ?_, ?_⟩ <;>
      simp only [Pilo.onPath, T.onPath, hτ, show curPath s.stack = some none from hp]
    · exact ha
    · exact Fr.refl s
  · rw [hτ] at hp
    obtain ⟨hc, hr⟩ := hp
    have h1 := onPath_ok (f := f) hc hr
    have h2 : T.onPath f env τ = ((f p).1, { τ with path := some (some (r, (f p).2)) }) := by
      simp only [T.onPath, hτ]
    have hlt : r < s.paths.length := (List.getElem?_eq_some_iff.1 hr).1
    refine ⟨?_, ?_, ?_⟩ <;> simp only [h1, h2]
    · refine { ha with path := ⟨hc, ?_⟩, npaths := ?_, ids := ha.ids, errs := ha.errs }
      · simp [hlt]
      · simpa using ha.npaths
    · refine { Fr.refl s with plen := by simp, paths := ?_ }
      intro i hi hne
      rw [List.getElem?_set_ne]
      intro h
      subst h
      exact hne hc

/-! ## `with` blocks -/

theorem lookup_cons (proj : Frame → Option α) (f : Frame) (st : List Frame) :
    lookup proj (f :: st) = (proj f).or (lookup proj st) := by
  unfold lookup
  rw [List.findSome?_cons]
  cases proj f <;> rfl

theorem curPath_or (f : Frame) (st : List Frame) : curPath (f :: st) = (f.src.path?).or (curPath st) :=
  lookup_cons _ _ _

/-- What a frame without `src` does to the environment. -/
def Frame.env (f : Frame) (env : Env) : Env :=
  { src := env.src, form := f.form.or env.form, parent := f.parent.or env.parent,
    field := f.field.or env.field, tags := f.tags.or env.tags,
    ignoreDefault := f.ignoreDefault.or env.ignoreDefault,
    ignoreMissing := f.ignoreMissing.or env.ignoreMissing }

/-- The state with a frame on top agrees with the changed environment. -/
theorem Agree.push {env : Env} {τ : TSt P} {s : St P} (ha : Agree env τ s) (f : Frame) {τ' : TSt P}
    {s' : St P} {src : Option Bool} (hst : s'.stack = f :: s.stack) (hsrc : f.src.src?.or env.src = src)
    (hpath : PathAgree τ'.path s') (herrs : ErrAgree τ'.errs s') (hforms : s'.forms = τ'.forms)
    (hnp : s'.paths.length = τ'.npaths) (hfl : s.forms.length ≤ s'.forms.length)
    (hid : ∀ id, f.parent = some (.form id) → id < s'.forms.length) :
    Agree { f.env env with src := src } τ' s' where
  src := by rw [hst, lookup_cons, ha.src]; exact hsrc
  form := by rw [hst, lookup_cons, ha.form]; rfl
  parent := by rw [hst, lookup_cons, ha.parent]; rfl
  field := by rw [hst, lookup_cons, ha.field]; rfl
  tags := by rw [hst, lookup_cons, ha.tags]; rfl
  ignoreDefault := by rw [hst, lookup_cons, ha.ignoreDefault]; rfl
  ignoreMissing := by rw [hst, lookup_cons, ha.ignoreMissing]; rfl
  path := hpath
  errs := herrs
  forms := hforms
  npaths := hnp
  ids fr hfr id hp := by
    rw [hst] at hfr
    rcases List.mem_cons.1 hfr with rfl | hfr
    · exact hid id hp
    · exact Nat.lt_of_lt_of_le (ha.ids fr hfr id hp) hfl

/-- The state after leaving a block agrees with the old environment. -/
theorem Agree.back {env : Env} {τ : TSt P} {s : St P} (ha : Agree env τ s) {τ' : TSt P} {s' : St P}
    (hst : s'.stack = s.stack) (hpath : PathAgree τ'.path s') (herrs : ErrAgree τ'.errs s')
    (hforms : s'.forms = τ'.forms) (hnp : s'.paths.length = τ'.npaths)
    (hfl : s.forms.length ≤ s'.forms.length) : Agree env τ' s' where
  src := by rw [hst]; exact ha.src
  form := by rw [hst]; exact ha.form
  parent := by rw [hst]; exact ha.parent
  field := by rw [hst]; exact ha.field
  tags := by rw [hst]; exact ha.tags
  ignoreDefault := by rw [hst]; exact ha.ignoreDefault
  ignoreMissing := by rw [hst]; exact ha.ignoreMissing
  path := hpath
  errs := herrs
  forms := hforms
  npaths := hnp
  ids fr hfr id hp := by
    rw [hst] at hfr
    exact Nat.lt_of_lt_of_le (ha.ids fr hfr id hp) hfl

/-- Run a block: push a frame, run, take the frame off.  `s0` is `s` with new objects. -/
theorem framed {env env' : Env} {τ τ1 : TSt P} {s s0 s1 : St P} {f : Frame}
    (hpl : s.paths.length ≤ s0.paths.length)
    (hpx : ∀ i, i < s.paths.length → s0.paths[i]? = s.paths[i]?)
    (hel : s.errs.length ≤ s0.errs.length)
    (hex : ∀ i, i < s.errs.length → s0.errs[i]? = s.errs[i]?)
    (hfo : s0.forms = s.forms)
    (hp : ∀ r, f.src.path? = some (some r) → s.paths.length ≤ r)
    (he : ∀ e, f.errors = some e → s.errs.length ≤ e)
    (hs1 : Fr { s0 with stack := f :: s.stack } s1) (ha : Agree env τ s) (ha1 : Agree env' τ1 s1) :
    Fr s { s1 with stack := s.stack } ∧
    Agree env { τ1 with path := if f.src.path?.isSome then τ.path else τ1.path,
                        errs := if f.errors.isSome then τ.errs else τ1.errs }
      { s1 with stack := s.stack } := by
  have hst : s1.stack = f :: s.stack := hs1.stack
  have hpath : ∀ i, i < s.paths.length → curPath (f :: s.stack) ≠ some (some i) →
      s1.paths[i]? = s.paths[i]? := fun i hi hc => by
    rw [hs1.paths i (Nat.lt_of_lt_of_le hi hpl) hc]; exact hpx i hi
  have herrs : ∀ i, i < s.errs.length → lookup Frame.errors (f :: s.stack) ≠ some i →
      s1.errs[i]? = s.errs[i]? := fun i hi hc => by
    rw [hs1.errs i (Nat.lt_of_lt_of_le hi hel) hc]; exact hex i hi
  have hcp : ∀ i, i < s.paths.length → f.src.path?.isSome → curPath (f :: s.stack) ≠ some (some i) := by
    intro i hi hf hc
    rw [curPath_or] at hc
    cases hx : f.src.path? with
    | none => rw [hx] at hf; cases hf
    | some x =>
      rw [hx] at hc
      simp only [Option.some_or, Option.some.injEq] at hc
      subst hc
      exact absurd hi (Nat.not_lt.2 (hp i hx))
  have hce : ∀ i, i < s.errs.length → f.errors.isSome → lookup Frame.errors (f :: s.stack) ≠ some i := by
    intro i hi hf hc
    rw [lookup_cons] at hc
    cases hx : f.errors with
    | none => rw [hx] at hf; cases hf
    | some x =>
      rw [hx] at hc
      simp only [Option.some_or, Option.some.injEq] at hc
      subst hc
      exact absurd hi (Nat.not_lt.2 (he x hx))
  refine ⟨⟨rfl, Nat.le_trans hpl hs1.plen, ?_, Nat.le_trans hel hs1.elen, ?_, ?_⟩,
    ha.back rfl ?_ ?_ ha1.forms ha1.npaths ?_⟩
  · intro i hi hc
    refine hpath i hi ?_
    cases hx : f.src.path? with
    | none => rw [curPath_or, hx]; exact hc
    | some x => exact hcp i hi (by rw [hx]; rfl)
  · intro i hi hc
    refine herrs i hi ?_
    cases hx : f.errors with
    | none => rw [lookup_cons, hx]; exact hc
    | some x => exact hce i hi (by rw [hx]; rfl)
  · have := hs1.forms; rw [hfo] at this; exact this
  · cases hx : f.src.path? with
    | none =>
      have h1 := ha1.path
      simp only [Option.isSome, Bool.false_eq_true, if_false]
      unfold PathAgree at h1 ⊢
      rw [hst, curPath_or, hx, Option.none_or] at h1
      exact h1
    | some x =>
      have h0 := ha.path
      simp only [Option.isSome, if_true]
      unfold PathAgree at h0 ⊢
      split
      · simpa [*] using h0
      · simpa [*] using h0
      · rename_i r p hr
        rw [hr] at h0
        refine ⟨h0.1, ?_⟩
        have hlt : r < s.paths.length := (List.getElem?_eq_some_iff.1 h0.2).1
        show s1.paths[r]? = some p
        rw [hpath r hlt (hcp r hlt (by rw [hx]; rfl))]
        exact h0.2
  · cases hx : f.errors with
    | none =>
      have h1 := ha1.errs
      simp only [Option.isSome, Bool.false_eq_true, if_false]
      unfold ErrAgree at h1 ⊢
      rw [hst, lookup_cons, hx, Option.none_or] at h1
      exact h1
    | some x =>
      have h0 := ha.errs
      simp only [Option.isSome, if_true]
      unfold ErrAgree at h0 ⊢
      split
      · simpa [*] using h0
      · rename_i b hb
        rw [hb] at h0
        obtain ⟨e, h1, h2⟩ := h0
        refine ⟨e, h1, ?_⟩
        have hlt : e < s.errs.length := (List.getElem?_eq_some_iff.1 h2).1
        show s1.errs[e]? = some b
        rw [herrs e hlt (hce e hlt (by rw [hx]; rfl))]
        exact h2
  · have := hs1.forms; rw [hfo] at this; exact this

theorem withPush_run {I : PathOps P} {push : M P Unit} {f : Frame} {m : M P α} {s s0 s1 : St P}
    {r : Except Exc α} (hp : push s = (.ok (), { s0 with stack := f :: s.stack }))
    (hf : ∀ k, f.src ≠ .key k)
    (h : m { s0 with stack := f :: s.stack } = (r, s1)) (hst : s1.stack = f :: s.stack) :
    withPush I push m s = (r, { s1 with stack := s.stack }) := by
  unfold withPush
  rw [M.bind_ok hp]
  refine M.tryFinally_ok h ?_
  unfold restore
  rw [hst]
  cases hs : f.src with
  | key k => exact absurd hs (hf k)
  | _ => simp only [hs]

/-- A block binding variables other than `src` and `errors`. -/
theorem RefAt.vars {I : PathOps P} {f : Frame} {m : M P α} {t : T P α} {g : Env → Env} (h : Ref m t)
    (he : f.errors = none) (hg : ∀ env, g env = f.env env) {env τ} {s : St P}
    (hid : ∀ id, f.parent = some (.form id) → id < s.forms.length) (ha : Agree env τ s) :
    RefAt (withPush I (pushVars f) m) (T.withEnv g t) env τ s := by
  let f' : Frame := { f with src := .absent }
  let s0 : St P := { s with stack := f' :: s.stack }
  have ha0 : Agree (g env) τ s0 := by
    rw [hg]
    refine ha.push f' (s' := s0) rfl rfl ?_ ?_ ha.forms ha.npaths (Nat.le_refl _) hid
    · have := ha.path
      unfold PathAgree at this ⊢
      simpa [s0, f', curPath_or, FrameSrc.path?] using this
    · have := ha.errs
      unfold ErrAgree at this ⊢
      simpa [s0, f', lookup_cons, he] using this
  obtain ⟨hr, ha1, hfr⟩ := h (g env) τ s0 ha0
  rcases hm : m s0 with ⟨r, s1⟩
  rcases ht : t (g env) τ with ⟨r', τ1⟩
  simp only [hm, ht] at hr ha1 hfr
  subst hr
  have hrun : withPush I (pushVars f) m s = (r, { s1 with stack := s.stack }) :=
    withPush_run (s0 := s) (f := f') rfl (by simp [f']) hm hfr.stack
  have hT : T.withEnv g t env τ = (r, τ1) := ht
  obtain ⟨h1, h2⟩ := framed (s := s) (s0 := s) (f := f') (Nat.le_refl _) (fun _ _ => rfl) (Nat.le_refl _)
    (fun _ _ => rfl) rfl (by simp [f', FrameSrc.path?]) (by simp [f', he]) hfr ha ha1
  refine ⟨?_, ?_, ?_⟩ <;> simp only [hrun, hT]
  · simpa [f', FrameSrc.path?, he] using h2
  · exact h1

theorem Ref.vars {I : PathOps P} {f : Frame} {m : M P α} {t : T P α} {g : Env → Env} (h : Ref m t)
    (he : f.errors = none) (hg : ∀ env, g env = f.env env)
    (hid : ∀ id, f.parent ≠ some (.form id)) :
    Ref (withPush I (pushVars f) m) (T.withEnv g t) :=
  fun _ _ _ ha => RefAt.vars h he hg (fun id hp => absurd hp (hid id)) ha

theorem Ref.reset {I : PathOps P} {m : M P α} {t : T P α} (h : Ref m t) :
    Ref (withPush I pushReset m) (T.withReset t) := by
  intro env τ s ha
  let f' : Frame := { src := .cleared }
  let s0 : St P := { s with stack := f' :: s.stack }
  have ha0 : Agree { env with src := some false } { τ with path := some none } s0 := by
    refine ha.push f' (s' := s0) rfl rfl ?_ ?_ ha.forms ha.npaths (Nat.le_refl _) (by simp [f'])
    · simp [PathAgree, s0, f', curPath_or, FrameSrc.path?]
    · have := ha.errs
      unfold ErrAgree at this ⊢
      simpa [s0, f', lookup_cons] using this
  obtain ⟨hr, ha1, hfr⟩ := h _ _ s0 ha0
  rcases hm : m s0 with ⟨r, s1⟩
  rcases ht : t { env with src := some false } { τ with path := some none } with ⟨r', τ1⟩
  simp only [hm, ht] at hr ha1 hfr
  subst hr
  have hrun : withPush I pushReset m s = (r, { s1 with stack := s.stack }) :=
    withPush_run (s0 := s) (f := f') rfl (by simp [f']) hm hfr.stack
  have hT : T.withReset t env τ = (r, { τ1 with path := τ.path }) := by simp only [T.withReset, ht]
  obtain ⟨h1, h2⟩ := framed (s := s) (s0 := s) (f := f') (Nat.le_refl _) (fun _ _ => rfl) (Nat.le_refl _)
    (fun _ _ => rfl) rfl (by simp [f', FrameSrc.path?]) (by simp [f']) hfr ha ha1
  refine ⟨?_, ?_, ?_⟩ <;> simp only [hrun, hT]
  · simpa [f', FrameSrc.path?] using h2
  · exact h1

theorem Ref.key {I : PathOps P} {k : Val} {m : M P α} {t : T P α} (h : Ref m t) :
    Ref (withPush I (pushKey I k) m) (T.withKey I k t) := by
  intro env τ s ha
  obtain ⟨hr, ha1, hfr⟩ := Ref.onPath (pathAppend I k) env τ s ha
  rcases hm : Pilo.onPath (pathAppend I k) s with ⟨r, s1⟩
  rcases ht : T.onPath (pathAppend I k) env τ with ⟨r', τ1⟩
  simp only [hm, ht] at hr ha1 hfr
  subst hr
  cases r with
  | error e =>
    have hrun : withPush I (pushKey I k) m s = (.error e, s1) := by
      unfold withPush pushKey
      rw [M.bind_error (m := _ >>= _) (M.bind_error hm)]
    have hT : T.withKey I k t env τ = (.error e, τ1) := by simp only [T.withKey, ht]
    refine ⟨?_, ?_, ?_⟩ <;> simp only [hrun, hT]
    · exact ha1
    · exact hfr
  | ok _ =>
    let f' : Frame := { src := .key k }
    let s2 : St P := { s1 with stack := f' :: s1.stack }
    have ha2 : Agree { env with src := some (!k.isNull) } τ1 s2 := by
      refine ha1.push f' (s' := s2) rfl rfl ?_ ?_ ha1.forms ha1.npaths (Nat.le_refl _) (by simp [f'])
      · have := ha1.path
        unfold PathAgree at this ⊢
        simpa [s2, f', curPath_or, FrameSrc.path?] using this
      · have := ha1.errs
        unfold ErrAgree at this ⊢
        simpa [s2, f', lookup_cons] using this
    obtain ⟨hr3, ha3, hfr3⟩ := h _ _ s2 ha2
    rcases hm3 : m s2 with ⟨r3, s3⟩
    rcases ht3 : t { env with src := some (!k.isNull) } τ1 with ⟨r3', τ3⟩
    simp only [hm3, ht3] at hr3 ha3 hfr3
    subst hr3
    obtain ⟨hfr4, ha4⟩ := framed (s := s1) (s0 := s1) (f := f') (Nat.le_refl _) (fun _ _ => rfl)
      (Nat.le_refl _) (fun _ _ => rfl) rfl (by simp [f', FrameSrc.path?]) (by simp [f']) hfr3 ha1 ha3
    have ha4 : Agree env τ3 { s3 with stack := s1.stack } := by
      simpa [f', FrameSrc.path?] using ha4
    obtain ⟨hr5, ha5, hfr5⟩ := Ref.onPath (pathPop I) env τ3 _ ha4
    rcases hm5 : Pilo.onPath (pathPop I) { s3 with stack := s1.stack } with ⟨r5, s5⟩
    rcases ht5 : T.onPath (pathPop I) env τ3 with ⟨r5', τ5⟩
    simp only [hm5, ht5] at hr5 ha5 hfr5
    subst hr5
    have hpush : pushKey I k {} s = (.ok (), s2) := by
      unfold pushKey
      rw [M.bind_ok hm]; rfl
    have hres : restore I s3 = (r5, s5) := by
      unfold restore
      rw [show s3.stack = f' :: s1.stack from hfr3.stack]
      exact hm5
    have hrun : withPush I (pushKey I k) m s
        = (r5.bind fun _ => r3, s5) := by
      unfold withPush
      rw [M.bind_ok hpush]
      unfold M.tryFinally
      rw [hm3]
      simp only [hres]
      cases r5 <;> rfl
    have hT : T.withKey I k t env τ = (r5.bind fun _ => r3, τ5) := by
      simp only [T.withKey, ht, ht3, ht5]
      cases r5 <;> rfl
    refine ⟨?_, ?_, ?_⟩ <;> simp only [hrun, hT]
    · exact ha5
    · exact hfr.trans (hfr4.trans hfr5)

/-- A block binding a new error list, with other variables and possibly a new source. -/
theorem RefAt.source {I : PathOps P} {f : Frame} {mk : Except Exc P} {m : M P α} {t : T P α}
    {g : Env → Env} (h : Ref m t)
    (hg : ∀ env, g env = f.env env) (he : f.errors = none) {env τ} {s : St P}
    (hid : ∀ id, f.parent = some (.form id) → id < s.forms.length) (ha : Agree env τ s) :
    RefAt (withPush I (pushSource mk f) m) (T.withSource mk (T.withEnv g t)) env τ s := by
  cases mk with
  | error e =>
    have hrun : withPush I (pushSource (.error e) f) m s = (.error e, s) := rfl
    have hT : T.withSource (.error e) (T.withEnv g t) env τ = (.error e, τ) := rfl
    refine ⟨?_, ?_, ?_⟩ <;> simp only [hrun, hT]
    · exact ha
    · exact Fr.refl s
  | ok p =>
    let f' : Frame := { f with src := .source s.paths.length }
    let s0 : St P := { s with paths := s.paths ++ [p] }
    let s1 : St P := { s0 with stack := f' :: s.stack }
    let τ1 : TSt P := { τ with path := some (some (τ.npaths, p)), npaths := τ.npaths + 1 }
    have ha1 : Agree (g { env with src := some true }) τ1 s1 := by
      rw [hg]
      refine ha.push f' (s' := s1) rfl rfl ?_ ?_ ha.forms ?_ (Nat.le_refl _) hid
      · have hn := ha.npaths
        simp [PathAgree, s1, s0, f', τ1, curPath_or, FrameSrc.path?, ← hn]
      · have := ha.errs
        unfold ErrAgree at this ⊢
        simpa [s1, s0, f', τ1, lookup_cons, he] using this
      · simp [s1, s0, τ1, ha.npaths]
    obtain ⟨hr, ha2, hfr⟩ := h _ _ s1 ha1
    rcases hm : m s1 with ⟨r, s2⟩
    rcases ht : t (g { env with src := some true }) τ1 with ⟨r', τ2⟩
    simp only [hm, ht] at hr ha2 hfr
    subst hr
    have hrun : withPush I (pushSource (.ok p) f) m s = (r, { s2 with stack := s.stack }) :=
      withPush_run (s0 := s0) (f := f') rfl (by simp [f']) hm hfr.stack
    have hT : T.withSource (.ok p) (T.withEnv g t) env τ = (r, { τ2 with path := τ.path }) := by
      simp only [T.withSource, T.withEnv]
      rw [show t (g { env with src := some true })
        { τ with path := some (some (τ.npaths, p)), npaths := τ.npaths + 1 } = (r, τ2) from ht]
    obtain ⟨h1, h2⟩ := framed (s := s) (s0 := s0) (f := f') (by simp [s0])
      (fun i hi => by simp only [s0]; rw [List.getElem?_append_left hi]) (Nat.le_refl _)
      (fun _ _ => rfl) rfl (by simp [f', FrameSrc.path?]) (by simp [f', he]) hfr ha ha2
    refine ⟨?_, ?_, ?_⟩ <;> simp only [hrun, hT]
    · simpa [f', FrameSrc.path?, he] using h2
    · exact h1

theorem Ref.source {I : PathOps P} {mk : Except Exc P} {m : M P α} {t : T P α} (h : Ref m t) :
    Ref (withPush I (pushSource mk) m) (T.withSource mk t) :=
  fun _ _ _ ha => RefAt.source (g := id) h (fun _ => rfl) rfl (by simp) ha

/-- Run a block that binds a new error list, and possibly a new source. -/
theorem errs_run {I : PathOps P} {raising : Bool} {m : M P α} {t tb : T P α} {f : Frame}
    {push : Nat → M P Unit} {env env' : Env} {τ τ0 : TSt P} {s s0 : St P} (h : Ref m t)
    (ha : Agree env τ s)
    (hpush : push s.errs.length { s with errs := s.errs ++ [⟨raising, []⟩] }
      = (.ok (), { s0 with stack := f :: s.stack }))
    (hfk : ∀ k, f.src ≠ .key k)
    (hpl : s.paths.length ≤ s0.paths.length)
    (hpx : ∀ i, i < s.paths.length → s0.paths[i]? = s.paths[i]?)
    (her : s0.errs = s.errs ++ [⟨raising, []⟩])
    (hfo : s0.forms = s.forms)
    (hp : ∀ r, f.src.path? = some (some r) → s.paths.length ≤ r)
    (he : f.errors = some s.errs.length)
    (ha0 : Agree env' τ0 { s0 with stack := f :: s.stack })
    (htb : tb env { τ with errs := some ⟨raising, []⟩ } = ((t env' τ0).1,
      { (t env' τ0).2 with path := if f.src.path?.isSome then τ.path else (t env' τ0).2.path })) :
    ∃ r s' τ', (newErrs raising >>= fun e => withPush I (push e) m) s = (r, s') ∧
      T.withErrs raising tb env τ = ((match r with
        | .ok a => .ok (a, (s'.errs[s.errs.length]?).elim [] ErrBuf.items)
        | .error x => .error x), τ') ∧ Agree env τ' s' ∧ Fr s s' := by
  obtain ⟨hr, ha1, hfr⟩ := h _ _ _ ha0
  rcases hm : m { s0 with stack := f :: s.stack } with ⟨r, s1⟩
  rcases ht : t env' τ0 with ⟨r', τ1⟩
  simp only [hm, ht] at hr ha1 hfr htb
  subst hr
  obtain ⟨h1, h2⟩ := framed (s := s) (s0 := s0) (f := f) hpl hpx (by rw [her]; simp)
    (fun i hi => by rw [her, List.getElem?_append_left hi]) hfo hp
    (by intro e hee; rw [he] at hee; cases hee; exact Nat.le_refl _) hfr ha ha1
  rw [he] at h2
  refine ⟨r, _, _, ?_, ?_, h2, h1⟩
  · rw [M.bind_ok (m := newErrs raising) (a := s.errs.length)
      (s' := { s with errs := s.errs ++ [⟨raising, []⟩] }) rfl]
    exact withPush_run (s := { s with errs := s.errs ++ [⟨raising, []⟩] }) (s0 := s0) hpush hfk hm hfr.stack
  · unfold T.withErrs
    rw [htb]
    have hes : τ1.errs.elim [] ErrBuf.items = (s1.errs[s.errs.length]?).elim [] ErrBuf.items := by
      have h3 := ha1.errs
      unfold ErrAgree at h3
      rw [hfr.stack] at h3
      simp only [lookup_cons, he, Option.some_or] at h3
      split at h3
      · cases h3
      · rename_i b hb
        obtain ⟨e, h4, h5⟩ := h3
        cases h4
        rw [hb, h5]
    cases r with
    | ok a => simp [hes]
    | error x => simp

theorem errs_vars {I : PathOps P} {raising : Bool} {m : M P α} {t : T P α} (h : Ref m t)
    {env : Env} {τ : TSt P} {s : St P} (ha : Agree env τ s) :
    ∃ r s' τ', (newErrs raising >>= fun e => withPush I (pushVars { errors := some e }) m) s = (r, s') ∧
      T.withErrs raising t env τ = ((match r with
        | .ok a => .ok (a, (s'.errs[s.errs.length]?).elim [] ErrBuf.items)
        | .error x => .error x), τ') ∧ Agree env τ' s' ∧ Fr s s' := by
  let f : Frame := { errors := some s.errs.length }
  refine errs_run (f := f) (s0 := { s with errs := s.errs ++ [⟨raising, []⟩] }) (env' := env)
    (τ0 := { τ with errs := some ⟨raising, []⟩ }) h ha rfl (by simp [f]) (Nat.le_refl _)
    (fun _ _ => rfl) rfl rfl (by simp [f, FrameSrc.path?]) rfl ?_ ?_
  · refine ha.push f rfl rfl ?_ ?_ ha.forms ha.npaths (Nat.le_refl _) (by simp [f])
    · have := ha.path
      unfold PathAgree at this ⊢
      simpa [f, curPath_or, FrameSrc.path?] using this
    · simp [ErrAgree, f, lookup_cons]
  · simp [f, FrameSrc.path?]

theorem errs_source {I : PathOps P} {raising : Bool} {m : M P α} {t : T P α} {f : Frame} {mk : Except Exc P}
    {g : Env → Env} (h : Ref m t) {env : Env} {τ : TSt P} {s : St P} (ha : Agree env τ s)
    (hg : ∀ env, g env = f.env env) (hid : ∀ id, f.parent = some (.form id) → id < s.forms.length) :
    ∃ r s' τ', (newErrs raising >>= fun e => withPush I (pushSource mk { f with errors := some e }) m) s
        = (r, s') ∧
      T.withErrs raising (T.withSource mk (T.withEnv g t)) env τ = ((match r with
        | .ok a => .ok (a, (s'.errs[s.errs.length]?).elim [] ErrBuf.items)
        | .error x => .error x), τ') ∧ Agree env τ' s' ∧ Fr s s' := by
  cases mk with
  | error e =>
    refine ⟨.error e, _, _, rfl, rfl, ?_, ?_⟩
    · refine ha.back rfl ha.path ?_ ha.forms ha.npaths (Nat.le_refl _)
      have := ha.errs
      unfold ErrAgree at this ⊢
      simp only at this ⊢
      split
      · simpa [*] using this
      · rename_i b hb
        rw [hb] at this
        obtain ⟨e, h1, h2⟩ := this
        refine ⟨e, h1, ?_⟩
        rw [List.getElem?_append_left (List.getElem?_eq_some_iff.1 h2).1]
        exact h2
    · refine { Fr.refl s with elen := by simp, errs := ?_ }
      intro i hi _
      simp only
      rw [List.getElem?_append_left hi]
  | ok p =>
    let f' : Frame := { f with src := .source s.paths.length, errors := some s.errs.length }
    have hn := ha.npaths
    refine errs_run (f := f') (s0 := { s with errs := s.errs ++ [⟨raising, []⟩], paths := s.paths ++ [p] })
      (env' := g { env with src := some true })
      (τ0 := { τ with errs := some ⟨raising, []⟩, path := some (some (τ.npaths, p)),
                      npaths := τ.npaths + 1 }) h ha rfl (by simp [f']) (by simp)
      (fun i hi => by simp only; rw [List.getElem?_append_left hi]) rfl rfl
      (by simp [f', FrameSrc.path?]) rfl ?_ ?_
    · rw [hg]
      refine ha.push f' rfl rfl ?_ ?_ ha.forms ?_ (Nat.le_refl _) hid
      · simp [PathAgree, f', curPath_or, FrameSrc.path?, ← hn]
      · simp [ErrAgree, f', lookup_cons]
      · simp [hn]
    · simp [f', FrameSrc.path?, T.withSource, T.withEnv]

end Pilo
