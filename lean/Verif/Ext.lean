import Verif.Eval

/-!
# What every run preserves

`Inv`: the context stack and the path objects fit together: the keys pushed since a source frame are
the tail of that source's path.  `Ext s s'`: what holds between the states before and after any
operation of `pilo`: same stack, same keys of every path, error lists only extended.
-/

namespace Pilo

/-! ## Running step by step -/

section
variable {P α β : Type}

theorem M.bind_ok {m : M P α} {f : α → M P β} {s s' : St P} {a : α} (h : m s = (.ok a, s')) :
    (m >>= f) s = f a s' := by
  show M.bind m f s = _
  unfold M.bind
  rw [h]

theorem M.bind_error {m : M P α} {f : α → M P β} {s s' : St P} {e : Exc} (h : m s = (.error e, s')) :
    (m >>= f) s = (.error e, s') := by
  show M.bind m f s = _
  unfold M.bind
  rw [h]

theorem M.tryFinally_ok {m : M P α} {fin : M P Unit} {s s1 s2 : St P} {r : Except Exc α}
    (h : m s = (r, s1)) (h' : fin s1 = (.ok (), s2)) : M.tryFinally m fin s = (r, s2) := by
  unfold M.tryFinally
  rw [h]
  simp only [h']

theorem ctxGet_ok {proj : Frame → Option α} {name : String} {s : St P} {a : α}
    (h : lookup proj s.stack = some a) : ctxGet proj name s = (.ok a, s) := by
  unfold ctxGet
  rw [h]

theorem onPath_ok {f : P → Except Exc α × P} {s : St P} {r : Nat} {p : P}
    (hc : curPath s.stack = some (some r)) (hp : s.paths[r]? = some p) :
    onPath f s = ((f p).1, { s with paths := s.paths.set r (f p).2 }) := by
  unfold onPath
  simp only [hc, hp]

end

variable {P : Type} {I : PathOps P} (W : LawfulPath I)

/-- The path references bound in a stack, top first. -/
def srcRefs : List Frame → List Nat
  | [] => []
  | f :: fs => match f.src with
    | .source r => r :: srcRefs fs
    | _ => srcRefs fs

/-- Read the stack from the top, collecting the keys pushed (`acc`: those pushed above); at each source
frame they must be the tail of that source's path. -/
def SegOK (I : PathOps P) (paths : List P) : List Val → List Frame → Prop
  | acc, [] => acc = []
  | acc, f :: fs => match f.src with
    | .absent => SegOK I paths acc fs
    | .key k => SegOK I paths (k :: acc) fs
    | .source r => (∃ p, paths[r]? = some p ∧ acc <:+ I.keys p) ∧ SegOK I paths [] fs
    | .cleared => acc = [] ∧ SegOK I paths [] fs

/-- A context as `pilo` and `with` blocks produce it. -/
structure Inv (s : St P) : Prop where
  wf : ∀ p ∈ s.paths, W.WF p
  seg : SegOK I s.paths [] s.stack
  nodup : (srcRefs s.stack).Nodup
  root : ∃ f, s.stack.getLast? = some f ∧ f.src = .cleared

/-- What holds between the states before and after. -/
structure Ext (s s' : St P) : Prop where
  stack : s'.stack = s.stack
  paths : ∀ (r : Nat) (p : P), s.paths[r]? = some p → ∃ q, s'.paths[r]? = some q ∧ Same I W.WF W.shape p q
  wf : ∀ p ∈ s'.paths, W.WF p
  errs : ∀ (e : Nat) (b : ErrBuf), s.errs[e]? = some b →
    ∃ b', s'.errs[e]? = some b' ∧ b'.raising = b.raising ∧ b.items <+: b'.items
  forms : ∀ (i : Nat) (o : FormObj), s.forms[i]? = some o → ∃ o', s'.forms[i]? = some o' ∧ o'.cls = o.cls

theorem Same.trans {p q r : P} (h : Same I W.WF W.shape p q) (h' : Same I W.WF W.shape q r) :
    Same I W.WF W.shape p r :=
  ⟨h'.keys.trans h.keys, h'.wf, h'.shape.trans h.shape⟩

variable {W}

theorem Ext.refl {s : St P} (h : ∀ p ∈ s.paths, W.WF p) : Ext W s s where
  stack := rfl
  paths := fun _ p hp => ⟨p, hp, rfl, h p (List.mem_of_getElem? hp), rfl⟩
  wf := h
  errs := fun _ b hb => ⟨b, hb, rfl, List.prefix_refl _⟩
  forms := fun _ o ho => ⟨o, ho, rfl⟩

theorem Ext.trans {s s' s'' : St P} (h : Ext W s s') (h' : Ext W s' s'') : Ext W s s'' where
  stack := h'.stack.trans h.stack
  paths := fun r p hp =>
    have ⟨q, hq, hs⟩ := h.paths r p hp
    have ⟨q', hq', hs'⟩ := h'.paths r q hq
    ⟨q', hq', Same.trans W hs hs'⟩
  wf := h'.wf
  errs := fun e b hb =>
    have ⟨c, hc, hr, hi⟩ := h.errs e b hb
    have ⟨d, hd, hr', hi'⟩ := h'.errs e c hc
    ⟨d, hd, hr'.trans hr, hi.trans hi'⟩
  forms := fun i o ho =>
    have ⟨c, hc, hr⟩ := h.forms i o ho
    have ⟨d, hd, hr'⟩ := h'.forms i c hc
    ⟨d, hd, hr'.trans hr⟩

/-! ## `SegOK` -/

theorem SegOK.congr {paths paths' : List P} {stack : List Frame} :
    ∀ {acc : List Val}, (∀ (r : Nat) (p : P), r ∈ srcRefs stack → paths[r]? = some p →
      ∃ q, paths'[r]? = some q ∧ I.keys q = I.keys p) →
    SegOK I paths acc stack → SegOK I paths' acc stack := by
  induction stack with
  | nil => intro acc _ h; exact h
  | cons f fs ih =>
    intro acc hc h
    unfold SegOK at h ⊢
    unfold srcRefs at hc
    split <;> rename_i heq <;> simp only [heq] at h hc
    · exact ih hc h
    · exact ih hc h
    · rename_i r
      obtain ⟨⟨p, hp, hs⟩, h2⟩ := h
      refine ⟨?_, ih (fun r' p' hr' => hc r' p' (List.mem_cons_of_mem _ hr')) h2⟩
      obtain ⟨q, hq, hk⟩ := hc r p List.mem_cons_self hp
      exact ⟨q, hq, by rw [hk]; exact hs⟩
    · exact ⟨h.1, ih hc h.2⟩

theorem Ext.inv {s s' : St P} (h : Ext W s s') (hi : Inv W s) : Inv W s' where
  wf := h.wf
  seg := by
    rw [h.stack]
    refine SegOK.congr ?_ hi.seg
    intro r p _ hp
    obtain ⟨q, hq, hs⟩ := h.paths r p hp
    exact ⟨q, hq, hs.keys⟩
  nodup := by rw [h.stack]; exact hi.nodup
  root := by rw [h.stack]; exact hi.root

theorem curPath_cons (f : Frame) (fs : List Frame) :
    curPath (f :: fs) = match f.src with
      | .source r => some (some r)
      | .cleared => some none
      | _ => curPath fs := by
  unfold curPath lookup
  rw [List.findSome?_cons]
  cases f.src <;> rfl

theorem curPath_mem {stack : List Frame} {r : Nat} (h : curPath stack = some (some r)) :
    r ∈ srcRefs stack := by
  induction stack with
  | nil => simp [curPath, lookup] at h
  | cons f fs ih =>
    rw [curPath_cons] at h
    unfold srcRefs
    split at h <;> rename_i heq <;> simp_all

/-- The current path object exists and the keys pushed since are its tail. -/
theorem SegOK.cur {paths : List P} {stack : List Frame} {r : Nat} : ∀ {acc : List Val},
    SegOK I paths acc stack → curPath stack = some (some r) →
    ∃ p mid, paths[r]? = some p ∧ (mid ++ acc) <:+ I.keys p := by
  induction stack with
  | nil => intro acc _ hc; simp [curPath, lookup] at hc
  | cons f fs ih =>
    intro acc h hc
    rw [curPath_cons] at hc
    unfold SegOK at h
    split at h <;> rename_i heq <;> simp only [heq] at hc
    · exact ih h hc
    · rename_i k
      obtain ⟨p, mid, hp, hs⟩ := ih h hc
      exact ⟨p, mid ++ [k], hp, by simpa using hs⟩
    · obtain ⟨⟨p, hp, hs⟩, _⟩ := h
      simp only [Option.some.injEq] at hc
      subst hc
      exact ⟨p, [], hp, by simpa using hs⟩
    · simp at hc

theorem SegOK.cur_none {paths : List P} {stack : List Frame} : ∀ {acc : List Val},
    SegOK I paths acc stack → curPath stack = some none → acc = [] := by
  induction stack with
  | nil => intro acc _ hc; simp [curPath, lookup] at hc
  | cons f fs ih =>
    intro acc h hc
    rw [curPath_cons] at hc
    unfold SegOK at h
    split at h <;> rename_i heq <;> simp only [heq] at hc
    · exact ih h hc
    · have := ih h hc
      simp at this
    · simp at hc
    · exact h.1

theorem getElem?_set_same {α : Type} {xs : List α} {r : Nat} {p q : α} (h : xs[r]? = some p) :
    (xs.set r q)[r]? = some q := by
  have hr := (List.getElem?_eq_some_iff.1 h).1
  simp [hr]

theorem SegOK.set_other {paths : List P} {stack : List Frame} {r : Nat} {q : P} {acc : List Val}
    (hr : r ∉ srcRefs stack) (h : SegOK I paths acc stack) : SegOK I (paths.set r q) acc stack := by
  refine SegOK.congr ?_ h
  intro r' p hr' hp
  have : r ≠ r' := by intro he; subst he; exact hr hr'
  exact ⟨p, by rw [List.getElem?_set_ne this]; exact hp, rfl⟩

/-- Appending keys to the current path. -/
theorem SegOK.push {paths : List P} {stack : List Frame} {r : Nat} {p q : P} {ks : List Val}
    (hp : paths[r]? = some p) (hq : I.keys q = I.keys p ++ ks) : ∀ {acc : List Val},
    (srcRefs stack).Nodup → curPath stack = some (some r) →
    SegOK I paths acc stack → SegOK I (paths.set r q) (acc ++ ks) stack := by
  induction stack with
  | nil => intro acc _ hc; simp [curPath, lookup] at hc
  | cons f fs ih =>
    intro acc hn hc h
    rw [curPath_cons] at hc
    unfold SegOK at h ⊢
    unfold srcRefs at hn
    split <;> rename_i heq <;> simp only [heq] at hc h hn
    · exact ih hn hc h
    · have := ih hn hc h
      simpa using this
    · obtain ⟨⟨p', hp', hs⟩, h2⟩ := h
      simp only [Option.some.injEq] at hc
      subst hc
      rw [hp] at hp'
      cases hp'
      refine ⟨⟨q, getElem?_set_same hp, ?_⟩, SegOK.set_other (List.nodup_cons.1 hn).1 h2⟩
      rw [hq]
      obtain ⟨t, ht⟩ := hs
      exact ⟨t, by rw [← ht]; simp⟩
    · simp at hc

/-- Taking keys off the current path. -/
theorem SegOK.pop {paths : List P} {stack : List Frame} {r : Nat} {p q : P} {ks : List Val}
    (hp : paths[r]? = some p) (hq : I.keys p = I.keys q ++ ks) : ∀ {acc : List Val},
    (srcRefs stack).Nodup → curPath stack = some (some r) →
    SegOK I paths (acc ++ ks) stack → SegOK I (paths.set r q) acc stack := by
  induction stack with
  | nil => intro acc _ hc; simp [curPath, lookup] at hc
  | cons f fs ih =>
    intro acc hn hc h
    rw [curPath_cons] at hc
    unfold SegOK at h ⊢
    unfold srcRefs at hn
    split <;> rename_i heq <;> simp only [heq] at hc h hn
    · exact ih hn hc h
    · rename_i k
      exact ih (acc := k :: acc) hn hc h
    · obtain ⟨⟨p', hp', hs⟩, h2⟩ := h
      simp only [Option.some.injEq] at hc
      subst hc
      rw [hp] at hp'
      cases hp'
      refine ⟨⟨q, getElem?_set_same hp, ?_⟩, SegOK.set_other (List.nodup_cons.1 hn).1 h2⟩
      rw [hq] at hs
      obtain ⟨t, ht⟩ := hs
      exact ⟨t, List.append_cancel_right (by rw [← ht]; simp)⟩
    · simp at hc

/-- The keys a run of frames contributes below itself. -/
def segStep (f : Frame) (acc : List Val) : List Val :=
  match f.src with
  | .absent => acc
  | .key k => k :: acc
  | _ => []

theorem segKeys_step (f : Frame) (fs : List Frame) : segKeys (f :: fs) = segStep f (segKeys fs) := by
  rw [segKeys]
  unfold segStep
  split <;> rename_i heq <;> simp [heq]

theorem SegOK.drop {paths : List P} {rest : List Frame} (frames : List Frame) : ∀ {acc : List Val},
    SegOK I paths acc (frames ++ rest) →
    SegOK I paths (frames.foldl (fun a f => segStep f a) acc) rest := by
  induction frames with
  | nil => intro acc h; exact h
  | cons f fs ih =>
    intro acc h
    rw [List.foldl_cons]
    apply ih
    rw [List.cons_append] at h
    unfold SegOK at h
    unfold segStep
    split at h <;> rename_i heq <;> simp only [heq]
    · exact h
    · exact h
    · exact h.2
    · exact h.2

theorem foldl_segStep (frames : List Frame) :
    frames.foldl (fun a f => segStep f a) [] = segKeys frames.reverse := by
  have : ∀ fs : List Frame, segKeys fs = fs.foldr (fun f a => segStep f a) [] := by
    intro fs
    induction fs with
    | nil => rfl
    | cons f fs ih => rw [segKeys_step, ih]; rfl
  rw [this, List.foldr_reverse]

theorem srcRefs_append (a b : List Frame) : srcRefs (a ++ b) = srcRefs a ++ srcRefs b := by
  induction a with
  | nil => rfl
  | cons f fs ih =>
    rw [List.cons_append, srcRefs, srcRefs]
    split <;> simp [ih]

/-! ## Preservation -/

variable (W)

/-- From every well formed context the run ends in an extension, and its result satisfies `Q`. -/
def KeepsR {α : Type} (m : M P α) (Q : α → Prop) : Prop :=
  ∀ s, Inv W s → Ext W s (m s).2 ∧ ∀ a, (m s).1 = .ok a → Q a

/-- From every well formed context the run ends in an extension. -/
structure Keeps {α : Type} (m : M P α) : Prop where
  run : ∀ s, Inv W s → Ext W s (m s).2

variable {W}

theorem Keeps.toR {α : Type} {m : M P α} (h : Keeps W m) : KeepsR W m fun _ => True :=
  fun s hs => ⟨h.run s hs, fun _ _ => trivial⟩

theorem KeepsR.toK {α : Type} {m : M P α} {Q : α → Prop} (h : KeepsR W m Q) : Keeps W m :=
  ⟨fun s hs => (h s hs).1⟩

theorem KeepsR.bind {α β : Type} {m : M P α} {f : α → M P β} {Q : α → Prop} {R : β → Prop}
    (h : KeepsR W m Q) (hf : ∀ a, Q a → KeepsR W (f a) R) : KeepsR W (m >>= f) R := by
  intro s hs
  show Ext W s (M.bind m f s).2 ∧ ∀ a, (M.bind m f s).1 = .ok a → R a
  have h1 := h s hs
  unfold M.bind
  split
  · rename_i a s' heq
    rw [heq] at h1
    have h2 := hf a (h1.2 a rfl) s' (h1.1.inv hs)
    exact ⟨h1.1.trans h2.1, h2.2⟩
  · rename_i e s' heq
    rw [heq] at h1
    exact ⟨h1.1, fun a ha => by simp at ha⟩

theorem Keeps.bindR {α β : Type} {m : M P α} {f : α → M P β} {Q : α → Prop}
    (h : KeepsR W m Q) (hf : ∀ a, Q a → Keeps W (f a)) : Keeps W (m >>= f) :=
  (KeepsR.bind h fun a ha => (hf a ha).toR).toK

theorem Keeps.bind {α β : Type} {m : M P α} {f : α → M P β}
    (h : Keeps W m) (hf : ∀ a, Keeps W (f a)) : Keeps W (m >>= f) :=
  (KeepsR.bind h.toR fun a _ => (hf a).toR).toK

theorem Keeps.bind' {α β : Type} {m : M P α} {f : α → M P β}
    (h : Keeps W m) (hf : ∀ a, Keeps W (f a)) : Keeps W (M.bind m f) := Keeps.bind h hf

theorem Keeps.pure {α : Type} (a : α) : Keeps W (M.pure a : M P α) := ⟨fun _ hs => Ext.refl hs.wf⟩

theorem Keeps.pure' {α : Type} (a : α) : Keeps W (Pure.pure a : M P α) := ⟨fun _ hs => Ext.refl hs.wf⟩

theorem Keeps.raise {α : Type} (e : Exc) : Keeps W (M.raise e : M P α) := ⟨fun _ hs => Ext.refl hs.wf⟩

theorem Keeps.ofExcept {α : Type} (r : Except Exc α) : Keeps W (M.ofExcept r : M P α) :=
  ⟨fun _ hs => Ext.refl hs.wf⟩

theorem Keeps.get : Keeps W (M.get : M P _) := ⟨fun _ hs => Ext.refl hs.wf⟩

theorem Keeps.ctxGet {α : Type} (proj : Frame → Option α) (name : String) :
    Keeps W (ctxGet proj name : M P α) := by
  refine ⟨fun s hs => ?_⟩
  unfold Pilo.ctxGet
  split <;> exact Ext.refl hs.wf

theorem Keeps.ctxGet? {α : Type} (proj : Frame → Option α) :
    Keeps W (ctxGet? proj : M P (Option α)) := ⟨fun _ hs => Ext.refl hs.wf⟩

theorem Keeps.tryCatch {α : Type} {m : M P α} {h : Exc → M P α} (hm : Keeps W m)
    (hh : ∀ e, Keeps W (h e)) : Keeps W (M.tryCatch m h) := by
  refine ⟨fun s hs => ?_⟩
  have h1 := hm.run s hs
  unfold M.tryCatch
  split
  · rename_i heq; rw [heq] at h1; exact h1
  · rename_i e s' heq
    rw [heq] at h1
    exact h1.trans ((hh e).run s' (h1.inv hs))

/-- Replacing a path object by one with the same keys. -/
theorem Ext.setPath {s : St P} (hs : ∀ p ∈ s.paths, W.WF p) {r : Nat} {p q : P}
    (hp : s.paths[r]? = some p) (h : Same I W.WF W.shape p q) :
    Ext W s { s with paths := s.paths.set r q } where
  stack := rfl
  paths := by
    intro r' p' hp'
    by_cases hr : r = r'
    · subst hr
      rw [hp] at hp'
      cases hp'
      exact ⟨q, getElem?_set_same hp, h⟩
    · exact ⟨p', by rw [List.getElem?_set_ne hr]; exact hp', rfl, hs p' (List.mem_of_getElem? hp'), rfl⟩
  wf := by
    intro p' hp'
    rcases List.mem_or_eq_of_mem_set hp' with h1 | h1
    · exact hs p' h1
    · rw [h1]; exact h.wf
  errs := fun _ b hb => ⟨b, hb, rfl, List.prefix_refl _⟩
  forms := fun _ o ho => ⟨o, ho, rfl⟩

theorem Keeps.onPathR {α : Type} {f : P → Except Exc α × P} {Q : α → Prop}
    (hf : ∀ p, W.WF p → Same I W.WF W.shape p (f p).2 ∧ ∀ a, (f p).1 = .ok a → Q a) :
    KeepsR W (onPath f) Q := by
  intro s hs
  unfold onPath
  split
  · exact ⟨Ext.refl hs.wf, fun a ha => by simp at ha⟩
  · exact ⟨Ext.refl hs.wf, fun a ha => by simp at ha⟩
  · rename_i r hc
    split
    · exact ⟨Ext.refl hs.wf, fun a ha => by simp at ha⟩
    · rename_i p hp
      have := hf p (hs.wf p (List.mem_of_getElem? hp))
      exact ⟨Ext.setPath hs.wf hp this.1, this.2⟩

theorem Keeps.onPath {α : Type} {f : P → Except Exc α × P}
    (hf : ∀ p, W.WF p → Same I W.WF W.shape p (f p).2) : Keeps W (onPath f) :=
  (Keeps.onPathR (Q := fun _ => True) fun p hp => ⟨hf p hp, fun _ _ => trivial⟩).toK

/-- A pure read of the path object. -/
theorem Keeps.onPathPure {α : Type} (f : P → Except Exc α) : Keeps W (Pilo.onPath fun p => (f p, p)) :=
  Keeps.onPath fun _ hp => ⟨rfl, hp, rfl⟩

/-! ### Pushing and restoring -/

variable (W)

/-- A push either fails and leaves an extension, or leaves a well formed context from which, whatever
happens, `restore` gets back. -/
def PushOK (push : M P Unit) : Prop := ∀ s, Inv W s →
  match push s with
  | (.error _, s') => Ext W s s'
  | (.ok _, s1) => Inv W s1 ∧ ∀ s2, Ext W s1 s2 → (restore I s2).1 = .ok () ∧ Ext W s (restore I s2).2

variable {W}

theorem Keeps.withPush {α : Type} {push : M P Unit} {body : M P α} (hp : PushOK W push)
    (hb : Keeps W body) : Keeps W (withPush I push body) := by
  refine ⟨fun s hs => ?_⟩
  have h1 := hp s hs
  show Ext W s (M.bind push (fun _ => M.tryFinally body (restore I)) s).2
  unfold M.bind
  split
  · rename_i u s1 heq
    rw [heq] at h1
    have h2 := hb.run s1 h1.1
    simp only [M.tryFinally]
    cases hbody : body s1 with
    | mk r s2 =>
      rw [hbody] at h2
      have h3 := (h1.2 s2 h2).2
      simp only
      split <;> (rename_i heq3; rw [heq3] at h3; exact h3)
  · rename_i e s' heq
    rw [heq] at h1
    exact h1

theorem Inv.cons {s : St P} (hs : Inv W s) {f : Frame} (h : f.src = .absent ∨ f.src = .cleared) :
    Inv W { s with stack := f :: s.stack } where
  wf := hs.wf
  seg := by
    show SegOK I s.paths [] (f :: s.stack)
    unfold SegOK
    rcases h with h | h <;> simp only [h]
    · exact hs.seg
    · exact ⟨trivial, hs.seg⟩
  nodup := by
    show (srcRefs (f :: s.stack)).Nodup
    unfold srcRefs
    rcases h with h | h <;> simp only [h] <;> exact hs.nodup
  root := by
    obtain ⟨g, hg, hgs⟩ := hs.root
    refine ⟨g, ?_, hgs⟩
    show (f :: s.stack).getLast? = some g
    rw [List.getLast?_cons, hg]; rfl

/-- Drop the top frame of an extension. -/
theorem Ext.unstack {s s1 s2 : St P} (h : Ext W s1 s2) {paths : List P}
    (hp : ∀ (r : Nat) (p : P), s.paths[r]? = some p → ∃ q, paths[r]? = some q ∧ Same I W.WF W.shape p q)
    (hw : ∀ p ∈ paths, W.WF p) (he : s1.errs = s.errs) (hf : s1.forms = s.forms) :
    Ext W s { s2 with stack := s.stack, paths := paths } where
  stack := rfl
  paths := hp
  wf := hw
  errs := by rw [← he]; exact h.errs
  forms := by rw [← hf]; exact h.forms

theorem restore_plain {s2 : St P} {f : Frame} {rest : List Frame} (h : s2.stack = f :: rest)
    (hf : ∀ k, f.src ≠ .key k) : restore I s2 = (.ok (), { s2 with stack := rest }) := by
  unfold restore
  rw [h]
  cases hs : f.src with
  | key k => exact absurd hs (hf k)
  | _ => simp [hs]

theorem PushOK.plain {f : Frame} (h : f.src = .absent ∨ f.src = .cleared) :
    PushOK W (stackAppend f : M P Unit) := by
  intro s hs
  refine ⟨hs.cons h, ?_⟩
  intro s2 h2
  rw [restore_plain (h2.stack) (by intro k; rcases h with h | h <;> rw [h] <;> simp)]
  exact ⟨rfl, Ext.unstack h2 h2.paths h2.wf rfl rfl⟩

theorem PushOK.vars (f : Frame) : PushOK W (pushVars f : M P Unit) := PushOK.plain (Or.inl rfl)

theorem PushOK.reset : PushOK W (pushReset : M P Unit) := PushOK.plain (Or.inr rfl)

theorem SegOK.lt {paths : List P} {stack : List Frame} : ∀ {acc : List Val}, SegOK I paths acc stack →
    ∀ r ∈ srcRefs stack, r < paths.length := by
  induction stack with
  | nil => intro acc _ r hr; simp [srcRefs] at hr
  | cons f fs ih =>
    intro acc h r hr
    unfold SegOK at h
    unfold srcRefs at hr
    split at h <;> rename_i heq <;> simp only [heq] at hr
    · exact ih h r hr
    · exact ih h r hr
    · obtain ⟨⟨p, hp, _⟩, h2⟩ := h
      rcases List.mem_cons.1 hr with rfl | hr
      · exact (List.getElem?_eq_some_iff.1 hp).1
      · exact ih h2 r hr
    · exact ih h.2 r hr

theorem PushOK.source {mk : Except Exc P} {f : Frame} (h : ∀ p, mk = .ok p → W.WF p) :
    PushOK W (pushSource mk f : M P Unit) := by
  intro s hs
  cases mk with
  | error e => exact Ext.refl hs.wf
  | ok p =>
    have hw : ∀ q ∈ s.paths ++ [p], W.WF q := by
      intro q hq
      rcases List.mem_append.1 hq with hq | hq
      · exact hs.wf q hq
      · simp only [List.mem_singleton] at hq; rw [hq]; exact h p rfl
    have hold : ∀ (r : Nat) (q : P), s.paths[r]? = some q → (s.paths ++ [p])[r]? = some q := by
      intro r q hq
      rw [List.getElem?_append_left (List.getElem?_eq_some_iff.1 hq).1]; exact hq
    let s1 : St P := { s with paths := s.paths ++ [p],
                              stack := { f with src := .source s.paths.length } :: s.stack }
    have hi : Inv W s1 := by
      refine ⟨hw, ?_, ?_, ?_⟩
      · refine ⟨⟨p, by simp [s1], List.nil_suffix⟩, ?_⟩
        refine SegOK.congr ?_ hs.seg
        intro r q _ hq
        exact ⟨q, hold r q hq, rfl⟩
      · show (s.paths.length :: srcRefs s.stack).Nodup
        rw [List.nodup_cons]
        refine ⟨?_, hs.nodup⟩
        intro hm
        have := SegOK.lt hs.seg _ hm
        omega
      · obtain ⟨g, hg, hgs⟩ := hs.root
        refine ⟨g, ?_, hgs⟩
        show (_ :: s.stack).getLast? = some g
        rw [List.getLast?_cons, hg]; rfl
    refine ⟨hi, ?_⟩
    intro s2 h2
    rw [restore_plain (h2.stack) (by intro k; simp)]
    refine ⟨rfl, Ext.unstack (s1 := s1) h2 ?_ h2.wf rfl rfl⟩
    intro r q hq
    exact h2.paths r q (hold r q hq)

theorem PushOK.key (k : Val) (f : Frame) : PushOK W (pushKey I k f : M P Unit) := by
  intro s hs
  have hfail : ∀ e s', onPath (pathAppend I k) s = (.error e, s') →
      pushKey I k f s = (.error e, s') := fun e s' h => M.bind_error h
  cases hc : curPath s.stack with
  | none =>
    rw [hfail (noCtxAttr "src_path") s (by unfold onPath; rw [hc])]
    exact Ext.refl hs.wf
  | some c =>
    cases c with
    | none =>
      rw [hfail _ s (by unfold onPath; rw [hc])]
      exact Ext.refl hs.wf
    | some r =>
      cases hp : s.paths[r]? with
      | none =>
        rw [hfail _ s (by unfold onPath; simp only [hc, hp]; rfl)]
        exact Ext.refl hs.wf
      | some p =>
        have hwp := hs.wf p (List.mem_of_getElem? hp)
        have hon := onPath_ok (f := pathAppend I k) hc hp
        cases ha : I.append p k with
        | error e =>
          have h1 : pathAppend I k p = (.error e, p) := by unfold pathAppend; rw [ha]
          rw [h1] at hon
          rw [hfail _ _ hon]
          exact Ext.setPath hs.wf hp ⟨rfl, hwp, rfl⟩
        | ok q =>
          obtain ⟨hk, hwq⟩ := W.append_keys hwp ha
          have hsh := W.append_shape hwp ha
          have h1 : pathAppend I k p = (.ok (), q) := by unfold pathAppend; rw [ha]
          rw [h1] at hon
          have hpush : pushKey I k f s = (.ok (), { s with
              paths := s.paths.set r q, stack := { f with src := .key k } :: s.stack }) :=
            M.bind_ok hon
          rw [hpush]
          refine ⟨⟨?_, ?_, ?_, ?_⟩, ?_⟩
          · intro p' hp'
            rcases List.mem_or_eq_of_mem_set hp' with h1 | h1
            · exact hs.wf p' h1
            · rw [h1]; exact hwq
          · exact SegOK.push (acc := []) hp hk hs.nodup hc hs.seg
          · exact hs.nodup
          · obtain ⟨g, hg, hgs⟩ := hs.root
            refine ⟨g, ?_, hgs⟩
            show (_ :: s.stack).getLast? = some g
            rw [List.getLast?_cons, hg]; rfl
          · intro s2 h2
            obtain ⟨q2, hq2, hsame⟩ := h2.paths r q (getElem?_set_same hp)
            obtain ⟨q3, hpop, hk3, hw3, hs3⟩ := W.pop_keys hsame.wf (hsame.keys.trans hk)
            have hst : s2.stack = { f with src := .key k } :: s.stack := h2.stack
            have hres : restore I s2 =
                (.ok (), { s2 with stack := s.stack, paths := s2.paths.set r q3 }) := by
              unfold restore
              rw [hst]
              simp only [onPath, hc, hq2, pathPop, hpop]
            rw [hres]
            refine ⟨rfl, Ext.unstack h2 ?_ ?_ rfl rfl⟩
            · intro r' p' hp'
              by_cases hr : r = r'
              · subst hr
                rw [hp] at hp'
                cases hp'
                exact ⟨q3, getElem?_set_same hq2, hk3, hw3, hs3.trans (hsame.shape.trans hsh)⟩
              · have := h2.paths r' p' (by
                  show (s.paths.set r q)[r']? = some p'
                  rw [List.getElem?_set_ne hr]; exact hp')
                rw [List.getElem?_set_ne hr]
                exact this
            · intro p' hp'
              rcases List.mem_or_eq_of_mem_set hp' with h1 | h1
              · exact h2.wf p' h1
              · rw [h1]; exact hw3

/-! ### Rewinding -/

/-- A path with some keys taken off exists. -/
theorem exists_prefix : ∀ (n : Nat) (ks base : List Val) (p : P), ks.length = n → W.WF p →
    I.keys p = base ++ ks → ∃ q, W.WF q ∧ I.keys q = base ∧ W.shape q = W.shape p := by
  intro n
  induction n with
  | zero =>
    intro ks base p hl hw hk
    have : ks = [] := List.length_eq_zero_iff.1 hl
    subst this
    exact ⟨p, hw, by simpa using hk, rfl⟩
  | succ n ih =>
    intro ks base p hl hw hk
    have hne : ks ≠ [] := by intro h; subst h; simp at hl
    rw [← List.dropLast_concat_getLast hne, ← List.append_assoc] at hk
    obtain ⟨q, _, hq, hwq, hsq⟩ := W.pop_keys hw hk
    obtain ⟨q', h1, h2, h3⟩ := ih ks.dropLast base q (by simp [hl]) hwq hq
    exact ⟨q', h1, h2, h3.trans hsq⟩

/-- Popping the pushed keys off the current path. -/
theorem repeatPop {r : Nat} : ∀ (n : Nat) (ks base : List Val) (s : St P) (p : P), ks.length = n →
    curPath s.stack = some (some r) → s.paths[r]? = some p → W.WF p → I.keys p = base ++ ks →
    ∃ q, repeatM (onPath (pathPop I)) n s = (.ok (), { s with paths := s.paths.set r q })
      ∧ W.WF q ∧ I.keys q = base ∧ W.shape q = W.shape p := by
  intro n
  induction n with
  | zero =>
    intro ks base s p hl _ hp hw hk
    have : ks = [] := List.length_eq_zero_iff.1 hl
    subst this
    refine ⟨p, ?_, hw, by simpa using hk, rfl⟩
    have : s.paths.set r p = s.paths := by
      apply List.ext_getElem?
      intro i
      by_cases hr : r = i
      · subst hr; rw [getElem?_set_same hp, hp]
      · rw [List.getElem?_set_ne hr]
    rw [this]
    rfl
  | succ n ih =>
    intro ks base s p hl hc hp hw hk
    have hne : ks ≠ [] := by intro h; subst h; simp at hl
    have hk' := hk
    rw [← List.dropLast_concat_getLast hne, ← List.append_assoc] at hk'
    obtain ⟨q, hpop, hq, hwq, hsq⟩ := W.pop_keys hw hk'
    have hstep : onPath (pathPop I) s = (.ok (), { s with paths := s.paths.set r q }) := by
      rw [onPath_ok hc hp]
      simp only [pathPop, hpop]
    obtain ⟨q', h1, h2, h3, h4⟩ := ih ks.dropLast base { s with paths := s.paths.set r q } q
      (by simp [hl]) hc (getElem?_set_same hp) hwq hq
    refine ⟨q', ?_, h2, h3, h4.trans hsq⟩
    show M.bind (onPath (pathPop I)) (fun _ => repeatM (onPath (pathPop I)) n) s = _
    unfold M.bind
    rw [hstep]
    simpa only [List.set_set] using h1

/-- Putting them back. -/
theorem appendKeys_ok {r : Nat} : ∀ (ks base : List Val) (s : St P) (p w : P),
    curPath s.stack = some (some r) → s.paths[r]? = some p → W.WF p → I.keys p = base →
    W.WF w → I.keys w = base ++ ks → W.shape p = W.shape w →
    ∃ q, appendKeys I ks s = (.ok (), { s with paths := s.paths.set r q })
      ∧ W.WF q ∧ I.keys q = base ++ ks ∧ W.shape q = W.shape p := by
  intro ks
  induction ks with
  | nil =>
    intro base s p w _ hp hw hk _ _ _
    refine ⟨p, ?_, hw, by simpa using hk, rfl⟩
    have : s.paths.set r p = s.paths := by
      apply List.ext_getElem?
      intro i
      by_cases hr : r = i
      · subst hr; rw [getElem?_set_same hp, hp]
      · rw [List.getElem?_set_ne hr]
    rw [this]
    rfl
  | cons k ks ih =>
    intro base s p w hc hp hwp hk hww hkw hsh
    obtain ⟨w', hw', hkw', hsw'⟩ := exists_prefix ks.length ks (base ++ [k]) w rfl hww (by simpa using hkw)
    obtain ⟨q, hq⟩ := W.append_back hw' hwp hkw' hk (hsh.trans hsw'.symm)
    obtain ⟨hkq, hwq⟩ := W.append_keys hwp hq
    have hsq := W.append_shape hwp hq
    have hstep : onPath (pathAppend I k) s = (.ok (), { s with paths := s.paths.set r q }) := by
      rw [onPath_ok hc hp]
      simp only [pathAppend, hq]
    obtain ⟨q', h1, h2, h3, h4⟩ := ih (base ++ [k]) { s with paths := s.paths.set r q } q w hc
      (getElem?_set_same hp) hwq (by rw [hkq, hk]) hww (by simpa using hkw) (hsq.trans hsh)
    refine ⟨q', ?_, h2, by simpa using h3, h4.trans hsq⟩
    show M.bind (onPath (pathAppend I k)) (fun _ => appendKeys I ks) s = _
    unfold M.bind
    rw [hstep]
    simpa only [List.set_set] using h1

/-- A stack whose bottom frame is cleared has a current path binding. -/
theorem curPath_of_root {stack : List Frame} (h : ∃ f, stack.getLast? = some f ∧ f.src = .cleared) :
    ∃ c, curPath stack = some c := by
  induction stack with
  | nil => simp at h
  | cons f fs ih =>
    rw [curPath_cons]
    obtain ⟨g, hg, hgs⟩ := h
    cases fs with
    | nil =>
      simp at hg
      subst hg
      simp [hgs]
    | cons f' fs =>
      obtain ⟨c, hc⟩ := ih ⟨g, by simpa using hg, hgs⟩
      split
      · exact ⟨_, rfl⟩
      · exact ⟨_, rfl⟩
      · exact ⟨c, hc⟩

/-- The two halves of a rewind: what the body sees, and that restoring gets back. -/
theorem rewind_spec {s : St P} (hs : Inv W s) {stop : Frame → Bool} {i : Nat}
    (hi : s.stack.findIdx? stop = some i) (h0 : i ≠ 0) :
    ∃ s1, rewind I stop s = (.ok (s.stack.take i), s1) ∧ s1.stack = s.stack.drop i ∧ Inv W s1 ∧
      s1.errs = s.errs ∧ s1.forms = s.forms ∧
      (∀ (r : Nat) (p : P), s.paths[r]? = some p → ∃ q, s1.paths[r]? = some q ∧ I.keys p = I.keys q ++
        if curPath (s.stack.drop i) = some (some r) then segKeys (s.stack.take i).reverse else []) ∧
      ∀ s2, Ext W s1 s2 → ∃ s3, restoreFrames I (s.stack.take i) s2 = (.ok (), s3) ∧ Ext W s s3 := by
  have hlt : i < s.stack.length := (List.findIdx?_eq_some_iff_getElem.1 hi).1
  have hsplit : s.stack.take i ++ s.stack.drop i = s.stack := List.take_append_drop i s.stack
  generalize hfr : s.stack.take i = frames at *
  generalize hre : s.stack.drop i = rest at *
  have hne : frames ≠ [] := by
    intro h
    rw [← hfr] at h
    have : (s.stack.take i).length = 0 := by rw [h]; rfl
    rw [List.length_take] at this
    omega
  have hrne : rest ≠ [] := by
    intro h
    rw [← hre] at h
    have : (s.stack.drop i).length = 0 := by rw [h]; rfl
    rw [List.length_drop] at this
    omega
  have hroot : ∃ f, rest.getLast? = some f ∧ f.src = .cleared := by
    obtain ⟨g, hg, hgs⟩ := hs.root
    refine ⟨g, ?_, hgs⟩
    rw [← hsplit, List.getLast?_append] at hg
    cases hl : rest.getLast? with
    | none => exact absurd (List.getLast?_eq_none_iff.1 hl) hrne
    | some x => rw [hl] at hg; simpa using hg
  have hnodup : (srcRefs rest).Nodup := by
    have := hs.nodup
    rw [← hsplit, srcRefs_append] at this
    exact (List.nodup_append.1 this).2.1
  have hseg : SegOK I s.paths (segKeys frames.reverse) rest := by
    have h := hs.seg
    rw [← hsplit] at h
    have := SegOK.drop frames h
    rwa [foldl_segStep] at this
  obtain ⟨c, hc⟩ := curPath_of_root hroot
  have hrw : rewind I stop s = (do
      whenSrcPath (repeatM (onPath (pathPop I)) (segKeys frames.reverse).length)
      M.pure frames : M P _) { s with stack := rest } := by
    unfold rewind
    rw [hi]
    simp only [h0, if_false, hfr, hre]
  cases c with
  | none =>
    have hks : segKeys frames.reverse = [] := SegOK.cur_none hseg hc
    rw [hks] at hseg
    refine ⟨{ s with stack := rest }, ?_, rfl, ⟨hs.wf, hseg, hnodup, hroot⟩, rfl, rfl,
      fun r p hp => ⟨p, hp, by simp [hc]⟩, ?_⟩
    · rw [hrw]
      refine M.bind_ok (a := ()) (s' := { s with stack := rest }) ?_
      unfold whenSrcPath
      rw [M.bind_ok (ctxGet_ok (s := { s with stack := rest }) (a := none) hc)]
      rfl
    · intro s2 h2
      refine ⟨{ s2 with stack := frames ++ s2.stack }, ?_, ?_⟩
      · unfold restoreFrames
        have : frames.isEmpty = false := by cases frames <;> simp_all
        simp only [this]
        refine (M.bind_ok (a := ()) (s' := s2) ?_).trans rfl
        unfold whenSrcPath
        rw [M.bind_ok (ctxGet_ok (a := none) (by rw [h2.stack]; exact hc))]
        rfl
      · have := h2.stack
        rw [this]
        show Ext W s { s2 with stack := frames ++ rest }
        rw [hsplit]
        exact Ext.unstack h2 h2.paths h2.wf rfl rfl
  | some r =>
    obtain ⟨p, mid, hp, base, hb⟩ := SegOK.cur hseg hc
    have hwp := hs.wf p (List.mem_of_getElem? hp)
    obtain ⟨q, hq1, hwq, hkq, hsq⟩ := repeatPop (r := r) _ (segKeys frames.reverse) (base ++ mid)
      { s with stack := rest } p rfl hc hp hwp (by rw [← hb]; simp)
    refine ⟨{ s with stack := rest, paths := s.paths.set r q }, ?_, rfl, ⟨?_, ?_, hnodup, hroot⟩,
      rfl, rfl, ?_, ?_⟩
    · rw [hrw]
      refine M.bind_ok (a := ()) (s' := { s with stack := rest, paths := s.paths.set r q }) ?_
      unfold whenSrcPath
      rw [M.bind_ok (ctxGet_ok (s := { s with stack := rest }) (a := some r) hc)]
      exact hq1
    · intro p' hp'
      rcases List.mem_or_eq_of_mem_set hp' with h1 | h1
      · exact hs.wf p' h1
      · rw [h1]; exact hwq
    · exact SegOK.pop (acc := []) hp (by rw [hkq, ← hb]; simp) hnodup hc hseg
    · intro r' p' hp'
      by_cases hr : r = r'
      · subst hr
        rw [hp] at hp'
        cases hp'
        refine ⟨q, getElem?_set_same hp, ?_⟩
        rw [if_pos hc, hkq, ← hb]; simp
      · refine ⟨p', by show (s.paths.set r q)[r']? = _; rw [List.getElem?_set_ne hr]; exact hp', ?_⟩
        have : ¬ curPath rest = some (some r') := by
          rw [hc]; intro h; cases h; exact hr rfl
        rw [if_neg this]; simp
    · intro s2 h2
      obtain ⟨q2, hq2, hsame⟩ := h2.paths r q (getElem?_set_same hp)
      have hst : s2.stack = rest := h2.stack
      obtain ⟨q3, h3, hw3, hk3, hs3⟩ := appendKeys_ok (r := r) (segKeys frames.reverse) (base ++ mid)
        s2 q2 p (by rw [hst]; exact hc) hq2 hsame.wf (hsame.keys.trans hkq) hwp
        (by rw [← hb]; simp) (hsame.shape.trans hsq)
      refine ⟨{ s2 with stack := frames ++ s2.stack, paths := s2.paths.set r q3 }, ?_, ?_⟩
      · unfold restoreFrames
        have : frames.isEmpty = false := by cases frames <;> simp_all
        simp only [this]
        refine (M.bind_ok (a := ()) (s' := { s2 with paths := s2.paths.set r q3 }) ?_).trans rfl
        unfold whenSrcPath
        rw [M.bind_ok (ctxGet_ok (a := some r) (by rw [hst]; exact hc))]
        exact h3
      · rw [hst]
        show Ext W s { s2 with stack := frames ++ rest, paths := s2.paths.set r q3 }
        rw [hsplit]
        refine Ext.unstack h2 ?_ ?_ rfl rfl
        · intro r' p' hp'
          by_cases hr : r = r'
          · subst hr
            rw [hp] at hp'
            cases hp'
            exact ⟨q3, getElem?_set_same hq2, by rw [hk3, ← hb]; simp, hw3,
              hs3.trans (hsame.shape.trans hsq)⟩
          · have := h2.paths r' p' (by
              show (s.paths.set r q)[r']? = some p'
              rw [List.getElem?_set_ne hr]; exact hp')
            rw [List.getElem?_set_ne hr]
            exact this
        · intro p' hp'
          rcases List.mem_or_eq_of_mem_set hp' with h1 | h1
          · exact h2.wf p' h1
          · rw [h1]; exact hw3

theorem Ext.withRewind {α : Type} {s : St P} (hs : Inv W s) {stop : Frame → Bool} {body : M P α}
    (h0 : ∀ f rest, s.stack = f :: rest → stop f = false) (hb : Keeps W body) :
    Ext W s (withRewind I stop body s).2 := by
  show Ext W s (M.bind (rewind I stop) (fun frames => M.tryFinally body (restoreFrames I frames)) s).2
  cases hi : s.stack.findIdx? stop with
  | none =>
    have : rewind I stop s = (.error .rewindDidNotStop, s) := by unfold rewind; rw [hi]
    unfold M.bind
    rw [this]
    exact Ext.refl hs.wf
  | some i =>
    have hi0 : i ≠ 0 := by
      intro h
      subst h
      have := List.findIdx?_eq_some_iff_getElem.1 hi
      obtain ⟨hl, ht, _⟩ := this
      cases hst : s.stack with
      | nil => rw [hst] at hl; simp at hl
      | cons f rest =>
        have := h0 f rest hst
        simp [hst, this] at ht
    obtain ⟨s1, h1, _, hinv, he, hf, _, hback⟩ := rewind_spec hs hi hi0
    have h2 := hb.run s1 hinv
    obtain ⟨s3, h3, h4⟩ := hback _ h2
    unfold M.bind
    rw [h1]
    show Ext W s (M.tryFinally body (restoreFrames I (s.stack.take i)) s1).2
    rw [M.tryFinally_ok (m := body) (s := s1) (r := (body s1).1) (s1 := (body s1).2) rfl h3]
    exact h4

end Pilo
