import Verif.Props.StagesExact

/-!
# C110: hooks and values read from the source

`pilo/fields.py:553-617`.
-/

namespace Pilo
variable {P : Type} {I : PathOps P} {L : Lib} {C : Classes}

/-- Where `m` gives a value of `R`, `m'` gives what `post` makes of it, and leaves the same state. -/
def Mends (R : Val → Prop) (post : Val → Val) (m m' : M P Val) : Prop :=
  ∀ s w s', m s = (.ok w, s') → R w → m' s = (.ok (post w), s')

section
variable {R : Val → Prop} {post : Val → Val}

theorem Mends.never {m m' : M P Val} (h : Yields (fun v => ¬ R v) m) : Mends R post m m' :=
  fun s w s' e hw => absurd hw (h s w s' e)

theorem Mends.bind {α : Type} {m : M P α} {k k' : α → M P Val} (h : ∀ a, Mends R post (k a) (k' a)) :
    Mends R post (m >>= k) (m >>= k') := by
  intro s w s' e hw
  rcases hm : m s with ⟨r, s1⟩
  cases r with
  | error x => rw [M.bind_error hm] at e; cases e
  | ok a =>
    rw [M.bind_ok hm] at e ⊢
    exact h a _ _ _ e hw

theorem Mends.withPush {push : M P Unit} {m m' : M P Val} (h : Mends R post m m') :
    Mends R post (withPush I push m) (Pilo.withPush I push m') := by
  unfold Pilo.withPush
  refine .bind fun _ => ?_
  intro s w s' e hw
  unfold M.tryFinally at e ⊢
  rcases hm : m s with ⟨r, s1⟩
  rw [hm] at e
  cases r with
  | error x => dsimp only at e; split at e <;> cases e
  | ok a =>
    dsimp only at e
    have ha : a = w := by split at e <;> cases e; rfl
    subst ha
    rw [h _ _ _ hm hw]
    dsimp only
    split at e
    · cases e; rfl
    · cases e

variable {f : Field} {m fl fl' va va' : Option (Hook (Val → Prog))}

/-- A field without default gives no real value in place of one. -/
theorem default_unset {rec : Rec P} {f : Field} (hd : f.core.default = .unset) :
    Yields (fun v => ¬ Real v) (fieldDefault I L C rec f) := by
  have hm : Yields (fun v => ¬ Real v) (missingNotSet I : M P Val) := by
    unfold missingNotSet
    refine Yields.bind (.any _) fun im _ => ?_
    split
    · exact .pure (by simp [Real, Val.isIgnore])
    · exact Yields.bind (.any _) fun _ _ => .pure (by simp [Real, Val.isIgnore])
  unfold fieldDefault
  refine Yields.bind (.any _) fun ig _ => ?_
  split
  · exact hm
  · rw [hd]
    exact hm

/-- Two fields that differ in their hooks only map alike, up to `post`, if they check values alike. -/
theorem Mends.mapField (hd : f.core.default = .unset) (ha : f.core.attachParent = false) (hR : ∀ v, R v → Real v)
    (h : ∀ rec v, Mends R post (fieldCheck I L C rec (f.hooked m fl va) v) (fieldCheck I L C rec (f.hooked m fl' va') v))
    (n : Nat) (value : Val) :
    Mends R post (mapField I L C n (f.hooked m fl va) value) (Pilo.mapField I L C n (f.hooked m fl' va') value) := by
  cases n with
  | zero => intro s w s' e; cases e
  | succ n =>
    have hdef : Mends R post (fieldDefault I L C (Pilo.mapField I L C n) (f.hooked m fl va))
        (fieldDefault I L C (Pilo.mapField I L C n) (f.hooked m fl' va')) :=
      .never fun s v s' e hv => default_unset (f := f.hooked m fl va) hd s v s' e (hR v hv)
    have hstart : Mends R post (fieldStart I L C (Pilo.mapField I L C n) (f.hooked m fl va))
        (fieldStart I L C (Pilo.mapField I L C n) (f.hooked m fl' va')) := by
      unfold fieldStart
      have : computeStep I L C (Pilo.mapField I L C n) (f.hooked m fl va) =
        computeStep I L C (Pilo.mapField I L C n) (f.hooked m fl' va') := rfl
      rw [this]
      refine .bind fun v => ?_
      split
      · have e1 : (f.hooked m fl va).core.default = .unset := hd
        have e2 : (f.hooked m fl' va').core.default = .unset := hd
        rw [e1, e2]
        exact hdef
      · split
        · rename_i hv
          exact .never (.pure fun hr => by have := hR v hr; simp [Real, hv] at this)
        · exact h _ v
    have hinner : Mends R post (fieldMapInner I L C (Pilo.mapField I L C n) (f.hooked m fl va) value)
        (fieldMapInner I L C (Pilo.mapField I L C n) (f.hooked m fl' va') value) := by
      unfold fieldMapInner
      split
      · unfold withResolve
        show Mends R post (match f.core.resolve with | some (.key h) => _ | some (.data h) => _ | none => _)
          (match f.core.resolve with | some (.key h) => _ | some (.data h) => _ | none => _)
        split
        · refine .bind fun k => ?_
          split
          · exact hstart
          · exact hstart.withPush
        · refine .bind fun k => ?_
          split
          · exact hstart
          · exact hstart.withPush
        · show Mends R post (match f.kind with | .group _ => _ | _ => _) (match f.kind with | .group _ => _ | _ => _)
          split
          · exact hstart
          · show Mends R post (if noSrc f.core.src then _ else _) (if noSrc f.core.src then _ else _)
            split
            · exact hstart
            · exact hstart.withPush
      · exact h _ value
    intro s w s' e hw
    have e1 : mapFieldF I L C (Pilo.mapField I L C n) (f.hooked m fl va) value s = (.ok w, s') := e
    show mapFieldF I L C (Pilo.mapField I L C n) (f.hooked m fl' va') value s = _
    have ha1 : (f.hooked m fl va).core.attachParent = false := ha
    have ha2 : (f.hooked m fl' va').core.attachParent = false := ha
    unfold mapFieldF at e1 ⊢
    rw [ha1] at e1
    rw [ha2]
    simp only [Bool.false_and, Bool.false_eq_true, if_false] at e1 ⊢
    rcases hq : Pilo.withPush I (pushVars { field := some (f.hooked m fl va).name, parent := some .field })
      (fieldMapInner I L C (Pilo.mapField I L C n) (f.hooked m fl va) value) s with ⟨r, s2⟩
    cases r with
    | error x => rw [M.bind_error hq] at e1; cases e1
    | ok a =>
      rw [M.bind_ok hq] at e1
      cases e1
      exact M.bind_ok (hinner.withPush _ _ _ hq hw)

/-- C110.  A field without default and without `validate` hook gives `w`, of a value that is given or read from a source:
with a `validate` hook it gives `w` if the hook answers `w` with something true, and else `ERROR`; the errors are the same. -/
theorem C110_validated {q : Val → Val} (hd : f.core.default = .unset) (ha : f.core.attachParent = false) {n : Nat}
    {value w : Val} {s s' : St P} (h : mapField I L C n (f.hooked m fl none) value s = (.ok w, s')) (hw : Real w) :
    mapField I L C n (f.hooked m fl (returning q)) value s = (.ok (if (q w).truthy then w else .ERROR), s') := by
  refine Mends.mapField (R := Real) (post := fun w => if (q w).truthy then w else .ERROR) hd ha (fun _ h => h)
    (fun rec v => ?_) n value s w s' h hw
  unfold fieldCheck
  have hm : mungeStep I L C rec (f.hooked m fl none) v = mungeStep I L C rec (f.hooked m fl (returning q)) v := rfl
  rw [hm]
  refine .bind fun u => ?_
  have hdef : Mends Real (fun w => if (q w).truthy then w else .ERROR) (fieldDefault I L C rec (f.hooked m fl none))
      (fieldDefault I L C rec (f.hooked m fl (returning q))) := .never (default_unset (f := f.hooked m fl none) hd)
  split
  · exact hdef
  · split
    · rename_i hu
      exact .never (.pure (by simp [Real, hu]))
    · have hf : filterStep I L C rec (f.hooked m fl none) u = filterStep I L C rec (f.hooked m fl (returning q)) u := rfl
      rw [hf]
      refine .bind fun k => ?_
      split
      · exact hdef
      · unfold validateStep
        have hk : kindValidate I L (f.hooked m fl none) u = kindValidate I L (f.hooked m fl (returning q)) u := rfl
        rw [hk]
        intro s x s' e hx
        rcases hq : kindValidate I L (f.hooked m fl (returning q)) u s with ⟨r, s1⟩
        cases r with
        | error y =>
          have : ∀ k : Bool → M P Bool, (kindValidate I L (f.hooked m fl (returning q)) u >>= k) s = (.error y, s1) :=
            fun k => M.bind_error hq
          rw [M.bind_error (this _)] at e
          cases e
        | ok b =>
          cases b with
          | false =>
            have h1 : ∀ k : Bool → M P Bool, k false = M.pure false →
                (kindValidate I L (f.hooked m fl (returning q)) u >>= k) s = (.ok false, s1) := by
              intro k hk; rw [M.bind_ok hq, hk]; rfl
            rw [M.bind_ok (h1 _ (by rfl))] at e
            cases e
            cases hx
          | true =>
            have h1 : ∀ (k : Bool → M P Bool) (b : Bool), k true = M.pure b →
                (kindValidate I L (f.hooked m fl (returning q)) u >>= k) s = (.ok b, s1) := by
              intro k b hk; rw [M.bind_ok hq, hk]; rfl
            rw [M.bind_ok (h1 _ true (by rfl))] at e
            cases e
            rw [M.bind_ok (h1 _ (q u).truthy (by rfl))]
            rfl

/-- C110.  A field without default and without `filter` hook gives `w`, of a value that is given or read from a source:
with a `filter` hook that answers `w` with something true it gives `w` as well, and the errors are the same. -/
theorem C110_filtered {p : Val → Val} (hd : f.core.default = .unset) (ha : f.core.attachParent = false) {n : Nat}
    {value w : Val} {s s' : St P} (h : mapField I L C n (f.hooked m none va) value s = (.ok w, s')) (hw : Real w)
    (hp : (p w).truthy = true) : mapField I L C n (f.hooked m (returning p) va) value s = (.ok w, s') := by
  refine Mends.mapField (R := fun v => Real v ∧ (p v).truthy = true) (post := id) hd ha (fun _ h => h.1)
    (fun rec v => ?_) n value s w s' h ⟨hw, hp⟩
  unfold fieldCheck
  have hm : mungeStep I L C rec (f.hooked m none va) v = mungeStep I L C rec (f.hooked m (returning p) va) v := rfl
  rw [hm]
  refine .bind fun u => ?_
  have hdef : Mends (fun v => Real v ∧ (p v).truthy = true) id (fieldDefault I L C rec (f.hooked m none va))
      (fieldDefault I L C rec (f.hooked m (returning p) va)) :=
    .never fun s v s' e hv => default_unset (f := f.hooked m none va) hd s v s' e hv.1
  split
  · exact hdef
  · split
    · rename_i hu
      exact .never (.pure (by simp [Real, hu]))
    · intro s x s' e hx
      have hv : validateStep I L C rec (f.hooked m none va) u = validateStep I L C rec (f.hooked m (returning p) va) u := rfl
      unfold filterStep at e ⊢
      have hff : fieldFilter (f.hooked m none va) u = fieldFilter (f.hooked m (returning p) va) u := rfl
      rw [hff] at e
      cases hk : fieldFilter (f.hooked m (returning p) va) u with
      | false =>
        rw [hk] at e
        exact absurd hx.1 (default_unset (f := f.hooked m none va) hd s x s' e)
      | true =>
        rw [hk] at e
        have e1 : (validateStep I L C rec (f.hooked m none va) u >>= fun ok => M.pure (if ok then u else .ERROR)) s = (.ok x, s') := e
        have hxu : x = u := by
          rcases hq : validateStep I L C rec (f.hooked m none va) u s with ⟨r, s1⟩
          cases r with
          | error y => rw [M.bind_error hq] at e1; cases e1
          | ok b =>
            rw [M.bind_ok hq] at e1
            cases b with
            | false => cases e1; cases hx.1
            | true => cases e1; rfl
        subst hxu
        show ((M.pure (p x).truthy : M P Bool) >>= _) s = _
        rw [hx.2, pure_bind_eq]
        rw [hv] at e1
        exact e1

end

/-! ### Examples -/

namespace Demo

/-- `a = Integer()` -/
def plainInt : Field := .mk { name := some "a", src := .str "a" } (.integer {})

/-- Read from `{'a': 3}`, a `validate` hook that returns `None` for 3 gives `ERROR`; 4 is accepted. -/
example : (mapField (Path.ops lib) lib table 1 (plainInt.hooked none none (returning notThree)) .NONE
      (here (Path.ops lib) (.dict [(.str "a", .int 3)]))).1 = .ok .ERROR ∧
    (mapField (Path.ops lib) lib table 1 (plainInt.hooked none (returning notThree) (returning notThree)) .NONE
      (here (Path.ops lib) (.dict [(.str "a", .int 4)]))).1 = .ok (.int 4) := by decide +kernel

example {w : Val} {s s' : St Path} (n : Nat)
    (h : mapField (Path.ops lib) lib table n (plainInt.hooked doubling none none) .NONE s = (.ok w, s')) (hw : Real w) :
    mapField (Path.ops lib) lib table n (plainInt.hooked doubling none (returning notThree)) .NONE s =
      (.ok (if (notThree w).truthy then w else .ERROR), s') := C110_validated rfl rfl h hw

/-- The hypotheses of these theorems can be met. -/
example : ∃ s', mapField (Path.ops lib) lib table 1 (plainInt.hooked none (returning notThree) none) .NONE
    (here (Path.ops lib) (.dict [(.str "a", .int 4)])) = (.ok (.int 4), s') := by
  have h : (mapField (Path.ops lib) lib table 1 (plainInt.hooked none none none) .NONE
    (here (Path.ops lib) (.dict [(.str "a", .int 4)]))).1 = .ok (.int 4) := by decide +kernel
  exact ⟨_, C110_filtered (f := plainInt) rfl rfl (Prod.ext h rfl) rfl rfl⟩

end Demo
end Pilo
