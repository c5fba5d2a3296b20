import Verif.Props.FormsDemo

/-!
# C53: what hooks are given, and in what order

`pilo/fields.py:553-595`.
-/

namespace Pilo
variable {P : Type} {I : PathOps P} {L : Lib} {C : Classes} {α β : Type}

/-- Two hooks with one argument that cannot be told apart by the values in `R`. -/
def SameOn (R : Val → Prop) : Option (Hook (Val → Prog)) → Option (Hook (Val → Prog)) → Prop
  | none, none => True
  | some a, some b => a.target = b.target ∧ ∀ t v, R v → a.body t v = b.body t v
  | _, _ => False

/-- The field with other `munge`, `filter` and `validate` hooks. -/
def Field.hooked (f : Field) (munge filter validate : Option (Hook (Val → Prog))) : Field :=
  .mk { f.core with munge := munge, filter := filter, validate := validate } f.kind

theorem SameOn.call {R : Val → Prop} {rec : Rec P} {a b : Hook (Val → Prog)} (h : SameOn R (some a) (some b))
    {v : Val} (hv : R v) : callHook1 I L C rec a v = callHook1 I L C rec b v := by
  obtain ⟨h1, h2⟩ := h
  unfold callHook1 hookTarget
  rw [h1]
  congr 1
  funext t
  rw [h2 t v hv]

/-- A value that is none of `NONE`, `ERROR` and `NOT_SET`. -/
def Real (v : Val) : Prop := v.isIgnore = false

section
variable {rec : Rec P} {f : Field} {m m' fl fl' va va' : Option (Hook (Val → Prog))}

theorem hooked_munge (hm : SameOn Real m m') (v : Val) :
    mungeStep I L C rec (f.hooked m fl va) v = mungeStep I L C rec (f.hooked m' fl' va') v := by
  unfold mungeStep
  show (M.ofExcept (fieldMunge _ v) >>= _) = (M.ofExcept (fieldMunge _ v) >>= _)
  have : fieldMunge (f.hooked m fl va) v = fieldMunge (f.hooked m' fl' va') v := rfl
  rw [this]
  congr 1
  funext w
  split
  · rfl
  · rename_i hw
    show (match (generalizing := false) m with | some h => callHook1 I L C rec h w | none => M.pure w) =
      (match (generalizing := false) m' with | some h => callHook1 I L C rec h w | none => M.pure w)
    match m, m', hm with
    | none, none, _ => rfl
    | some a, some b, hm => exact hm.call (by simpa [Real] using hw)

theorem hooked_filter (hm : SameOn Real fl fl') {v : Val} (hv : Real v) :
    filterStep I L C rec (f.hooked m fl va) v = filterStep I L C rec (f.hooked m' fl' va') v := by
  unfold filterStep
  show (if fieldFilter f v then (match (generalizing := false) fl with | some h => callHook1 I L C rec h v >>= fun r => M.pure r.truthy | none => M.pure true) else _) =
    (if fieldFilter f v then (match (generalizing := false) fl' with | some h => callHook1 I L C rec h v >>= fun r => M.pure r.truthy | none => M.pure true) else _)
  match fl, fl', hm with
  | none, none, _ => rfl
  | some a, some b, hm => dsimp only; rw [hm.call hv]

theorem hooked_validate {R : Val → Prop} (hm : SameOn R va va') {v : Val} (hv : R v) :
    validateStep I L C rec (f.hooked m fl va) v = validateStep I L C rec (f.hooked m' fl' va') v := by
  unfold validateStep
  show (kindValidate I L _ v >>= fun ok => if ok then (match (generalizing := false) va with | some h => callHook1 I L C rec h v >>= fun r => M.pure r.truthy | none => M.pure true) else _) =
    (kindValidate I L _ v >>= fun ok => if ok then (match (generalizing := false) va' with | some h => callHook1 I L C rec h v >>= fun r => M.pure r.truthy | none => M.pure true) else _)
  have : kindValidate I L (f.hooked m fl va) v = kindValidate I L (f.hooked m' fl' va') v := rfl
  rw [this]
  match va, va', hm with
  | none, none, _ => rfl
  | some a, some b, hm => dsimp only; rw [hm.call hv]

theorem hooked_map (h : ∀ v, fieldCheck I L C rec (f.hooked m fl va) v = fieldCheck I L C rec (f.hooked m' fl' va') v)
    (value : Val) : mapFieldF I L C rec (f.hooked m fl va) value = mapFieldF I L C rec (f.hooked m' fl' va') value := by
  have hs : fieldStart I L C rec (f.hooked m fl va) = fieldStart I L C rec (f.hooked m' fl' va') := by
    unfold fieldStart
    have : computeStep I L C rec (f.hooked m fl va) = computeStep I L C rec (f.hooked m' fl' va') := rfl
    rw [this]
    congr 1
    funext v
    rw [h]
    rfl
  have hi : fieldMapInner I L C rec (f.hooked m fl va) value = fieldMapInner I L C rec (f.hooked m' fl' va') value := by
    unfold fieldMapInner
    rw [hs, h]
    rfl
  unfold mapFieldF
  rw [hi]
  rfl

/-- C53.  `munge`, `filter` and `validate` hooks are never given `NONE`, `ERROR` or `NOT_SET`: a field whose hooks
answer differently for those maps alike, for any field, any hooks, any argument and in any context. -/
theorem C53_hooks_see_values (hm : SameOn Real m m') (hf : SameOn Real fl fl') (hv : SameOn Real va va')
    (n : Nat) (value : Val) :
    mapField I L C n (f.hooked m fl va) value = mapField I L C n (f.hooked m' fl' va') value := by
  cases n with
  | zero => rfl
  | succ n =>
    refine hooked_map (fun v => ?_) value
    unfold fieldCheck
    rw [hooked_munge (I := I) (fl := fl) (va := va) (fl' := fl') (va' := va') hm v]
    congr 1
    funext w
    split
    · rfl
    · split
      · rfl
      · rename_i h2
        have hw : Real w := by simpa [Real] using h2
        rw [hooked_filter (I := I) (m := m) (m' := m') (va := va) (va' := va') hf hw]
        rw [hooked_validate (I := I) (m := m) (m' := m') (fl := fl) (fl' := fl') hv hw]
        rfl

/-- A `filter` or `validate` hook that decides by `p` and does nothing else. -/
def decides (p : Val → Bool) : Option (Hook (Val → Prog)) :=
  some { target := some .none, body := fun _ v => .ret (.bool (p v)) }

theorem decides_call {p : Val → Bool} {v : Val} {s : St P} :
    (match decides p with
      | some h => callHook1 I L C rec h v >>= fun r => M.pure r.truthy
      | none => M.pure true) s = (.ok (p v), s) := by
  show ((.ok (Val.truthy (.bool (p v))), s) : Except Exc Bool × St P) = _
  cases p v <;> rfl

/-- C53, order.  A `validate` hook is given only values that are not ignored and that the `filter` hook keeps. -/
theorem C53_filter_before_validate {p : Val → Bool}
    (hv : SameOn (fun v => Real v ∧ v.inList f.core.ignores = false ∧ p v = true) va va') (n : Nat) (value : Val) :
    mapField I L C n (f.hooked m (decides p) va) value = mapField I L C n (f.hooked m (decides p) va') value := by
  cases n with
  | zero => rfl
  | succ n =>
    refine hooked_map (fun v => ?_) value
    unfold fieldCheck
    show (mungeStep I L C _ _ v >>= _) = (mungeStep I L C _ _ v >>= _)
    congr 1
    funext w
    split
    · rfl
    · split
      · rfl
      · rename_i h2
        have hw : Real w := by simpa [Real] using h2
        have e : ∀ vx, filterStep (I := I) L C (mapField I L C n) (f.hooked m (decides p) vx) w =
            M.pure (!(w.inList f.core.ignores) && p w) := by
          intro vx
          funext s
          unfold filterStep
          show (if (!(w.inList f.core.ignores)) = true then _ else _ : M P Bool) s = _
          cases w.inList f.core.ignores
          · exact decides_call
          · rfl
        rw [e va, e va']
        cases hk : (!(w.inList f.core.ignores) && p w) with
        | false => rfl
        | true =>
          simp at hk
          have := hooked_validate (I := I) (L := L) (C := C) (rec := mapField I L C n) (f := f) (m := m) (m' := m)
            (fl := decides p) (fl' := decides p) hv (v := w) ⟨hw, hk.1, hk.2⟩
          rw [this]
          rfl
end


/-! ### What a field returns -/

/-- Whatever `m` returns satisfies `Q`. -/
def Yields (Q : α → Prop) (m : M P α) : Prop := ∀ s a s', m s = (.ok a, s') → Q a

theorem Yields.pure {Q : α → Prop} {a : α} (h : Q a) : Yields Q (M.pure a : M P α) := by
  intro s b s' e; cases e; exact h

theorem Yields.bind {Q : β → Prop} {R : α → Prop} {m : M P α} {k : α → M P β} (hm : Yields R m)
    (hk : ∀ a, R a → Yields Q (k a)) : Yields Q (m >>= k) := by
  intro s b s' e
  rcases h : m s with ⟨r, s1⟩
  cases r with
  | error x => rw [M.bind_error h] at e; cases e
  | ok a => rw [M.bind_ok h] at e; exact hk a (hm _ _ _ h) _ _ _ e

theorem Yields.any (m : M P α) : Yields (fun _ => True) m := fun _ _ _ _ => trivial

theorem Yields.withPush {Q : α → Prop} {push : M P Unit} {m : M P α} (hm : Yields Q m) : Yields Q (withPush I push m) := by
  refine Yields.bind (.any _) fun _ _ => ?_
  intro s a s' e
  unfold M.tryFinally at e
  rcases h : m s with ⟨r, s1⟩
  rw [h] at e
  dsimp only at e
  split at e
  · cases e
    exact hm _ _ _ h
  · cases e

section
variable {rec : Rec P} {f : Field} {m fl va : Option (Hook (Val → Prog))}

/-- C53, result.  A field with `munge`, `filter` and `validate` hooks, of any kind and in any context, gives a
constant, or one of the values of its default, or a value that `munge` made of a real value, that is not ignored,
and that both `filter` and `validate` accept. -/
theorem C53_result_checked {g : Val → Val} {p q D : Val → Prop} [DecidablePred p] [DecidablePred q] {n : Nat}
    (hh : ∀ h, f.core.default = .hook h → Yields D (callHook I L C (mapField I L C n) h))
    (hd : Yields D (fieldDefault I L C (mapField I L C n) f))
    {value v : Val} {s s' : St P}
    (h : mapField I L C (n + 1) (f.hooked (some { target := some .none, body := fun _ v => .ret (g v) })
      (decides fun v => decide (p v)) (decides fun v => decide (q v))) value s = (.ok v, s')) :
    ¬ Real v ∨ D v ∨ (∃ w, Real w ∧ v = g w) ∧ v.inList f.core.ignores = false ∧ p v ∧ q v := by
  revert s v s'
  let Q : Val → Prop := fun v =>
    ¬ Real v ∨ D v ∨ (∃ w, Real w ∧ v = g w) ∧ v.inList f.core.ignores = false ∧ p v ∧ q v
  suffices H : Yields Q (mapField I L C (n + 1) (f.hooked (some { target := some .none, body := fun _ v => .ret (g v) })
      (decides fun v => decide (p v)) (decides fun v => decide (q v))) value) from fun {v s s'} h => H s v s' h
  generalize hF : f.hooked (some { target := some .none, body := fun _ v => .ret (g v) })
      (decides fun v => decide (p v)) (decides fun v => decide (q v)) = F
  have hD : Yields Q (fieldDefault I L C (mapField I L C n) F) := by
    subst hF
    exact fun s a s' e => .inr (.inl (hd s a s' e))
  have hcheck : ∀ v, Yields Q (fieldCheck I L C (mapField I L C n) F v) := by
    intro v
    unfold fieldCheck
    refine Yields.bind (R := fun w => ¬ Real w ∨ ∃ u, Real u ∧ w = g u) ?_ fun w hw => ?_
    · unfold mungeStep
      refine Yields.bind (.any _) fun u _ => ?_
      split
      · rename_i hu
        exact .pure (.inl (by simp [Real, hu]))
      · rename_i hu
        subst hF
        exact .pure (.inr ⟨u, by simpa [Real] using hu, rfl⟩)
    · split
      · exact hD
      · split
        · rename_i h2
          exact .pure (.inl (by simp [Real, h2]))
        · rename_i h2
          have hreal : Real w := by simpa [Real] using h2
          have hw' := hw.resolve_left (fun h => h hreal)
          refine Yields.bind (R := fun k => k = true → w.inList f.core.ignores = false ∧ p w) ?_ fun k hk => ?_
          · unfold filterStep
            subst hF
            show Yields _ (if (!(w.inList f.core.ignores)) = true then _ else _ : M P Bool)
            cases w.inList f.core.ignores
            · intro s a s' e
              have := decides_call (I := I) (L := L) (C := C) (rec := mapField I L C n) (p := fun v => decide (p v)) (v := w) (s := s)
              cases this.symm.trans e
              intro hp
              exact ⟨rfl, by simpa using hp⟩
            · exact .pure (by intro h; cases h)
          · cases k with
            | false => exact hD
            | true =>
              obtain ⟨hk1, hk2⟩ := hk rfl
              refine Yields.bind (R := fun k => k = true → q w) ?_ fun k hk => ?_
              · unfold validateStep
                refine Yields.bind (.any _) fun b _ => ?_
                cases b with
                | false => exact .pure (by intro h; cases h)
                | true =>
                  subst hF
                  intro s a s' e
                  have := decides_call (I := I) (L := L) (C := C) (rec := mapField I L C n) (p := fun v => decide (q v)) (v := w) (s := s)
                  cases this.symm.trans e
                  intro hp
                  simpa using hp
              · cases k with
                | false => exact .pure (.inl (by simp [Real, Val.isIgnore, Val.ERROR]))
                | true => exact .pure (.inr (.inr ⟨hw', hk1, hk2, hk rfl⟩))
  have hstart : Yields Q (fieldStart I L C (mapField I L C n) F) := by
    unfold fieldStart
    refine Yields.bind (.any _) fun v _ => ?_
    split
    · have e : F.core.default = f.core.default := by subst hF; rfl
      rw [e]
      split
      · rename_i h he
        exact fun s a s' e => .inr (.inl (hh h he s a s' e))
      · exact hD
    · split
      · rename_i h2
        exact .pure (.inl (by simp [Real, h2]))
      · exact hcheck v
  have hinner : Yields Q (fieldMapInner I L C (mapField I L C n) F value) := by
    unfold fieldMapInner
    split
    · unfold withResolve
      split
      · refine Yields.bind (.any _) fun k _ => ?_
        split
        · exact hstart
        · exact hstart.withPush
      · refine Yields.bind (.any _) fun k _ => ?_
        split
        · exact hstart
        · exact hstart.withPush
      · split
        · exact hstart
        · split
          · exact hstart
          · exact hstart.withPush
    · exact hcheck value
  show Yields Q (mapFieldF I L C (mapField I L C n) F value)
  unfold mapFieldF
  refine Yields.bind hinner.withPush fun v hv => ?_
  split
  · exact Yields.bind (.any _) fun _ _ => .pure hv
  · exact .pure hv
end

/-! ### Examples -/

open Demo

/-- An integer field that doubles, drops 0 and rejects 4, and one whose hooks crash on the constants. -/
def Demo.doubling : Option (Hook (Val → Prog)) :=
  some { target := some .none, body := fun _ v => .ret (match v with | .int i => .int (2 * i) | v => v) }
def Demo.doublingCrash : Option (Hook (Val → Prog)) :=
  some { target := some .none, body := fun _ v => if v.isIgnore then .raise .recursion else .ret (match v with | .int i => .int (2 * i) | v => v) }

def Demo.isZero (v : Val) : Bool := match v with | .int 0 => true | _ => false
def Demo.isFour (v : Val) : Bool := match v with | .int 4 => true | _ => false

theorem Demo.doubling_same : SameOn Real doubling doublingCrash :=
  ⟨rfl, fun t v h => by simp [Real] at h; simp [h]⟩

example (n : Nat) (value : Val) := C53_hooks_see_values (I := Path.ops lib) (L := lib) (C := table)
  (f := field "a" (.integer {})) doubling_same (fl := none) (fl' := none) trivial (va := none) (va' := none) trivial n value

/-- Dropped values never reach `validate`: here it would crash on them. -/
example (n : Nat) (value : Val) := C53_filter_before_validate (I := Path.ops lib) (L := lib) (C := table)
  (f := field "a" (.integer {})) (m := doubling) (p := fun v => !isZero v)
  (va := some { target := some .none, body := fun _ v => .ret (.bool (!isFour v)) })
  (va' := some { target := some .none, body := fun _ v => if isZero v then .raise .recursion else .ret (.bool (!isFour v)) })
  ⟨rfl, fun t v h => by simp at h; simp [h.2.2]⟩ n value

/-- The integer field with the three hooks and the default 7. -/
def Demo.three : Field :=
  (Field.mk { name := some "a", src := .str "a", default := .value (.int 7) } (.integer {})).hooked doubling
    (decides fun v => !isZero v) (decides fun v => !isFour v)

example : (mapField (Path.ops lib) lib table 3 three .NONE (here (Path.ops lib) (.dict [(.str "a", .int 5)]))).1 =
    .ok (.int 10) := by decide +kernel
example : (mapField (Path.ops lib) lib table 3 three .NONE (here (Path.ops lib) (.dict [(.str "a", .int 0)]))).1 =
    .ok (.int 7) := by decide +kernel
example : (mapField (Path.ops lib) lib table 3 three .NONE (here (Path.ops lib) (.dict [(.str "a", .int 2)]))).1 =
    .ok .ERROR := by decide +kernel

/-- C53, result, for that field: what it gives is 7, or twice some integer value, not 0 and not 4. -/
example {v : Val} {s s' : St Path} (h : mapField (Path.ops lib) lib table 3 three .NONE s = (.ok v, s')) :
    ¬ Real v ∨ (v = .int 7 ∨ ¬ Real v) ∨ (∃ w, Real w ∧ v = (match w with | .int i => .int (2 * i) | w => w)) ∧
      v.inList [] = false ∧ (!isZero v) = true ∧ (!isFour v) = true := by
  refine C53_result_checked (n := 2) (I := Path.ops lib) (L := lib) (C := table) (D := fun v => v = .int 7 ∨ ¬ Real v)
    (f := Field.mk { name := some "a", src := .str "a", default := .value (.int 7) } (.integer {}))
    (p := fun v => (!isZero v) = true) (q := fun v => (!isFour v) = true)
    (by intro h e; cases e) ?_ (value := .NONE) (s := s) (s' := s') ?_
  · refine Yields.bind (.any _) fun ig _ => ?_
    split
    · refine Yields.bind (.any _) fun im _ => ?_
      split
      · exact .pure (.inr (by simp [Real, Val.isIgnore]))
      · exact Yields.bind (.any _) fun _ _ => .pure (.inr (by simp [Real, Val.isIgnore]))
    · exact .pure (.inl rfl)
  · simpa [three, doubling, decides] using h

end Pilo
