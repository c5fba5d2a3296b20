import Verif.Props.Stages

/-!
# C110: what each hook decides

What `field.map(value)` does with the answers of the `munge`, `filter` and `validate` hooks
(`pilo/fields.py:578-595`), for fields of any kind, in any context.
-/

namespace Pilo
variable {P : Type} {I : PathOps P} {L : Lib} {C : Classes}

/-- A hook that returns `g(value)` and does nothing else.  What it returns need not be a `bool`. -/
def returning (g : Val → Val) : Option (Hook (Val → Prog)) :=
  some { target := some .none, body := fun _ v => .ret (g v) }

/-- The field without `munge`, `filter` and `validate` hooks, that ignores these values and translates none. -/
def Field.ignoring (f : Field) (vs : List Val) : Field :=
  .mk { f.core with munge := none, filter := none, validate := none, ignores := vs, translations := [] } f.kind

section
variable {f : Field} {m fl va : Option (Hook (Val → Prog))} {g : Val → Val} {value w : Val} {n : Nat}

/-- Mapping a given value is checking it. -/
theorem given_map {f f' : Field} {v v' : Val} (hname : f.name = f'.name) (hattach : f.core.attachParent = f'.core.attachParent)
    (hv : Real v) (hv' : Real v')
    (h : ∀ rec, fieldCheck I L C rec f v = fieldCheck I L C rec f' v') (n : Nat) :
    mapField I L C n f v = mapField I L C n f' v' := by
  have hN : ∀ {x : Val}, Real x → x.isNONE = false := by
    intro x hx
    cases x <;> first | rfl | skip
    rename_i c
    cases c <;> first | rfl | cases hx
  cases n with
  | zero => rfl
  | succ n =>
    show mapFieldF I L C _ f v = mapFieldF I L C _ f' v'
    unfold mapFieldF fieldMapInner
    rw [hN hv, hN hv', hname, hattach]
    simp only [Bool.false_eq_true, if_false]
    rw [h]

theorem mungeStep_none {rec : Rec P} (ht : f.core.translations = []) (v : Val) :
    mungeStep I L C rec (f.hooked none fl va) v = M.pure v := by
  unfold mungeStep fieldMunge
  have : (f.hooked none fl va).core.translations = [] := ht
  rw [this]
  funext s
  show (if v.isIgnore then M.pure v else M.pure v : M P Val) s = _
  split <;> rfl

theorem mungeStep_returning {rec : Rec P} (ht : f.core.translations = []) (hv : Real value) :
    mungeStep I L C rec (f.hooked (returning g) fl va) value = M.pure (g value) := by
  unfold mungeStep fieldMunge
  have : (f.hooked (returning g) fl va).core.translations = [] := ht
  rw [this]
  funext s
  show (if value.isIgnore then M.pure value else _ : M P Val) s = _
  rw [show value.isIgnore = false from hv]
  rfl

theorem pure_bind_eq {α β : Type} (a : α) (k : α → M P β) : (M.pure a >>= k) = k a := rfl

/-- C110.  What the `munge` hook makes of the value is filtered and validated in its place. -/
theorem C110_munged (ht : f.core.translations = []) (hv : Real value) (hw : Real (g value)) (n : Nat) :
    mapField I L C n (f.hooked (returning g) fl va) value = mapField I L C n (f.hooked none fl va) (g value) := by
  refine given_map (by rfl) (by rfl) hv hw (fun rec => ?_) n
  unfold fieldCheck
  rw [mungeStep_returning ht hv, mungeStep_none ht]
  rfl

/-- C110.  A value munged to `NONE` is as an ignored one. -/
theorem C110_munged_away {vs : List Val} (ht : f.core.translations = []) (hv : Real value) (hw : g value = .NONE)
    (hin : value.inList vs = true) (n : Nat) :
    mapField I L C n (f.hooked (returning g) fl va) value = mapField I L C n (f.ignoring vs) value := by
  refine given_map (by rfl) (by rfl) hv hv (fun rec => ?_) n
  have h2 : mungeStep I L C rec (f.ignoring vs) value = M.pure value :=
    mungeStep_none (f := f.ignoring vs) (fl := none) (va := none) rfl value
  unfold fieldCheck
  rw [mungeStep_returning ht hv, h2, pure_bind_eq, pure_bind_eq, hw]
  have hf : filterStep I L C rec (f.ignoring vs) value = M.pure false := by
    unfold filterStep fieldFilter
    show (if (!(value.inList vs)) = true then _ else _) = _
    rw [hin]
    rfl
  have hN : value.isNONE = false := by
    cases value <;> first | rfl | skip
    rename_i c
    cases c <;> first | rfl | cases hv
  rw [hf, hN, show value.isIgnore = false from hv]
  rfl

/-- C110.  The `munge` hook of a value that is translated is given the translation, and nothing else. -/
theorem C110_translated_first {m' : Option (Hook (Val → Prog))} (hv : Real value) (hh : value.hashable = true)
    (ht : dictGet? f.core.translations value = some w) (hm : SameOn (· = w) m m') (n : Nat) :
    mapField I L C n (f.hooked m fl va) value = mapField I L C n (f.hooked m' fl va) value := by
  refine given_map (by rfl) (by rfl) hv hv (fun rec => ?_) n
  have h1 : ∀ m, fieldMunge (f.hooked m fl va) value = .ok w := by
    intro m
    unfold fieldMunge
    have : (f.hooked m fl va).core.translations = f.core.translations := rfl
    rw [this, hh, ht]
    cases htr : f.core.translations with
    | nil => rw [htr] at ht; cases ht
    | cons _ _ => rfl
  have h : mungeStep I L C rec (f.hooked m fl va) value = mungeStep I L C rec (f.hooked m' fl va) value := by
    unfold mungeStep
    rw [h1, h1]
    show (if w.isIgnore then M.pure w else (match (generalizing := false) m with | some h => callHook1 I L C rec h w | none => M.pure w)) =
      (if w.isIgnore then M.pure w else (match (generalizing := false) m' with | some h => callHook1 I L C rec h w | none => M.pure w))
    match m, m', hm with
    | none, none, _ => rfl
    | some a, some b, hm => dsimp only; rw [hm.call rfl]
  unfold fieldCheck
  rw [h]
  rfl

/-- C110.  A value that the `filter` hook answers with something true is kept, as without the hook. -/
theorem C110_kept (ht : f.core.translations = []) (hv : Real value) (hk : (g value).truthy = true) (n : Nat) :
    mapField I L C n (f.hooked none (returning g) va) value = mapField I L C n (f.hooked none none va) value := by
  refine given_map (by rfl) (by rfl) hv hv (fun rec => ?_) n
  unfold fieldCheck
  rw [mungeStep_none ht, mungeStep_none ht, pure_bind_eq, pure_bind_eq]
  have h : filterStep I L C rec (f.hooked none (returning g) va) value = filterStep I L C rec (f.hooked none none va) value := by
    unfold filterStep
    have hf : fieldFilter (f.hooked none (returning g) va) value = fieldFilter (f.hooked none none va) value := rfl
    rw [hf]
    split
    · show (M.pure (g value).truthy : M P Bool) = M.pure true
      rw [hk]
    · rfl
  rw [h]
  rfl

/-- C110.  A value that the `filter` hook answers with something false, such as `None`, is as an ignored one. -/
theorem C110_dropped {vs : List Val} (ht : f.core.translations = []) (hv : Real value) (hk : (g value).truthy = false)
    (hin : value.inList vs = true) (n : Nat) :
    mapField I L C n (f.hooked none (returning g) va) value = mapField I L C n (f.ignoring vs) value := by
  rw [← C110_munged_away (f := f) (fl := none) (va := va) (g := fun _ => .NONE) ht hv rfl hin n]
  refine given_map (by rfl) (by rfl) hv hv (fun rec => ?_) n
  unfold fieldCheck
  rw [mungeStep_none ht, mungeStep_returning ht hv, pure_bind_eq, pure_bind_eq]
  have hN : value.isNONE = false := by
    cases value <;> first | rfl | skip
    rename_i c
    cases c <;> first | rfl | cases hv
  have h : filterStep I L C rec (f.hooked none (returning g) va) value = M.pure false := by
    unfold filterStep
    split
    · show (M.pure (g value).truthy : M P Bool) = M.pure false
      rw [hk]
    · rfl
  rw [h, hN, show value.isIgnore = false from hv]
  rfl

/-- C110.  A value that the `validate` hook answers with something true is accepted, as without the hook. -/
theorem C110_accepted (ht : f.core.translations = []) (hv : Real value) (hk : (g value).truthy = true) (n : Nat) :
    mapField I L C n (f.hooked none fl (returning g)) value = mapField I L C n (f.hooked none fl none) value := by
  refine given_map (by rfl) (by rfl) hv hv (fun rec => ?_) n
  unfold fieldCheck
  rw [mungeStep_none ht, mungeStep_none ht, pure_bind_eq, pure_bind_eq]
  have h : validateStep I L C rec (f.hooked none fl (returning g)) value = validateStep I L C rec (f.hooked none fl none) value := by
    unfold validateStep
    show (kindValidate I L _ value >>= _) = (kindValidate I L _ value >>= _)
    congr 1
    funext b
    cases b with
    | false => rfl
    | true =>
      show (M.pure (g value).truthy : M P Bool) = M.pure true
      rw [hk]
  rw [h]
  rfl

theorem bind_const {α : Type} {c : α} {m : M P α} {s s' : St P} {v : α} (h : m s = (.ok v, s')) :
    (m >>= fun _ => M.pure c) s = (.ok c, s') := by
  rw [M.bind_ok h]
  rfl

theorem withPush_const {α : Type} {c : α} {push : M P Unit} {m : M P α} {s s' : St P} {v : α}
    (h : withPush I push m s = (.ok v, s')) : withPush I push (m >>= fun _ => M.pure c) s = (.ok c, s') := by
  unfold withPush at h ⊢
  rcases hp : push s with ⟨r, s1⟩
  cases r with
  | error e => rw [M.bind_error hp] at h; cases h
  | ok u =>
    rw [M.bind_ok hp] at h ⊢
    unfold M.tryFinally at h ⊢
    rcases hm : m s1 with ⟨r, s2⟩
    rw [hm] at h
    cases r with
    | error e => dsimp only at h; split at h <;> cases h
    | ok a =>
      rw [bind_const hm]
      dsimp only at h ⊢
      split at h
      · rename_i hf
        cases h
        rfl
      · cases h

/-- C110.  A value that the `validate` hook answers with something false, such as `None`, gives `ERROR`, whatever the
field makes of it without the hook, and no other errors than without the hook. -/
theorem C110_refused (ht : f.core.translations = []) (ha : f.core.attachParent = false) (hv : Real value)
    (hi : value.inList f.core.ignores = false) (hk : (g value).truthy = false) {v : Val} {s s' : St P}
    (h : mapField I L C n (f.hooked none none none) value s = (.ok v, s')) :
    mapField I L C n (f.hooked none none (returning g)) value s = (.ok .ERROR, s') := by
  have hN : value.isNONE = false := by
    cases value <;> first | rfl | skip
    rename_i c
    cases c <;> first | rfl | cases hv
  cases n with
  | zero => cases h
  | succ n =>
    have hkeep : ∀ va, filterStep I L C (mapField I L C n) (f.hooked none none va) value = M.pure true := by
      intro va
      unfold filterStep fieldFilter
      show (if (!(value.inList f.core.ignores)) = true then _ else _) = _
      rw [hi]
      rfl
    have hcheck : fieldCheck I L C (mapField I L C n) (f.hooked none none (returning g)) value =
        (fieldCheck I L C (mapField I L C n) (f.hooked none none none) value >>= fun _ => M.pure .ERROR) := by
      unfold fieldCheck
      rw [mungeStep_none ht, mungeStep_none ht, pure_bind_eq, pure_bind_eq, hkeep, hkeep]
      funext s
      show (if value.isNONE then _ else if value.isIgnore then _ else _ : M P Val) s =
        ((if value.isNONE then _ else if value.isIgnore then _ else _ : M P Val) >>= fun _ => M.pure .ERROR) s
      rw [hN, show value.isIgnore = false from hv]
      show (validateStep I L C _ (f.hooked none none (returning g)) value >>= fun ok => M.pure (if ok then value else .ERROR)) s =
        ((validateStep I L C _ (f.hooked none none none) value >>= fun ok => M.pure (if ok then value else .ERROR)) >>= fun _ => M.pure .ERROR) s
      have hkv : kindValidate I L (f.hooked none none (returning g)) value = kindValidate I L (f.hooked none none none) value := rfl
      rcases hq : kindValidate I L (f.hooked none none none) value s with ⟨r, s1⟩
      cases r with
      | error e =>
        have hA : validateStep I L C (mapField I L C n) (f.hooked none none (returning g)) value s = (.error e, s1) := by
          unfold validateStep
          exact M.bind_error (by rw [hkv]; exact hq)
        have hB : validateStep I L C (mapField I L C n) (f.hooked none none none) value s = (.error e, s1) := by
          unfold validateStep
          exact M.bind_error hq
        rw [M.bind_error hA, M.bind_error (M.bind_error hB)]
      | ok b =>
        have hA : validateStep I L C (mapField I L C n) (f.hooked none none (returning g)) value s = (.ok false, s1) := by
          unfold validateStep
          refine (M.bind_ok (by rw [hkv]; exact hq)).trans ?_
          cases b with
          | false => rfl
          | true =>
            show (M.pure (g value).truthy : M P Bool) s1 = _
            rw [hk]
            rfl
        have hB : validateStep I L C (mapField I L C n) (f.hooked none none none) value s = (.ok b, s1) := by
          unfold validateStep
          refine (M.bind_ok hq).trans ?_
          cases b <;> rfl
        rw [M.bind_ok hA]
        have hC : (validateStep I L C (mapField I L C n) (f.hooked none none none) value >>= fun ok =>
            M.pure (if ok then value else .ERROR)) s = (.ok (if b then value else .ERROR), s1) := M.bind_ok hB
        rw [M.bind_ok hC]
        rfl
    have ha' : ∀ va, (f.hooked none none va).core.attachParent = false := fun _ => ha
    have h1 : mapFieldF I L C (mapField I L C n) (f.hooked none none none) value s = (.ok v, s') := h
    show mapFieldF I L C (mapField I L C n) (f.hooked none none (returning g)) value s = _
    unfold mapFieldF fieldMapInner at h1 ⊢
    rw [ha', hN] at h1 ⊢
    simp only [Bool.false_and, Bool.false_eq_true, if_false] at h1 ⊢
    rw [hcheck]
    rcases hw : withPush I (pushVars { field := some (f.hooked none none none).name, parent := some .field })
      (fieldCheck I L C (mapField I L C n) (f.hooked none none none) value) s with ⟨r, s2⟩
    cases r with
    | error e => rw [M.bind_error hw] at h1; cases h1
    | ok a =>
      rw [M.bind_ok hw] at h1
      cases h1
      have hname : (f.hooked none none (returning g)).name = (f.hooked none none none).name := rfl
      rw [hname, M.bind_ok (withPush_const hw)]
      rfl

/-- C110.  An ignored value is replaced by the default, as it is, and nothing is reported.  By `C110_munged_away` and
`C110_dropped` this holds of values that `munge` or `filter` take away. -/
theorem C110_default {vs : List Val} {d : Val} {s : St P} (ha : f.core.attachParent = false) (hv : Real value)
    (hin : value.inList vs = true) (hd : f.core.default = .value d) (hp : PlainDefault d)
    (hctx : s.env.ignoreDefault = some false) (n : Nat) :
    mapField I L C (n + 1) (f.ignoring vs) value s = (.ok d, s) := by
  have hN : value.isNONE = false := by
    cases value <;> first | rfl | skip
    rename_i c
    cases c <;> first | rfl | cases hv
  have hm : mungeStep I L C (mapField I L C n) (f.ignoring vs) value = M.pure value :=
    mungeStep_none (f := f.ignoring vs) (fl := none) (va := none) rfl value
  have hf : filterStep I L C (mapField I L C n) (f.ignoring vs) value = M.pure false := by
    unfold filterStep fieldFilter
    show (if (!(value.inList vs)) = true then _ else _) = _
    rw [hin]
    rfl
  have hdef : ∀ fr : Frame, fr.ignoreDefault = none →
      fieldDefault I L C (mapField I L C n) (f.ignoring vs) { s with stack := fr :: s.stack } =
        (.ok d, { s with stack := fr :: s.stack }) := by
    intro fr hfr
    have h1 : ctxGet Frame.ignoreDefault "ignore_default" { s with stack := fr :: s.stack } =
        (.ok false, { s with stack := fr :: s.stack }) := by
      have : lookup Frame.ignoreDefault (fr :: s.stack) = some false := by
        show (List.findSome? _ _) = _
        rw [List.findSome?_cons, hfr]
        exact hctx
      unfold ctxGet
      rw [this]
    unfold fieldDefault
    refine (M.bind_ok h1).trans ?_
    have : (f.ignoring vs).core.default = .value d := hd
    rw [this]
    obtain ⟨hp1, hp2⟩ := hp
    cases d with
    | const c => cases c <;> first | exact absurd rfl hp1 | rfl
    | func id => exact absurd rfl (hp2 id)
    | _ => rfl
  show mapFieldF I L C (mapField I L C n) (f.ignoring vs) value s = _
  have ha' : (f.ignoring vs).core.attachParent = false := ha
  unfold mapFieldF fieldMapInner fieldCheck
  rw [ha', hN, hm, pure_bind_eq, hN, show value.isIgnore = false from hv, hf]
  have hw : withPush I (pushVars { field := some (f.ignoring vs).name, parent := some .field })
      (fieldDefault I L C (mapField I L C n) (f.ignoring vs)) s = (.ok d, s) := by
    unfold withPush
    have hpush : pushVars { field := some (f.ignoring vs).name, parent := some .field } s =
        (.ok (), { s with stack := { field := some (f.ignoring vs).name, parent := some .field } :: s.stack }) := rfl
    refine (M.bind_ok hpush).trans ?_
    unfold M.tryFinally
    rw [hdef _ rfl]
    rfl
  exact M.bind_ok hw

/-- C110.  If `munge` gives `ERROR` or `NOT_SET`, so does the field, without asking the other hooks and without a report
of its own. -/
theorem C110_munged_constant {s : St P} (ht : f.core.translations = []) (hv : Real value) (hw : ¬ Real (g value))
    (hne : g value ≠ .NONE) (n : Nat) :
    mapField I L C (n + 1) (f.hooked (returning g) fl va) value s = (.ok (g value), s) := by
  have hN : value.isNONE = false := by
    cases value <;> first | rfl | skip
    rename_i c
    cases c <;> first | rfl | cases hv
  have hI : (g value).isIgnore = true := by simpa [Real] using hw
  have hN' : (g value).isNONE = false := by
    revert hne
    cases g value <;> first | (intro _; rfl) | skip
    rename_i c
    cases c <;> first | (intro _; rfl) | (intro h; exact absurd rfl h)
  show mapFieldF I L C (mapField I L C n) (f.hooked (returning g) fl va) value s = _
  unfold mapFieldF fieldMapInner fieldCheck
  rw [hN, mungeStep_returning ht hv, pure_bind_eq, hN', hI]
  have hw : withPush I (pushVars { field := some (f.hooked (returning g) fl va).name, parent := some .field })
      (M.pure (g value)) s = (.ok (g value), s) := rfl
  refine (M.bind_ok hw).trans ?_
  rw [hI]
  simp only [Bool.not_true, Bool.and_false, Bool.false_eq_true, if_false]
  rfl

/-- C110.  Hooks that return the value as it is and answer with something true change nothing, whether the value is given
or read from the source. -/
theorem C110_idle {p q : Val → Val} (hg : ∀ v, Real v → g v = v) (hp : ∀ v, Real v → (p v).truthy = true)
    (hq : ∀ v, Real v → (q v).truthy = true) (n : Nat) (value : Val) :
    mapField I L C n (f.hooked (returning g) (returning p) (returning q)) value =
      mapField I L C n (f.hooked none none none) value := by
  cases n with
  | zero => rfl
  | succ n =>
    refine hooked_map (fun v => ?_) value
    unfold fieldCheck
    have hm : mungeStep I L C (mapField I L C n) (f.hooked (returning g) (returning p) (returning q)) v =
        mungeStep I L C (mapField I L C n) (f.hooked none none none) v := by
      unfold mungeStep
      have : fieldMunge (f.hooked (returning g) (returning p) (returning q)) v = fieldMunge (f.hooked none none none) v := rfl
      rw [this]
      congr 1
      funext w
      split
      · rfl
      · rename_i hw
        show (M.pure (g w) : M P Val) = M.pure w
        rw [hg w (by simpa [Real] using hw)]
    rw [hm]
    congr 1
    funext w
    split
    · rfl
    · split
      · rfl
      · rename_i h2
        have hw : Real w := by simpa [Real] using h2
        have h3 : filterStep I L C (mapField I L C n) (f.hooked (returning g) (returning p) (returning q)) w =
            filterStep I L C (mapField I L C n) (f.hooked none none none) w := by
          unfold filterStep
          have : fieldFilter (f.hooked (returning g) (returning p) (returning q)) w = fieldFilter (f.hooked none none none) w := rfl
          rw [this]
          split
          · show (M.pure (p w).truthy : M P Bool) = M.pure true
            rw [hp w hw]
          · rfl
        have h4 : validateStep I L C (mapField I L C n) (f.hooked (returning g) (returning p) (returning q)) w =
            validateStep I L C (mapField I L C n) (f.hooked none none none) w := by
          unfold validateStep
          show (kindValidate I L _ w >>= _) = (kindValidate I L _ w >>= _)
          congr 1
          funext b
          cases b with
          | false => rfl
          | true =>
            show (M.pure (q w).truthy : M P Bool) = M.pure true
            rw [hq w hw]
        rw [h3, h4]
        rfl

end

/-! ### Examples -/

namespace Demo

/-- `return value if value != 3 else None` -/
def notThree (v : Val) : Val := match v with | .int 3 => .none | v => v

/-- An `Integer` field with a default of 7. -/
def sevenOr : Field := .mk { name := some "a", src := .str "a", default := .value (.int 7) } (.integer {})

/-- 3 is dropped by a `filter` hook that returns `None` for it, and the default is used; 4 is kept.  A `validate` hook
with the same answers rejects 3. -/
example : ((mapField (Path.ops lib) lib table 1 (sevenOr.hooked none (returning notThree) none) (.int 3) St.init).1,
    (mapField (Path.ops lib) lib table 1 (sevenOr.hooked none (returning notThree) none) (.int 4) St.init).1,
    (mapField (Path.ops lib) lib table 1 (sevenOr.hooked none none (returning notThree)) (.int 3) St.init).1) =
    (.ok (.int 7), .ok (.int 4), .ok .ERROR) := by decide +kernel

example (n : Nat) := C110_dropped (I := Path.ops lib) (L := lib) (C := table) (f := sevenOr) (g := notThree) (va := none)
  (value := .int 3) (vs := [.int 3]) rfl rfl rfl (by decide +kernel) n

example (n : Nat) := C110_munged (I := Path.ops lib) (L := lib) (C := table) (f := sevenOr) (fl := none) (va := none)
  (g := fun v => match v with | .int i => .int (2 * i) | v => v) (value := .int 3) rfl rfl rfl n

example (n : Nat) : mapField (Path.ops lib) lib table (n + 1) (sevenOr.hooked none (returning notThree) none) (.int 3) St.init =
    (.ok (.int 7), St.init) :=
  (congrFun (C110_dropped (f := sevenOr) (g := notThree) (va := none) (value := .int 3) (vs := [.int 3]) rfl rfl rfl (by decide +kernel) (n + 1)) _).trans
    (C110_default (f := sevenOr) (value := .int 3) rfl rfl (by decide +kernel) rfl ⟨by decide, fun _ h => by cases h⟩ rfl n)

example (n : Nat) (s : St Path) : mapField (Path.ops lib) lib table (n + 1)
    (sevenOr.hooked (returning fun _ => .ERROR) none none) (.int 3) s = (.ok .ERROR, s) :=
  C110_munged_constant (f := sevenOr) (g := fun _ => .ERROR) (value := .int 3) rfl rfl (by intro h; cases h) (by decide) n

/-- Hooks that return `value`, `[value]` and `True`: they answer differently for no value at all. -/
example (n : Nat) (value : Val) := C110_idle (I := Path.ops lib) (L := lib) (C := table) (f := sevenOr)
  (g := fun v => if v.isIgnore then .int 0 else v) (p := fun v => .list [v]) (q := fun v => .bool (!v.isIgnore))
  (fun v h => by simp [show v.isIgnore = false from h]) (fun _ _ => rfl)
  (fun v h => by simp [show v.isIgnore = false from h, Val.truthy]) n value

end Demo
end Pilo
