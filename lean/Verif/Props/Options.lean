import Verif.Props.BuildersDemo

/-!
# C64 to C66: options, ignored values and translations

`pilo/fields.py:364-399,453-459,503-527`.
-/

namespace Pilo
variable {P : Type} {α : Type} {I : PathOps P} {L : Lib} {W : LawfulPath I} {C : Classes} {rec : Rec P}
  {f : Field} {s : St P} {r : Nat} {q : P} {text : String} {b : ErrBuf} {o : Options}

/-! ## C64 -/

theorem whenSet_keeps {β : Type} (π : FieldCore → β) {arg : Option α} {g : α → FieldCore → FieldCore}
    (h : ∀ v c, π (g v c) = π c) : π (whenSet arg f g).core = π f.core := by
  cases arg with
  | none => rfl
  | some v => exact h v _

theorem whenSet_kind {arg : Option α} {g : α → FieldCore → FieldCore} : (whenSet arg f g).kind = f.kind := by
  cases arg <;> rfl

theorem whenSet_name {arg : Option α} {g : α → FieldCore → FieldCore} (h : ∀ v c, (g v c).name = c.name) :
    (whenSet arg f g).name = f.name := by
  unfold Field.name
  rw [whenSet_keeps FieldCore.name h]

/-- A part of the field that no option sets. -/
theorem options_keeps {β : Type} (π : FieldCore → β)
    (hn : ∀ v c, π { c with nullable := v } = π c) (hd : ∀ v c, π { c with default := v } = π c)
    (hi : ∀ v c, π { c with ignores := v } = π c) (ht : ∀ v c, π { c with translations := v } = π c)
    (ha : ∀ v c, π { c with attachParent := v } = π c) (hg : ∀ v c, π { c with tags := v } = π c) :
    π (f.options o).core = π f.core := by
  unfold Field.options
  refine (whenSet_keeps π fun _ _ => hg _ _).trans ?_
  refine (whenSet_keeps π fun _ _ => ha _ _).trans ?_
  refine (whenSet_keeps π fun _ _ => ht _ _).trans ?_
  refine (whenSet_keeps π fun _ _ => hi _ _).trans ?_
  refine (whenSet_keeps π fun d c => ?_).trans ?_
  · exact (hn _ { c with default := d }).trans (hd _ _)
  refine (whenSet_keeps π fun v c => hd _ _).trans ?_
  exact whenSet_keeps π fun _ _ => hn _ _

theorem options_kind : (f.options o).kind = f.kind := by
  unfold Field.options
  simp only [whenSet_kind]

theorem options_name : (f.options o).name = f.name := by
  unfold Field.name
  rw [options_keeps FieldCore.name] <;> intros <;> rfl

theorem whenSet_some {v : α} {g : α → FieldCore → FieldCore} : (whenSet (some v) f g).core = g v f.core := rfl

theorem whenSet_none {g : α → FieldCore → FieldCore} : whenSet none f g = f := rfl

/-- The default after `options`: the one given, else the one `optional` stands for, else the old one. -/
theorem options_default : (f.options o).core.default = match o.default, o.optional with
    | some d, _ => d
    | none, some v => if v.truthy then .value .NONE else f.core.default
    | none, none => f.core.default := by
  unfold Field.options
  dsimp only
  rw [whenSet_keeps FieldCore.default (by intros; rfl), whenSet_keeps FieldCore.default (by intros; rfl),
    whenSet_keeps FieldCore.default (by intros; rfl), whenSet_keeps FieldCore.default (by intros; rfl)]
  cases o.default with
  | some d => rfl
  | none =>
    rw [whenSet_none]
    cases o.optional with
    | none =>
      rw [whenSet_none, whenSet_keeps FieldCore.default (by intros; rfl)]
    | some v =>
      rw [whenSet_some]
      dsimp only
      rw [whenSet_keeps FieldCore.default (by intros; rfl)]

/-- The `nullable` flag after `options`. -/
theorem options_nullable : (f.options o).core.nullable = match o.default with
    | some (.value .none) => .bool true
    | _ => o.nullable.getD f.core.nullable := by
  unfold Field.options
  dsimp only
  rw [whenSet_keeps FieldCore.nullable (by intros; rfl), whenSet_keeps FieldCore.nullable (by intros; rfl),
    whenSet_keeps FieldCore.nullable (by intros; rfl), whenSet_keeps FieldCore.nullable (by intros; rfl)]
  have base : (whenSet o.nullable f fun v c => { c with nullable := v }).core.nullable
      = o.nullable.getD f.core.nullable := by
    cases o.nullable <;> rfl
  cases o.default with
  | none => rw [whenSet_none, whenSet_keeps FieldCore.nullable (by intros; rfl), base]
  | some d =>
    rw [whenSet_some]
    dsimp only
    rw [whenSet_keeps FieldCore.nullable (by intros; rfl), base]
    cases d with
    | value v => cases v <;> rfl
    | _ => rfl

theorem options_ignores : (f.options o).core.ignores = f.core.ignores ++ o.ignore.toList := by
  unfold Field.options
  dsimp only
  rw [whenSet_keeps FieldCore.ignores (by intros; rfl), whenSet_keeps FieldCore.ignores (by intros; rfl),
    whenSet_keeps FieldCore.ignores (by intros; rfl)]
  cases o.ignore with
  | none =>
    rw [whenSet_none, whenSet_keeps FieldCore.ignores (by intros; rfl), whenSet_keeps FieldCore.ignores (by intros; rfl),
      whenSet_keeps FieldCore.ignores (by intros; rfl)]
    simp
  | some v =>
    rw [whenSet_some]
    dsimp only
    rw [whenSet_keeps FieldCore.ignores (by intros; rfl), whenSet_keeps FieldCore.ignores (by intros; rfl),
      whenSet_keeps FieldCore.ignores (by intros; rfl)]
    rfl

theorem options_translations :
    (f.options o).core.translations = dictUpdate f.core.translations (o.translate.getD []) := by
  unfold Field.options
  dsimp only
  rw [whenSet_keeps FieldCore.translations (by intros; rfl), whenSet_keeps FieldCore.translations (by intros; rfl)]
  have base : (whenSet o.ignore (whenSet o.default (whenSet o.optional (whenSet o.nullable f
      fun v c => { c with nullable := v })
      fun v c => { c with default := if v.truthy then .value .NONE else c.default })
      fun d c => { c with default := d, nullable := if d.isNone then .bool true else c.nullable })
      fun v c => { c with ignores := c.ignores ++ [v] }).core.translations = f.core.translations := by
    rw [whenSet_keeps FieldCore.translations (by intros; rfl), whenSet_keeps FieldCore.translations (by intros; rfl),
      whenSet_keeps FieldCore.translations (by intros; rfl), whenSet_keeps FieldCore.translations (by intros; rfl)]
  cases o.translate with
  | none => exact base
  | some v =>
    rw [whenSet_some]
    dsimp only
    rw [base]
    rfl

theorem options_attachParent : (f.options o).core.attachParent = o.attachParent.getD f.core.attachParent := by
  unfold Field.options
  dsimp only
  rw [whenSet_keeps FieldCore.attachParent (by intros; rfl)]
  cases o.attachParent with
  | some v => rfl
  | none =>
    rw [whenSet_none, whenSet_keeps FieldCore.attachParent (by intros; rfl),
      whenSet_keeps FieldCore.attachParent (by intros; rfl), whenSet_keeps FieldCore.attachParent (by intros; rfl),
      whenSet_keeps FieldCore.attachParent (by intros; rfl), whenSet_keeps FieldCore.attachParent (by intros; rfl)]
    rfl

/-- The options name no callable. -/
def Options.Plain (o : Options) : Prop := ∀ d, o.default = some d → d = .unset ∨ ∃ v, d = .value v

theorem HookFree.options (h : HookFree f) (ho : o.Plain) : HookFree (f.options o) where
  default := by
    rw [options_default]
    cases hd : o.default with
    | some d => exact ho d hd
    | none =>
      cases o.optional with
      | none => exact h.default
      | some v =>
        dsimp only
        split
        · exact .inr ⟨_, rfl⟩
        · exact h.default
  resolve := (options_keeps FieldCore.resolve (fun _ _ => rfl) (fun _ _ => rfl) (fun _ _ => rfl) (fun _ _ => rfl)
    (fun _ _ => rfl) (fun _ _ => rfl)).trans h.resolve
  compute := (options_keeps FieldCore.compute (fun _ _ => rfl) (fun _ _ => rfl) (fun _ _ => rfl) (fun _ _ => rfl)
    (fun _ _ => rfl) (fun _ _ => rfl)).trans h.compute
  parse := (options_keeps FieldCore.parse (fun _ _ => rfl) (fun _ _ => rfl) (fun _ _ => rfl) (fun _ _ => rfl)
    (fun _ _ => rfl) (fun _ _ => rfl)).trans h.parse
  munge := (options_keeps FieldCore.munge (fun _ _ => rfl) (fun _ _ => rfl) (fun _ _ => rfl) (fun _ _ => rfl)
    (fun _ _ => rfl) (fun _ _ => rfl)).trans h.munge
  filter := (options_keeps FieldCore.filter (fun _ _ => rfl) (fun _ _ => rfl) (fun _ _ => rfl) (fun _ _ => rfl)
    (fun _ _ => rfl) (fun _ _ => rfl)).trans h.filter
  validate := (options_keeps FieldCore.validate (fun _ _ => rfl) (fun _ _ => rfl) (fun _ _ => rfl) (fun _ _ => rfl)
    (fun _ _ => rfl) (fun _ _ => rfl)).trans h.validate
  keyFilter := by
    rw [options_kind]
    exact h.keyFilter

theorem options_place (p : P) : (f.options o).place I p = f.place I p := by
  unfold Field.place
  rw [options_kind, options_keeps FieldCore.src (fun _ _ => rfl) (fun _ _ => rfl) (fun _ _ => rfl) (fun _ _ => rfl)
    (fun _ _ => rfl) (fun _ _ => rfl)]

theorem Spot.options (sp : Spot I W f s r q text b) (o : Options) : Spot I W (f.options o) s r q text b where
  inv := sp.inv
  live := sp.live
  place := by
    obtain ⟨p, hp, hq⟩ := sp.place
    exact ⟨p, hp, (options_place p).trans hq⟩
  text := sp.text
  errs := sp.errs
  collect := sp.collect

/-- C64. `options(default=None, ...)` on a field of any class without hooks: the field is optional and nullable, whatever
else is passed along, so both a missing and a null source give `None` and no error. -/
theorem C64_default_none (sp : Spot I W f s r q text b) (hf : HookFree f) (ho : o.default = some (.value .none))
    (ha : o.attachParent.getD f.core.attachParent = false) :
    (Absent I q → s.env.ignoreDefault = some false →
      Accepts (mapFieldF I L C rec (f.options o) .NONE) s .none) ∧
    (Null I q → f.core.translations = [] → o.translate = none → Val.none.inList (f.core.ignores ++ o.ignore.toList) = false →
      Accepts (mapFieldF I L C rec (f.options o) .NONE) s .none) := by
  have hpl : o.Plain := by
    intro d hd
    rw [ho] at hd
    cases hd
    exact .inr ⟨_, rfl⟩
  refine ⟨fun hq hctx => ?_, fun hq ht ht' hi => ?_⟩
  · refine C11_default (sp.options o) (hf.options hpl) (options_attachParent.trans ha) hq ?_ ?_ hctx
    · rw [options_default, ho]
    · exact ⟨(by intro h; cases h), (by intro _ h; cases h)⟩
  · refine C14_nullable (sp.options o) (hf.options hpl) (options_attachParent.trans ha) ?_ ?_ hq ?_
    · rw [options_translations, ht, ht']; rfl
    · rw [options_ignores]; exact hi
    · rw [options_nullable, ho]; rfl

/-- C64. `options(optional=True, ...)` without `default`: a missing source gives `NONE` and no error; `NONE` is never
stored (C29). -/
theorem C64_optional {v : Val} (sp : Spot I W f s r q text b) (hf : HookFree f) (hd : o.default = none)
    (ho : o.optional = some v) (hv : v.truthy = true) (ha : o.attachParent.getD f.core.attachParent = false)
    (hq : Absent I q) (hctx : s.env.ignoreDefault = some false) :
    Accepts (mapFieldF I L C rec (f.options o) .NONE) s .NONE := by
  refine C11_default (sp.options o) (hf.options fun d h => ?_) (options_attachParent.trans ha) hq ?_ ?_ hctx
  · rw [hd] at h; cases h
  · rw [options_default, hd, ho]
    simp only [hv, if_true]
  · exact ⟨(by intro h; cases h), (by intro _ h; cases h)⟩

/-- C64. A `default` passed along with `optional` wins. -/
theorem C64_default_wins {v : Val} (sp : Spot I W f s r q text b) (hf : HookFree f) (hd : o.default = some (.value v))
    (hv : PlainDefault v) (ha : o.attachParent.getD f.core.attachParent = false)
    (hq : Absent I q) (hctx : s.env.ignoreDefault = some false) :
    Accepts (mapFieldF I L C rec (f.options o) .NONE) s v := by
  refine C11_default (sp.options o) (hf.options fun d h => ?_) (options_attachParent.trans ha) hq ?_ hv hctx
  · rw [hd] at h; cases h; exact .inr ⟨_, rfl⟩
  · rw [options_default, hd]

/-- C64. Neither `default` nor a true `optional` passed, and no default before: the field is required. -/
theorem C64_required (sp : Spot I W f s r q text b) (hf : HookFree f) (hd : o.default = none)
    (ho : ∀ v, o.optional = some v → v.truthy = false) (hn : NoDefault f s.env)
    (ha : o.attachParent.getD f.core.attachParent = false)
    (hq : Absent I q) (hctx : s.env.ignoreMissing = some false) :
    Adds (mapFieldF I L C rec (f.options o) .NONE) s .NOT_SET
      { kind := .missing, path := text, field := f.name, pathRef := some r } := by
  have hdef : (f.options o).core.default = f.core.default := by
    rw [options_default, hd]
    cases h : o.optional with
    | none => rfl
    | some v => simp only [ho v h, Bool.false_eq_true, if_false]
  rw [← options_name (f := f) (o := o)]
  refine C11_missing (sp.options o) (hf.options fun d h => ?_) (options_attachParent.trans ha) hq ?_ hctx
  · rw [hd] at h; cases h
  · unfold NoDefault at hn ⊢
    rwa [hdef]

/-- C64. `options(nullable=False)`: a null source is an error, unless `default=None` was passed along. -/
theorem C64_not_nullable {v : Val} (sp : Spot I W f s r q text b) (hf : HookFree f) (hp : o.Plain)
    (hd : o.default ≠ some (.value .none)) (hn : o.nullable = some v) (hv : v.truthy = false)
    (ha : o.attachParent.getD f.core.attachParent = false) (hq : Null I q) (ht : f.core.translations = [])
    (ht' : o.translate = none) (hi : Val.none.inList (f.core.ignores ++ o.ignore.toList) = false) :
    Adds (mapFieldF I L C rec (f.options o) .NONE) s .ERROR
      { kind := .invalid "not nullable", path := text, field := f.name, pathRef := some r } := by
  rw [← options_name (f := f) (o := o)]
  refine C14_not_nullable (sp.options o) (hf.options hp) (options_attachParent.trans ha) ?_ ?_ hq ?_
  · rw [options_translations, ht, ht']; rfl
  · rw [options_ignores]; exact hi
  · rw [options_nullable]
    split
    · rename_i h; exact absurd h hd
    · rw [hn]; exact hv

end Pilo
