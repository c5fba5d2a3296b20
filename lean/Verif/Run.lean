import Verif.View
import Verif.Props.Context

/-!
# The course of `form.map`

`form.map(...)` that returns is a sequence of attempts, one for each selected field in class order, followed
by the `unmapped` directive.  This file takes the function apart into those steps, for every class.
-/

namespace Pilo
variable {P : Type} {I : PathOps P} {L : Lib} {C : Classes} {W : LawfulPath I} {rec : Rec P}

/-- One `field.map()` of the loop in `Form._map`: the field, the state it starts in, its result and the state
it ends in. -/
structure Attempt (P : Type) where
  field : Field
  before : St P
  value : Val
  after : St P

/-- The state once the result of an attempt is stored in the form, if it is a value. -/
def stored (id : Nat) (f : Field) (v : Val) (s : St P) : St P :=
  if v.isIgnore then s
  else { s with forms := s.forms.modify id fun o => { o with items := dictSet o.items f.key v } }

/-- Attempts one after the other, from one state to another. -/
inductive Rounds (rec : Rec P) (id : Nat) : List (Attempt P) → St P → St P → Prop where
  | nil (s : St P) : Rounds rec id [] s s
  | cons {a : Attempt P} {as : List (Attempt P)} {s s' : St P} (hs : a.before = s)
      (h : rec a.field .NONE s = (.ok a.value, a.after))
      (t : Rounds rec id as (stored id a.field a.value a.after) s') : Rounds rec id (a :: as) s s'

theorem mapOne_ok {id : Nat} {tags : List String} {f : Field} (hf : selected tags f = true) {s s1 : St P}
    {v : Val} (h : rec f .NONE s = (.ok v, s1)) :
    mapOne rec id tags f s = (.ok (), stored id f v s1) := by
  unfold mapOne
  rw [if_pos hf, M.bind_ok h]
  unfold stored
  split <;> rfl

/-- The field loop returns exactly when every selected field was attempted, in order. -/
theorem mapFields_ok (id : Nat) (tags : List String) (fs : List Field) : ∀ (s s' : St P),
    mapFields rec id tags fs s = (.ok (), s') ↔
      ∃ as, Rounds rec id as s s' ∧ as.map Attempt.field = fs.filter (selected tags) := by
  induction fs with
  | nil =>
    intro s s'
    constructor
    · intro h; cases h; exact ⟨[], .nil s, rfl⟩
    · rintro ⟨as, h, ha⟩
      cases h with
      | nil => rfl
      | cons => cases ha
  | cons f fs ih =>
    intro s s'
    unfold mapFields
    by_cases hf : selected tags f = true
    · rw [List.filter_cons_of_pos hf]
      rcases hr : rec f .NONE s with ⟨r, s1⟩
      cases r with
      | error e =>
        have : mapOne rec id tags f s = (.error e, s1) := by
          unfold mapOne; rw [if_pos hf, M.bind_error hr]
        rw [M.bind_error this]
        constructor
        · intro h; cases h
        · rintro ⟨as, h, ha⟩
          cases h with
          | nil => cases ha
          | cons hs h t =>
            simp only [List.map_cons, List.cons.injEq] at ha
            rw [ha.1, hr] at h; cases h
      | ok v =>
        rw [M.bind_ok (mapOne_ok hf hr), ih]
        constructor
        · rintro ⟨as, h, ha⟩
          exact ⟨⟨f, s, v, s1⟩ :: as, .cons rfl hr h, by simp [ha]⟩
        · rintro ⟨as, h, ha⟩
          cases h with
          | nil => cases ha
          | cons hs h t =>
            simp only [List.map_cons, List.cons.injEq] at ha
            rw [ha.1, hr] at h
            injection h with h1 h2
            injection h1 with h1
            rw [ha.1, ← h1, ← h2] at t
            exact ⟨_, t, ha.2⟩
    · rw [List.filter_cons_of_neg hf]
      have : mapOne rec id tags f s = (.ok (), s) := by
        unfold mapOne; rw [if_neg hf]; rfl
      rw [M.bind_ok this]
      exact ih s s'

/-- The field loop raises exactly when some selected field raises after those before it were attempted. -/
theorem mapFields_error (id : Nat) (tags : List String) (fs : List Field) : ∀ (s s' : St P) (e : Exc),
    mapFields rec id tags fs s = (.error e, s') ↔
      ∃ as f rest s1, Rounds rec id as s s1 ∧ rec f .NONE s1 = (.error e, s') ∧
        as.map Attempt.field ++ f :: rest = fs.filter (selected tags) := by
  induction fs with
  | nil =>
    intro s s' e
    constructor
    · intro h; cases h
    · rintro ⟨as, f, rest, s1, -, -, h⟩
      simp at h
  | cons f fs ih =>
    intro s s' e
    unfold mapFields
    by_cases hf : selected tags f = true
    · rw [List.filter_cons_of_pos hf]
      rcases hr : rec f .NONE s with ⟨r, s1⟩
      cases r with
      | error x =>
        have : mapOne rec id tags f s = (.error x, s1) := by
          unfold mapOne; rw [if_pos hf, M.bind_error hr]
        rw [M.bind_error this]
        constructor
        · intro h; cases h
          exact ⟨[], f, _, s, .nil s, hr, rfl⟩
        · rintro ⟨as, g, rest, s2, h, hg, ha⟩
          cases h with
          | nil =>
            simp only [List.map_nil, List.nil_append, List.cons.injEq] at ha
            rw [ha.1, hr] at hg; cases hg; rfl
          | cons hs h t =>
            simp only [List.map_cons, List.cons_append, List.cons.injEq] at ha
            rw [ha.1, hr] at h; cases h
      | ok v =>
        rw [M.bind_ok (mapOne_ok hf hr), ih]
        constructor
        · rintro ⟨as, g, rest, s2, h, hg, ha⟩
          exact ⟨⟨f, s, v, s1⟩ :: as, g, rest, s2, .cons rfl hr h, hg, by simp [ha]⟩
        · rintro ⟨as, g, rest, s2, h, hg, ha⟩
          cases h with
          | nil =>
            simp only [List.map_nil, List.nil_append, List.cons.injEq] at ha
            rw [ha.1, hr] at hg; cases hg
          | cons hs h t =>
            simp only [List.map_cons, List.cons_append, List.cons.injEq] at ha
            rw [ha.1, hr] at h
            injection h with h1 h2
            injection h1 with h1
            rw [ha.1, ← h1, ← h2] at t
            exact ⟨_, g, rest, s2, t, hg, ha.2⟩
    · rw [List.filter_cons_of_neg hf]
      have : mapOne rec id tags f s = (.ok (), s) := by
        unfold mapOne; rw [if_neg hf]; rfl
      rw [M.bind_ok this]
      exact ih s s' e

theorem Ext.stored {id : Nat} {f : Field} {v : Val} {s : St P} (hs : Inv W s) :
    Ext W s (stored id f v s) := by
  unfold Pilo.stored
  split
  · exact .refl hs.wf
  · exact (Keeps.formSet id f.key v).run s hs

theorem Rounds.ext (hr : RecKeeps W rec) {id : Nat} {as : List (Attempt P)} {s s' : St P}
    (h : Rounds rec id as s s') : Inv W s → Ext W s s' := by
  induction h with
  | nil s => intro hs; exact .refl hs.wf
  | cons hs h t ih =>
    intro hi
    rename_i a as s s'
    have h1 := (hr a.field .NONE).run _ hi
    rw [h] at h1
    have h2 : Ext W _ (stored id a.field a.value a.after) := Ext.stored (h1.inv hi)
    exact h1.trans (h2.trans (ih (h2.inv (h1.inv hi))))

/-! ### `reset` -/

/-- The entries of a form after `form._reset(tags)`. -/
def resetItems (tags : List String) (fs : List Field) (d : List (Val × Val)) : List (Val × Val) :=
  (fs.filter (selected tags)).foldl (fun d f => dictDel d f.key) d

/-- The forms after the `reset` step of `form.map`. -/
def resetForms (reset : Bool) (id : Nat) (tags : List String) (fs : List Field) (forms : List FormObj) :
    List FormObj :=
  if reset then forms.modify id fun o => { o with items := resetItems tags fs o.items } else forms

theorem List.modify_self {α : Type} (l : List α) (i : Nat) : (l.modify i fun a => a) = l := by
  refine List.ext_getElem? fun j => ?_
  rw [List.getElem?_modify]
  split <;> simp

theorem formReset_run (id : Nat) (tags : List String) (fs : List Field) : ∀ s : St P,
    formReset id tags fs s = (.ok (), { s with
      forms := s.forms.modify id fun o => { o with items := resetItems tags fs o.items } }) := by
  induction fs with
  | nil =>
    intro s
    show (Except.ok (), s) = _
    have : (s.forms.modify id fun o : FormObj => { o with items := resetItems tags [] o.items }) = s.forms :=
      List.modify_self _ _
    rw [this]
  | cons f fs ih =>
    intro s
    unfold formReset
    by_cases hf : selected tags f = true
    · rw [if_pos hf]
      have h1 : formDel id f.key s = (.ok (), { s with
          forms := s.forms.modify id fun o => { o with items := dictDel o.items f.key } }) := rfl
      rw [M.bind_ok h1, ih]
      congr 2
      rw [List.modify_modify_eq]
      unfold resetItems
      rw [List.filter_cons_of_pos hf]
      rfl
    · rw [if_neg hf]
      have h1 : (M.pure () : M P Unit) s = (.ok (), s) := rfl
      rw [M.bind_ok h1, ih]
      unfold resetItems
      rw [List.filter_cons_of_neg hf]

/-! ### `form.map` -/

/-- The path a root mapping of `src` starts at. -/
inductive StartsAt (I : PathOps P) (C : Classes) (cls : Nat) : SrcArg P → P → Prop where
  | none : StartsAt I C cls .none (I.native (.dict []) Option.none)
  | null : StartsAt I C cls (.data .none) (I.native (.dict []) Option.none)
  | source (p : P) : StartsAt I C cls (.source (.ok p)) p
  | dict (kvs : List (Val × Val)) : StartsAt I C cls (.data (.dict kvs)) (I.native (.dict kvs) Option.none)
  | list (xs : List Val) :
    StartsAt I C cls (.data (.list xs)) (I.native (.list xs) (some (seqAliases (C cls).fields)))
  | tuple (xs : List Val) :
    StartsAt I C cls (.data (.tuple xs)) (I.native (.tuple xs) (some (seqAliases (C cls).fields)))

/-- The frame in which the fields of form `id` are mapped. -/
def formFrame (id : Nat) : Frame := { form := some id, parent := some (.form id) }

/-- What `form.map` of a form with class `cls` and effective tags `T`, started in `s` and returned in `s'`
with error list `e`, did: it went to state `s1`, attempted `as` reaching `s2`, and applied the `unmapped`
directive reaching `s3`. -/
structure Course (I : PathOps P) (C : Classes) (rec : Rec P) (id cls : Nat) (src : SrcArg P)
    (T : List String) (reset : Bool) (u : Unmapped) (raising : Bool) (s : St P) (e : Nat) (fr : Frame)
    (as : List (Attempt P)) (s1 s2 s3 s' : St P) : Prop where
  /-- The class of the form. -/
  ofClass : (s.forms[id]?).map FormObj.cls = some cls
  /-- The context of the fields: one frame with the new error list (and the new source), one with the form. -/
  stack1 : s1.stack = formFrame id :: fr :: s.stack
  errors : fr = { src := fr.src, errors := some e }
  /-- The new error list is empty. -/
  newList : e = s.errs.length
  errs1 : s1.errs = s.errs ++ [⟨raising, []⟩]
  /-- The form was reset, if asked for. -/
  forms1 : s1.forms = resetForms reset id T (C cls).fields s.forms
  /-- Where the fields read: below the current path, or at the start of the given source. -/
  start : ∃ r p, curPathObj s1 = some (some (r, (I.mapping p).2)) ∧ (∃ kv, (I.mapping p).1 = .ok kv) ∧
    ((src.isNone = true ∧ s.env.src = some true ∧ fr.src = .absent ∧ curPathObj s = some (some (r, p)) ∧
        s1.paths.length = s.paths.length) ∨
      ((src.isNone = false ∨ s.env.src = some false) ∧ fr.src = .source r ∧ r = s.paths.length ∧
        s1.paths = s.paths ++ [(I.mapping p).2] ∧ StartsAt I C cls src p))
  /-- The selected fields were attempted in class order. -/
  rounds : Rounds rec id as s1 s2
  fields : as.map Attempt.field = (C cls).fields.filter (selected T)
  unmapped : applyUnmapped rec id u { s2 with stack := fr :: s.stack } = (.ok (), s3)
  /-- Nothing happened to forms and this error list afterwards. -/
  forms' : s'.forms = s3.forms
  errs' : s'.errs[e]? = s3.errs[e]?
  /-- With `error='raise'` the list is empty. -/
  raised : raising = true → ((s'.errs[e]?).elim [] ErrBuf.items) = []

/-- The tags a mapping uses: its own or those of the context (`pilo/fields.py:1661-1662`). -/
def St.tagsFor (s : St P) (tags : List String) : List String := pickTags tags s.env.tags

section
theorem bindOk {α β : Type} {m : M P α} {f : α → M P β} {s s' : St P} {b : β}
    (h : (m >>= f) s = (.ok b, s')) : ∃ a s1, m s = (.ok a, s1) ∧ f a s1 = (.ok b, s') := by
  rcases hm : m s with ⟨r, s1⟩
  cases r with
  | ok a => rw [M.bind_ok hm] at h; exact ⟨a, s1, rfl, h⟩
  | error e => rw [M.bind_error hm] at h; cases h

theorem onPath_some {α : Type} {f : P → Except Exc α × P} {s s' : St P} {a : α}
    (h : Pilo.onPath f s = (.ok a, s')) : ∃ r p, curPathObj s = some (some (r, p)) ∧ (f p).1 = .ok a ∧
      s' = { s with paths := s.paths.set r (f p).2 } ∧ curPath s.stack = some (some r) ∧ s.paths[r]? = some p := by
  unfold Pilo.onPath at h
  rcases hc : curPath s.stack with _ | _ | r
  · rw [hc] at h; cases h
  · rw [hc] at h; cases h
  · rw [hc] at h
    dsimp only at h
    rcases hp : s.paths[r]? with _ | p
    · rw [hp] at h; cases h
    · rw [hp] at h
      dsimp only at h
      rcases hf : f p with ⟨x, q⟩
      rw [hf] at h
      injection h with h1 h2
      refine ⟨r, p, ?_, ?_, ?_, rfl, hp⟩
      · unfold curPathObj; rw [hc]; simp [hp]
      · rw [hf]; exact h1
      · rw [hf]; exact h2.symm
end


section
variable (hr : RecKeeps W rec)
include hr

theorem formMapBody_ok {id : Nat} {T : List String} {u : Unmapped} {sb s3 : St P} (hi : Inv W sb)
    (h : formMapBody I C rec id T u sb = (.ok (), s3)) :
    ∃ r p kv cls as s2, curPathObj sb = some (some (r, p)) ∧ curPath sb.stack = some (some r) ∧
      sb.paths[r]? = some p ∧ (I.mapping p).1 = .ok kv ∧
      (sb.forms[id]?).map FormObj.cls = some cls ∧
      Inv W { sb with paths := sb.paths.set r (I.mapping p).2, stack := formFrame id :: sb.stack } ∧
      Rounds rec id as { sb with paths := sb.paths.set r (I.mapping p).2, stack := formFrame id :: sb.stack } s2 ∧
      as.map Attempt.field = (C cls).fields.filter (selected T) ∧
      applyUnmapped rec id u { s2 with stack := sb.stack } = (.ok (), s3) := by
  unfold formMapBody at h
  obtain ⟨kv, sa, h1, h⟩ := bindOk h
  have hka := Keeps.mapping (W := W).run sb hi
  rw [h1] at hka
  obtain ⟨r, p, hc, hm, rfl, hcp, hp⟩ := onPath_some h1
  obtain ⟨cls, sc, h2, h⟩ := bindOk h
  have hcls : sc = { sb with paths := sb.paths.set r (I.mapping p).2 } ∧
      (sb.forms[id]?).map FormObj.cls = some cls := by
    unfold formCls at h2
    dsimp only at h2
    split at h2
    · rename_i o ho; cases h2; rw [ho]; exact ⟨rfl, rfl⟩
    · cases h2
  obtain ⟨rfl, hcls⟩ := hcls
  obtain ⟨⟨⟩, sd, h3, h⟩ := bindOk h
  rcases hb : mapFields rec id T (C cls).fields
    { sb with paths := sb.paths.set r (I.mapping p).2, stack := formFrame id :: sb.stack } with ⟨x, s2⟩
  have hinv : Inv W { sb with paths := sb.paths.set r (I.mapping p).2, stack := formFrame id :: sb.stack } :=
    Inv.cons (f := formFrame id) (hka.inv hi) (.inl rfl)
  have hst := ((Keeps.mapFields hr id T (C cls).fields).run _ hinv).stack
  rw [hb] at hst
  have hw := withPush_run (I := I) (push := pushVars { form := some id, parent := some (.form id) })
    (s := { sb with paths := sb.paths.set r (I.mapping p).2 })
    (s0 := { sb with paths := sb.paths.set r (I.mapping p).2 }) (f := formFrame id) rfl
    (by intro k h; cases h) hb hst
  rw [hw] at h3
  injection h3 with hx hsd
  subst hx
  obtain ⟨as, hrd, has⟩ := (mapFields_ok id T (C cls).fields _ _).1 hb
  exact ⟨r, p, kv, cls, as, s2, hc, hcp, hp, hm, hcls, hinv, hrd, has, by rw [hsd]; exact h⟩

theorem formMap_course {id : Nat} {src : SrcArg P} (hsrc : SrcOK W src) {tags : List String} {reset : Bool}
    {u : Unmapped} {raising : Bool} {s s' : St P} {e : Nat} (hi : Inv W s) (hl : Live s)
    (h : formMap I C rec id src tags reset u raising s = (.ok e, s')) :
    ∃ cls fr as s1 s2 s3, Inv W s1 ∧
      Course I C rec id cls src (s.tagsFor tags) reset u raising s e fr as s1 s2 s3 s' := by
  unfold formMap at h
  have h0 : ctxGet? Frame.tags s = (.ok s.env.tags, s) := rfl
  rw [M.bind_ok h0] at h
  generalize hT : pickTags tags s.env.tags = T at h
  have hTT : s.tagsFor tags = T := hT
  rw [hTT]
  obtain ⟨⟨⟩, sr, h1, h⟩ := bindOk h
  -- the reset step
  have hreset : ∀ cls, (s.forms[id]?).map FormObj.cls = some cls →
      sr = { s with forms := resetForms reset id T (C cls).fields s.forms } := by
    intro cls hcls
    unfold formResetIf at h1
    unfold resetForms
    cases reset with
    | false => cases h1; rfl
    | true =>
      simp only [if_true] at h1 ⊢
      have hc : formCls id s = (.ok cls, s) := by
        unfold formCls
        cases ho : s.forms[id]? with
        | none => rw [ho] at hcls; cases hcls
        | some o => rw [ho] at hcls; cases hcls; rfl
      rw [M.bind_ok hc, formReset_run] at h1
      injection h1 with _ h1
      exact h1.symm
  have hsr : sr.stack = s.stack ∧ sr.paths = s.paths ∧ sr.errs = s.errs ∧
      ∀ i : Nat, (sr.forms[i]?).map FormObj.cls = (s.forms[i]?).map FormObj.cls := by
    unfold formResetIf at h1
    cases reset with
    | false => cases h1; exact ⟨rfl, rfl, rfl, fun _ => rfl⟩
    | true =>
      simp only [if_true] at h1
      obtain ⟨cls, sx, hc, h1'⟩ := bindOk h1
      have : sx = s := by
        unfold formCls at hc
        split at hc <;> cases hc
        rfl
      rw [this, formReset_run] at h1'
      injection h1' with _ h1'
      rw [← h1']
      refine ⟨rfl, rfl, rfl, fun i => ?_⟩
      dsimp only
      rw [List.getElem?_modify]
      cases s.forms[i]? with
      | none => rfl
      | some o => dsimp only [Functor.map, Option.map]; split <;> rfl
  have hir : Inv W sr := by
    have : Keeps W (formResetIf C id T reset : M P Unit) := by
      unfold formResetIf
      split
      · exact .bind (.formCls id) fun cls => .formReset id T _
      · exact .pure _
    have h2 := this.run s hi
    rw [h1] at h2
    exact h2.inv hi
  obtain ⟨hst, hpa, her, hcl⟩ := hsr
  obtain ⟨b, hb⟩ := hl.src
  have hsrc' : ctxGet (fun f => f.src.src?) "src" sr = (.ok b, sr) := by
    refine ctxGet_ok ?_
    rw [hst]; exact hb
  rw [M.bind_ok hsrc'] at h
  obtain ⟨e', sm, h2, h3⟩ := bindOk h
  have hfin : e' = e ∧ sm = s' ∧ (raising = true → ((s'.errs[e]?).elim [] ErrBuf.items) = []) := by
    unfold formFinish at h3
    cases raising with
    | false => cases h3; exact ⟨rfl, rfl, by intro h; cases h⟩
    | true =>
      simp only [if_true] at h3
      have h4 : errItems e' sm = (.ok ((sm.errs[e']?).elim [] ErrBuf.items), sm) := rfl
      rw [M.bind_ok h4] at h3
      split at h3
      · rename_i hz
        cases h3
        exact ⟨rfl, rfl, fun _ => by simpa using hz⟩
      · cases h3
  obtain ⟨rfl, rfl, hraised⟩ := hfin
  have hcur : curPathObj sr = curPathObj s := by unfold curPathObj; rw [hst, hpa]
  -- a nested mapping
  have nested : src.isNone = true → b = true → nestedMap I C rec id T u raising sr = (.ok e', sm) →
      ∃ cls fr as s1 s2 s3, Inv W s1 ∧ Course I C rec id cls src T reset u raising s e' fr as s1 s2 s3 sm := by
    intro hnone hbt hn
    unfold nestedMap at hn
    have hne : newErrs raising sr = (.ok sr.errs.length, { sr with errs := sr.errs ++ [⟨raising, []⟩] }) := rfl
    rw [M.bind_ok hne] at hn
    have hie : Inv W { sr with errs := sr.errs ++ [⟨raising, []⟩] } := by
      have := (Keeps.newErrs (W := W) raising).run sr hir
      rw [hne] at this
      exact this.inv hir
    let fr : Frame := { errors := some sr.errs.length }
    let sb : St P := { sr with errs := sr.errs ++ [⟨raising, []⟩], stack := fr :: sr.stack }
    have hib : Inv W sb := Inv.cons (f := fr) hie (.inl rfl)
    rcases hbody : formMapBody I C rec id T u sb with ⟨x, s3⟩
    have hst3 := ((Keeps.formMapBody hr id T u (C := C)).run sb hib).stack
    rw [hbody] at hst3
    have hw := withPush_run (I := I) (push := pushVars { errors := some sr.errs.length })
      (s := { sr with errs := sr.errs ++ [⟨raising, []⟩] })
      (s0 := { sr with errs := sr.errs ++ [⟨raising, []⟩] }) (f := fr) rfl
      (by intro k h; cases h) hbody hst3
    obtain ⟨⟨⟩, sx, hn1, hn⟩ := bindOk hn
    rw [hw] at hn1
    injection hn1 with hx hsx
    subst hx hsx
    obtain ⟨outer, sy, hn2, hn⟩ := bindOk hn
    have hsy : sy = { s3 with stack := sr.stack } ∧ lookup Frame.errors sr.stack = some outer := by
      unfold ctxGet at hn2
      dsimp only at hn2
      split at hn2
      · rename_i a ha; cases hn2; exact ⟨rfl, ha⟩
      · cases hn2
    obtain ⟨rfl, houter⟩ := hsy
    have hn3 : errItems sr.errs.length { s3 with stack := sr.stack } =
      (.ok ((s3.errs[sr.errs.length]?).elim [] ErrBuf.items), { s3 with stack := sr.stack }) := rfl
    rw [M.bind_ok hn3] at hn
    generalize (s3.errs[sr.errs.length]?).elim [] ErrBuf.items = es at hn
    have hn4 : errExtend outer es { s3 with stack := sr.stack } = (.ok (), { s3 with
      stack := sr.stack, errs := s3.errs.modify outer fun b => { b with items := b.items ++ es } }) := rfl
    rw [M.bind_ok hn4] at hn
    cases hn
    obtain ⟨r, p, kv, cls, as, s2, hc, hcp, hp, hm, hcls, hi1, hrd, has, hun⟩ := formMapBody_ok hr hib hbody
    have hcls' : (s.forms[id]?).map FormObj.cls = some cls := by rw [← hcl id]; exact hcls
    have hsr' := hreset cls hcls'
    have hlt : r < sr.paths.length := (List.getElem?_eq_some_iff.1 hp).1
    have hcr : curPath sr.stack = some (some r) := by
      simpa [sb, fr, curPath, lookup, FrameSrc.path?] using hcp
    refine ⟨cls, fr, as, { sb with paths := sb.paths.set r (I.mapping p).2, stack := formFrame id :: sb.stack }, s2, s3, hi1, ?_⟩
    exact
      { ofClass := hcls'
        stack1 := by show formFrame id :: fr :: sr.stack = _; rw [hst]
        errors := rfl
        newList := by rw [her]
        errs1 := by show sr.errs ++ _ = _; rw [her]
        forms1 := by show sr.forms = _; rw [hsr']
        start := by
          refine ⟨r, p, ?_, ⟨kv, hm⟩, .inl ⟨hnone, by rw [hb, hbt], rfl, ?_, ?_⟩⟩
          · unfold curPathObj
            have : curPath (formFrame id :: fr :: sr.stack) = some (some r) := by
              simpa [formFrame, fr, curPath, lookup, FrameSrc.path?] using hcr
            show (match curPath (formFrame id :: fr :: sr.stack) with | none => none | some none => some none | some (some r') => ((sr.paths.set r (I.mapping p).2)[r']?).map fun p => some (r', p)) = _
            rw [this]
            simp [hlt]
          · rw [← hcur]
            unfold curPathObj
            rw [hcr]
            have hp' : sr.paths[r]? = some p := hp
            simp only [hp', Option.map_some]
          · show (sr.paths.set r (I.mapping p).2).length = _
            rw [List.length_set, hpa]
        rounds := hrd
        fields := has
        unmapped := by rw [← hst]; exact hun
        forms' := rfl
        errs' := by
          have : outer ≠ sr.errs.length := by
            have := hl.errs outer (by rw [← hst]; exact houter)
            rw [her]; omega
          show (s3.errs.modify outer _)[sr.errs.length]? = _
          rw [List.getElem?_modify]
          simp only [if_neg this]
          cases s3.errs[sr.errs.length]? <;> rfl
        raised := hraised }
  -- a root mapping
  have root : ∀ src' : SrcArg P, (src.isNone = false ∧ src' = src) ∨ (src' = .none ∧ src.isNone = true ∧ b = false) →
      rootMap I C rec id src' T u raising sr = (.ok e', sm) →
      ∃ cls fr as s1 s2 s3, Inv W s1 ∧ Course I C rec id cls src T reset u raising s e' fr as s1 s2 s3 sm := by
    intro src' hs' hn
    have hsrc'' : SrcOK W src' := by
      rcases hs' with ⟨-, rfl⟩ | ⟨rfl, -, -⟩
      · exact hsrc
      · trivial
    unfold rootMap at hn
    obtain ⟨mk, sk, hk, hn0⟩ := bindOk hn
    have hmk : sk = sr ∧ ∀ cls p, (s.forms[id]?).map FormObj.cls = some cls → mk = .ok p →
        StartsAt I C cls src' p := by
      unfold rootSource at hk
      have hcase : ∀ {xs : Except Exc P} {g : Nat → P}, (formCls id >>= fun cls => M.pure (.ok (g cls))) sr =
          ((.ok xs : Except Exc (Except Exc P)), sk) → sk = sr ∧ ∃ cls', (s.forms[id]?).map FormObj.cls = some cls' ∧
            xs = .ok (g cls') := by
        intro xs g hh
        obtain ⟨cls', sz, hz, hh⟩ := bindOk hh
        unfold formCls at hz
        split at hz
        · rename_i o ho
          cases hz; cases hh
          refine ⟨rfl, o.cls, ?_, rfl⟩
          rw [← hcl id, ho]; rfl
        · cases hz
      split at hk
      · cases hk; exact ⟨rfl, fun cls p _ h => by cases h; exact .none⟩
      · cases hk; exact ⟨rfl, fun cls p _ h => by subst h; exact .source p⟩
      · cases hk; exact ⟨rfl, fun cls p _ h => by cases h; exact .dict _⟩
      · obtain ⟨h1, cls', h2, h3⟩ := hcase hk
        refine ⟨h1, fun cls p h4 h => ?_⟩
        rw [h2] at h4; cases h4
        rw [h3] at h; cases h; exact .list _
      · obtain ⟨h1, cls', h2, h3⟩ := hcase hk
        refine ⟨h1, fun cls p h4 h => ?_⟩
        rw [h2] at h4; cases h4
        rw [h3] at h; cases h; exact .tuple _
      · cases hk
    obtain ⟨hsk, hstart⟩ := hmk
    subst hsk
    clear hn
    have hne : newErrs raising sk = (.ok sk.errs.length, { sk with errs := sk.errs ++ [⟨raising, []⟩] }) := rfl
    rw [M.bind_ok hne] at hn0
    obtain ⟨⟨⟩, sx, hn1, hn2⟩ := bindOk hn0
    cases hn2
    have hie : Inv W { sk with errs := sk.errs ++ [⟨raising, []⟩] } := by
      have := (Keeps.newErrs (W := W) raising).run sk hir
      rw [hne] at this
      exact this.inv hir
    cases mk with
    | error x =>
      have : pushSource (.error x : Except Exc P) { errors := some sk.errs.length }
          { sk with errs := sk.errs ++ [⟨raising, []⟩] } =
          (.error x, { sk with errs := sk.errs ++ [⟨raising, []⟩] }) := rfl
      unfold withPush at hn1
      rw [M.bind_error this] at hn1
      cases hn1
    | ok p0 =>
      have hwf : W.WF p0 := by
        have h5 := rootSource_ok (C := C) (id := id) hsrc'' sk hir
        rw [hk] at h5
        exact h5.2 _ rfl p0 rfl
      let fr : Frame := { src := .source sk.paths.length, errors := some sk.errs.length }
      let sb : St P := { sk with errs := sk.errs ++ [⟨raising, []⟩], paths := sk.paths ++ [p0], stack := fr :: sk.stack }
      have hpush : pushSource (.ok p0) { errors := some sk.errs.length }
          { sk with errs := sk.errs ++ [⟨raising, []⟩] } = (.ok (), sb) := rfl
      have hib : Inv W sb := by
        have := PushOK.inv (PushOK.source (W := W) (mk := .ok p0) (f := { errors := some sk.errs.length })
          (by intro p h; cases h; exact hwf)) hie
        rw [hpush] at this
        exact this
      rcases hbody : formMapBody I C rec id T u sb with ⟨x, s3⟩
      have hst3 := ((Keeps.formMapBody hr id T u (C := C)).run sb hib).stack
      rw [hbody] at hst3
      have hw := withPush_run (I := I) (push := pushSource (.ok p0) { errors := some sk.errs.length })
        (s := { sk with errs := sk.errs ++ [⟨raising, []⟩] })
        (s0 := { sk with errs := sk.errs ++ [⟨raising, []⟩], paths := sk.paths ++ [p0] }) (f := fr) hpush
        (by intro k h; cases h) hbody hst3
      rw [hw] at hn1
      injection hn1 with hx hsx
      subst hx
      obtain ⟨r, p, kv, cls, as, s2, hc, hcp, hp, hm, hcls, hi1, hrd, has, hun⟩ := formMapBody_ok hr hib hbody
      have hcls' : (s.forms[id]?).map FormObj.cls = some cls := by rw [← hcl id]; exact hcls
      have hsr' := hreset cls hcls'
      have hrr : r = sk.paths.length := by
        have : curPath sb.stack = some (some sk.paths.length) := by
          simp [sb, fr, curPath, lookup, FrameSrc.path?]
        rw [this] at hcp
        cases hcp; rfl
      subst hrr
      have hpp : p = p0 := by
        have : sb.paths[sk.paths.length]? = some p0 := by simp [sb]
        rw [this] at hp; cases hp; rfl
      subst hpp
      refine ⟨cls, fr, as, { sb with paths := sb.paths.set sk.paths.length (I.mapping p).2, stack := formFrame id :: sb.stack }, s2, s3, hi1, ?_⟩
      exact
        { ofClass := hcls'
          stack1 := by show formFrame id :: fr :: sk.stack = _; rw [hst]
          errors := rfl
          newList := by rw [her]
          errs1 := by show sk.errs ++ _ = _; rw [her]
          forms1 := by show sk.forms = _; rw [hsr']
          start := by
            have hset : (sk.paths ++ [p]).set sk.paths.length (I.mapping p).2 = sk.paths ++ [(I.mapping p).2] := by
              rw [List.set_append_right _ _ (Nat.le_refl _)]; simp
            refine ⟨sk.paths.length, p, ?_, ⟨kv, hm⟩, .inr ⟨?_, rfl, by rw [hpa], ?_, ?_⟩⟩
            · unfold curPathObj
              have : curPath (formFrame id :: fr :: sk.stack) = some (some sk.paths.length) := by
                simp [formFrame, fr, curPath, lookup, FrameSrc.path?]
              show (match curPath (formFrame id :: fr :: sk.stack) with | none => none | some none => some none | some (some r') => (((sk.paths ++ [p]).set sk.paths.length (I.mapping p).2)[r']?).map fun p => some (r', p)) = _
              rw [this, hset]
              simp
            · rcases hs' with ⟨h, -⟩ | ⟨-, -, h⟩
              · exact .inl h
              · exact .inr (by rw [hb, h])
            · show (sk.paths ++ [p]).set sk.paths.length (I.mapping p).2 = _
              rw [hset, hpa]
            · have h6 := hstart cls p hcls' rfl
              rcases hs' with ⟨-, rfl⟩ | ⟨rfl, h, -⟩
              · exact h6
              · cases h6
                cases src with
                | none => exact .none
                | data v => cases v <;> first | exact .null | (cases h; done)
                | source mk => cases h
          rounds := hrd
          fields := has
          unmapped := by rw [← hst]; exact hun
          forms' := by rw [← hsx]
          errs' := by rw [← hsx]
          raised := hraised }
  unfold formMapAt at h2
  by_cases hn : src.isNone = true
  · rw [if_pos hn] at h2
    cases b with
    | true => exact nested hn rfl h2
    | false => exact root .none (.inr ⟨rfl, hn, rfl⟩) h2
  · rw [if_neg hn] at h2
    exact root src (.inl ⟨by simpa using hn, rfl⟩) h2

end
end Pilo
