import Verif.Clone
import Verif.ValEq

/-!
# C67: copies of fields
-/

namespace Pilo.Clone
open Hooks (Func Outcome)

/-- What a program can see of a field. -/
structure Settings where
  parent : Option Nat
  name : Option String
  src : Val
  nullable : Val
  attachParent : Bool
  default : Option Func ⊕ Val
  ignores : List Val
  translations : List (Val × Val)
  tags : List (Val × Val)
  hook : HookName → Option Func

/-- The settings of a field with these attributes. -/
def Heap.read (h : Heap) (o : Obj) : Settings where
  parent := o.parent
  name := o.name
  src := o.src
  nullable := o.nullable
  attachParent := o.attachParent
  default := match o.default with | .hook r => .inl (h.hooks r).func | .value v => .inr v
  ignores := h.list o.ignores
  translations := h.dict o.translations
  tags := h.dict o.tags
  hook := fun n => (h.hooks (o.hook n)).func

def Heap.view (h : Heap) (i : Nat) : Option Settings := (h.field i).map h.read

/-- What a reference is used for. -/
inductive Use where
  | translations
  | tags
  | default
  | hook (n : HookName)

/-- The references of a field are below `n`, and used for one thing. -/
structure Obj.OK (use : Nat → Use) (n : Nat) (o : Obj) : Prop where
  hook : ∀ k, o.hook k < n ∧ use (o.hook k) = .hook k
  default : ∀ r, o.default = .hook r → r < n ∧ use r = .default
  ignores : o.ignores < n
  translations : o.translations < n ∧ use o.translations = .translations
  tags : o.tags < n ∧ use o.tags = .tags

/-- Every reference in use is below `next`, and is used for one thing by all fields. -/
def WF (h : Heap) : Prop := ∃ use, ∀ i o, h.field i = some o → i < h.next ∧ o.OK use h.next

theorem WF.field {h : Heap} (wf : WF h) {i : Nat} {o : Obj} (ho : h.field i = some o) : i < h.next := (wf.choose_spec i o ho).1

theorem put_same {α : Type} (f : Nat → α) (i : Nat) (v : α) : put f i v i = v := if_pos rfl

theorem put_other {α : Type} (f : Nat → α) {i j : Nat} (v : α) (hne : j ≠ i) : put f i v j = f j := if_neg hne

variable {h : Heap} {i j : Nat} {o : Obj}

theorem assign_other {g : Obj → Obj} (hne : i ≠ j) : (h.assign j g).field i = h.field i := put_other _ _ hne

theorem assign_same {g : Obj → Obj} (ho : h.field i = some o) : (h.assign i g).field i = some (g o) := by
  unfold Heap.assign
  dsimp only
  rw [put_same, ho]
  rfl

theorem setCompute_field (fn : Nat) (k : Nat) : (h.setCompute j o fn).2.field k = h.field k := rfl

/-! ## References -/

/-- The references two field objects have in common. -/
structure Aliased (o o' : Obj) : Prop where
  ignores : o'.ignores = o.ignores
  translations : o'.translations = o.translations
  tags : o'.tags = o.tags
  hook : o'.hook = o.hook
  default : ∀ r, o'.default = .hook r → o.default = .hook r

theorem Aliased.refl (o : Obj) : Aliased o o := ⟨rfl, rfl, rfl, rfl, fun _ h => h⟩

theorem Aliased.trans {a b c : Obj} (h1 : Aliased a b) (h2 : Aliased b c) : Aliased a c :=
  ⟨h2.ignores.trans h1.ignores, h2.translations.trans h1.translations, h2.tags.trans h1.tags, h2.hook.trans h1.hook,
    fun r hr => h1.default r (h2.default r hr)⟩

theorem Aliased.ok {use : Nat → Use} {n : Nat} {o o' : Obj} (h : Aliased o o') (ho : o.OK use n) : o'.OK use n where
  hook := by rw [h.hook]; exact ho.hook
  default r hr := ho.default r (h.default r hr)
  ignores := by rw [h.ignores]; exact ho.ignores
  translations := by rw [h.translations]; exact ho.translations
  tags := by rw [h.tags]; exact ho.tags

theorem Obj.OK.mono {use use' : Nat → Use} {n m : Nat} (ho : o.OK use n) (hm : n ≤ m)
    (hu : ∀ r, r < n → use' r = use r) : o.OK use' m where
  hook k := ⟨Nat.lt_of_lt_of_le (ho.hook k).1 hm, (hu _ (ho.hook k).1).trans (ho.hook k).2⟩
  default r hr := ⟨Nat.lt_of_lt_of_le (ho.default r hr).1 hm, (hu _ (ho.default r hr).1).trans (ho.default r hr).2⟩
  ignores := Nat.lt_of_lt_of_le ho.ignores hm
  translations := ⟨Nat.lt_of_lt_of_le ho.translations.1 hm, (hu _ ho.translations.1).trans ho.translations.2⟩
  tags := ⟨Nat.lt_of_lt_of_le ho.tags.1 hm, (hu _ ho.tags.1).trans ho.tags.2⟩

/-- The heap in which `constant` of an attached field ends. -/
theorem constant_attached_eq {p fn : Nat} (hp : o.parent = some p) : h.act i o (.constant fn) = (.top h.next,
    { h with
      next := h.next + 2
      field := put (put h.field h.next (some { o with parent := none })) h.next (some { o with
        parent := none, hook := fun n => if n = .compute then h.next + 1 else o.hook n })
      hooks := put (put h.hooks (h.next + 1) { spec := computeSpec }) (h.next + 1)
        { spec := computeSpec, func := some ⟨fn, computeSpec⟩, target := some h.next }
      owner := put h.owner (h.next + 1) h.next }) := by
  unfold Heap.act
  rw [hp]
  dsimp only
  unfold Heap.setCompute Heap.clone
  simp [put_same, Hooks.Hook.attach, Hooks.Hook.call]

/-- The fields after an operation: those there were, with their references, and perhaps a new one, whose references are
those of the field operated on except for a new `compute`. -/
theorem act_field {oj : Obj} (hj : h.field j = some oj) (op : Op) {k : Nat} {ok : Obj}
    (hk : (h.act j oj op).2.field k = some ok) :
    (∃ o, h.field k = some o ∧ Aliased o ok) ∨
      (k = h.next ∧ h.next < (h.act j oj op).2.next ∧ ok.ignores = oj.ignores ∧ ok.translations = oj.translations ∧
        ok.tags = oj.tags ∧ ok.default = oj.default ∧
        ∀ n, ok.hook n = oj.hook n ∨ n = .compute ∧ ok.hook n = h.next + 1 ∧ h.next + 1 < (h.act j oj op).2.next) := by
  have assign : ∀ g : Obj → Obj, (h.assign j g).field k = some ok → (∀ o, Aliased o (g o)) →
      ∃ o, h.field k = some o ∧ Aliased o ok := by
    intro g hk hg
    by_cases e : k = j
    · subst e
      rw [assign_same hj] at hk
      cases hk
      exact ⟨oj, hj, hg oj⟩
    · rw [assign_other e] at hk
      exact ⟨ok, hk, .refl ok⟩
  cases op with
  | nullable v => exact .inl (assign _ hk fun _ => ⟨rfl, rfl, rfl, rfl, fun _ h => h⟩)
  | default v => exact .inl (assign _ hk fun _ => ⟨rfl, rfl, rfl, rfl, fun _ h => by cases h⟩)
  | attachParent b => exact .inl (assign _ hk fun _ => ⟨rfl, rfl, rfl, rfl, fun _ h => h⟩)
  | attach p n => exact .inl (assign _ hk fun _ => ⟨rfl, rfl, rfl, rfl, fun _ h => h⟩)
  | ignore vs => exact .inl ⟨ok, hk, .refl ok⟩
  | translate kvs => exact .inl ⟨ok, hk, .refl ok⟩
  | tag kvs => exact .inl ⟨ok, hk, .refl ok⟩
  | register n fn => exact .inl ⟨ok, hk, .refl ok⟩
  | registerDefault fn =>
    refine .inl ⟨ok, ?_, .refl ok⟩
    unfold Heap.act at hk
    cases hd : oj.default <;> rw [hd] at hk <;> exact hk
  | clone =>
    have hk : put h.field h.next (some { oj with parent := none }) k = some ok := hk
    by_cases e : k = h.next
    · subst e
      rw [put_same] at hk
      cases hk
      exact .inr ⟨rfl, Nat.lt_succ_self _, rfl, rfl, rfl, rfl, fun n => .inl rfl⟩
    · rw [put_other _ _ e] at hk
      exact .inl ⟨ok, hk, .refl ok⟩
  | constant fn =>
    cases hp : oj.parent with
    | none =>
      unfold Heap.act at hk
      rw [hp] at hk
      exact .inl ⟨ok, hk, .refl ok⟩
    | some p =>
      rw [constant_attached_eq hp] at hk ⊢
      dsimp only at hk ⊢
      by_cases e : k = h.next
      · subst e
        rw [put_same] at hk
        cases hk
        refine .inr ⟨rfl, by omega, rfl, rfl, rfl, rfl, fun n => ?_⟩
        by_cases en : n = .compute
        · exact .inr ⟨en, if_pos en, by omega⟩
        · exact .inl (if_neg en)
      · rw [put_other _ _ e, put_other _ _ e] at hk
        exact .inl ⟨ok, hk, .refl ok⟩

/-- No operation replaces the lists, dictionaries and hooks of a field. -/
theorem act_aliased (wf : WF h) {oj : Obj} (hj : h.field j = some oj) (op : Op) (ho : h.field i = some o) :
    ∃ o', (h.act j oj op).2.field i = some o' ∧ Aliased o o' := by
  have hlt := wf.field ho
  have assign : ∀ g : Obj → Obj, (∀ o, Aliased o (g o)) → ∃ o', (h.assign j g).field i = some o' ∧ Aliased o o' := by
    intro g hg
    by_cases e : i = j
    · subst e
      exact ⟨_, assign_same ho, hg o⟩
    · exact ⟨o, (assign_other e).trans ho, .refl o⟩
  have fresh : ∀ (f : Nat → Option Obj) v, f i = some o → put f h.next v i = some o := by
    intro f v hf
    rw [put_other _ _ (by omega), hf]
  cases op with
  | nullable v => exact assign _ fun _ => ⟨rfl, rfl, rfl, rfl, fun _ h => h⟩
  | default v => exact assign _ fun _ => ⟨rfl, rfl, rfl, rfl, fun _ h => by cases h⟩
  | attachParent b => exact assign _ fun _ => ⟨rfl, rfl, rfl, rfl, fun _ h => h⟩
  | attach p n => exact assign _ fun _ => ⟨rfl, rfl, rfl, rfl, fun _ h => h⟩
  | ignore vs => exact ⟨o, ho, .refl o⟩
  | translate kvs => exact ⟨o, ho, .refl o⟩
  | tag kvs => exact ⟨o, ho, .refl o⟩
  | register n fn => exact ⟨o, ho, .refl o⟩
  | registerDefault fn =>
    refine ⟨o, ?_, .refl o⟩
    unfold Heap.act
    cases oj.default <;> exact ho
  | clone => exact ⟨o, fresh _ _ ho, .refl o⟩
  | constant fn =>
    refine ⟨o, ?_, .refl o⟩
    unfold Heap.act
    cases oj.parent with
    | none => exact ho
    | some p => exact fresh _ _ (fresh _ _ ho)

theorem act_next {oj : Obj} (op : Op) : h.next ≤ (h.act j oj op).2.next := by
  cases op with
  | registerDefault fn => unfold Heap.act; cases oj.default <;> exact Nat.le_refl _
  | clone => exact Nat.le_succ _
  | constant fn =>
    cases hp : oj.parent with
    | none => unfold Heap.act; rw [hp]; exact Nat.le_refl _
    | some p => rw [constant_attached_eq hp]; exact Nat.le_add_right _ _
  | _ => exact Nat.le_refl _

theorem act_wf (wf : WF h) {oj : Obj} (hj : h.field j = some oj) (op : Op) : WF (h.act j oj op).2 := by
  obtain ⟨use, hw⟩ := wf
  have hle := act_next (h := h) (j := j) (oj := oj) op
  refine ⟨fun r => if r = h.next + 1 then .hook .compute else if r < h.next then use r else .default, fun k ok hk => ?_⟩
  have hu : ∀ r, r < h.next → (if r = h.next + 1 then Use.hook .compute else if r < h.next then use r else .default) = use r := by
    intro r hr
    rw [if_neg (by omega), if_pos hr]
  rcases act_field hj op hk with ⟨o, ho, ha⟩ | ⟨rfl, hlt, h1, h2, h3, h4, h5⟩
  · obtain ⟨hk, hok⟩ := hw k o ho
    exact ⟨by omega, (ha.ok hok).mono hle hu⟩
  · have hok := (hw j oj hj).2.mono hle hu
    refine ⟨hlt, ⟨fun n => ?_, by rw [h4]; exact hok.default, by rw [h1]; exact hok.ignores, by rw [h2]; exact hok.translations,
      by rw [h3]; exact hok.tags⟩⟩
    rcases h5 n with e | ⟨rfl, e, hlt'⟩
    · rw [e]; exact hok.hook n
    · rw [e]; exact ⟨hlt', if_pos rfl⟩

theorem make_field {src : Val} {spec : HookName → String} {dspec : String} {k : Nat} {ok : Obj}
    (hk : (h.make src spec dspec).2.field k = some ok) :
    h.field k = some ok ∧ k ≠ h.next ∨ k = h.next ∧ ok = {
      src := src, default := .hook (h.next + 4), ignores := h.next + 1
      translations := h.next + 2, tags := h.next + 3, hook := fun n => h.next + 5 + n.index } := by
  have hk : put h.field h.next _ k = some ok := hk
  by_cases e : k = h.next
  · subst e
    rw [put_same] at hk
    cases hk
    exact .inr ⟨rfl, rfl⟩
  · rw [put_other _ _ e] at hk
    exact .inl ⟨hk, e⟩

theorem make_wf (wf : WF h) (src : Val) (spec : HookName → String) (dspec : String) : WF (h.make src spec dspec).2 := by
  obtain ⟨use, hw⟩ := wf
  refine ⟨fun r => if r < h.next then use r else if r = h.next + 2 then .translations else if r = h.next + 3 then .tags else
    if r = h.next + 4 then .default else .hook (if r = h.next + 5 then .compute else if r = h.next + 6 then .resolve else
      if r = h.next + 7 then .parse else if r = h.next + 8 then .munge else if r = h.next + 9 then .filter else .validate),
    fun k ok hk => ?_⟩
  rcases make_field hk with ⟨hk, -⟩ | ⟨rfl, rfl⟩
  · obtain ⟨hlt, hok⟩ := hw k ok hk
    have hle : h.next ≤ (h.make src spec dspec).2.next := Nat.le_add_right _ _
    exact ⟨by omega, hok.mono hle fun r hr => if_pos hr⟩
  · refine ⟨show h.next < h.next + 11 by omega, ⟨fun n => ?_, fun r hr => ?_, show _ < h.next + 11 by dsimp only; omega, ?_, ?_⟩⟩
    · cases n <;> refine ⟨show _ < h.next + 11 by simp [HookName.index], ?_⟩ <;> simp [HookName.index, Nat.add_assoc]
    · cases hr
      exact ⟨show _ < h.next + 11 by omega, by simp⟩
    · exact ⟨show _ < h.next + 11 by dsimp only; omega, by simp⟩
    · exact ⟨show _ < h.next + 11 by dsimp only; omega, by simp⟩

theorem perform_aliased (wf : WF h) (a : Act) (ho : h.field i = some o) :
    ∃ o', (h.perform a).field i = some o' ∧ Aliased o o' := by
  cases a with
  | make src spec dspec =>
    refine ⟨o, ?_, .refl o⟩
    have := wf.field ho
    show put h.field h.next _ i = _
    rw [put_other _ _ (by omega), ho]
  | on j op =>
    unfold Heap.perform Heap.step
    dsimp only
    cases hj : h.field j with
    | none => exact ⟨o, ho, .refl o⟩
    | some oj => exact act_aliased wf hj op ho

theorem perform_wf (wf : WF h) (a : Act) : WF (h.perform a) := by
  cases a with
  | make src spec dspec => exact make_wf wf src spec dspec
  | on j op =>
    unfold Heap.perform Heap.step
    dsimp only
    cases hj : h.field j with
    | none => exact wf
    | some oj => exact act_wf wf hj op

theorem empty_wf : WF Heap.empty := ⟨fun _ => .default, fun i o h => by cases h⟩

theorem run_wf (acts : List Act) : ∀ {h : Heap}, WF h → WF (h.run acts) := by
  induction acts with
  | nil => intro h wf; exact wf
  | cons a acts ih => intro h wf; exact ih (perform_wf wf a)

theorem run_aliased (acts : List Act) : ∀ {h : Heap} {o : Obj}, WF h → h.field i = some o →
    ∃ o', (h.run acts).field i = some o' ∧ Aliased o o' := by
  induction acts with
  | nil => intro h o _ ho; exact ⟨o, ho, .refl o⟩
  | cons a acts ih =>
    intro h o wf ho
    obtain ⟨o1, h1, a1⟩ := perform_aliased wf a ho
    obtain ⟨o2, h2, a2⟩ := ih (perform_wf wf a) h1
    exact ⟨o2, h2, a1.trans a2⟩

/-- C67. A copy has the settings of the original and no parent, and every field there was is as it was. -/
theorem C67_copy (wf : WF h) (o : Obj) :
    (h.clone o).2.view (h.clone o).1 = some { h.read o with parent := none } ∧
    (∀ k ok, h.field k = some ok → k ≠ (h.clone o).1 ∧ (h.clone o).2.view k = h.view k) := by
  refine ⟨?_, fun k ok hk => ?_⟩
  · unfold Heap.view Heap.clone
    dsimp only
    rw [put_same]
    rfl
  · have := wf.field hk
    have hne : k ≠ h.next := by omega
    refine ⟨hne, ?_⟩
    unfold Heap.view Heap.clone
    dsimp only
    rw [put_other _ _ hne]
    rfl

/-- C67, the negation of independence: whatever is done afterwards, to the original, to the copy or to any other field,
the two have the same ignored values, translations, tags and hooks. -/
theorem C67_counterexample_shared (wf : WF h) (ho : h.field i = some o) (ops : List Act) :
    ∃ a b, ((h.clone o).2.run ops).view i = some a ∧ ((h.clone o).2.run ops).view (h.clone o).1 = some b ∧
      a.ignores = b.ignores ∧ a.translations = b.translations ∧ a.tags = b.tags ∧ a.hook = b.hook := by
  have wf' : WF (h.clone o).2 := act_wf wf ho .clone
  have hi : (h.clone o).2.field i = some o := by
    have := wf.field ho
    unfold Heap.clone
    dsimp only
    rw [put_other _ _ (by omega), ho]
  have hc : (h.clone o).2.field (h.clone o).1 = some { o with parent := none } := put_same _ _ _
  obtain ⟨a, ha, ea⟩ := run_aliased ops wf' hi
  obtain ⟨b, hb, eb⟩ := run_aliased ops wf' hc
  refine ⟨_, _, by unfold Heap.view; rw [ha]; rfl, by unfold Heap.view; rw [hb]; rfl, ?_, ?_, ?_, ?_⟩
  · show Heap.list _ _ = Heap.list _ _
    rw [ea.ignores, eb.ignores]
  · show Heap.dict _ _ = Heap.dict _ _
    rw [ea.translations, eb.translations]
  · show Heap.dict _ _ = Heap.dict _ _
    rw [ea.tags, eb.tags]
  · funext n
    show Hooks.Hook.func _ = Hooks.Hook.func _
    rw [ea.hook, eb.hook]

/-! ## What does stay apart -/

/-- What does not touch what copies share: assignments to another field, copies, constants of attached fields, and new
fields. -/
def Apart (h : Heap) (i : Nat) : Act → Prop
  | .on j (.nullable _) | .on j (.default _) | .on j (.attachParent _) | .on j (.attach _ _) => j ≠ i
  | .on _ .clone => True
  | .on j (.constant _) => ∀ o, h.field j = some o → o.parent ≠ none
  | .on _ _ => False
  | .make _ _ _ => True

/-- A history of such steps. -/
def AllApart (i : Nat) : Heap → List Act → Prop
  | _, [] => True
  | h, a :: acts => Apart h i a ∧ AllApart i (h.perform a) acts

theorem read_hooks {h' : Heap} (wf : WF h) (ho : h.field i = some o) (hl : h'.list = h.list) (hd : h'.dict = h.dict)
    (hh : ∀ r, r < h.next → h'.hooks r = h.hooks r) : h'.read o = h.read o := by
  obtain ⟨use, hw⟩ := wf
  have hok := (hw i o ho).2
  unfold Heap.read
  have h1 : (fun n => (h'.hooks (o.hook n)).func) = fun n => (h.hooks (o.hook n)).func := by
    funext n
    rw [hh _ (hok.hook n).1]
  have h2 : (match o.default with | .hook r => (Sum.inl (h'.hooks r).func : Option Func ⊕ Val) | .value v => .inr v) =
      match o.default with | .hook r => .inl (h.hooks r).func | .value v => .inr v := by
    cases hdf : o.default with
    | value v => rfl
    | hook r =>
      dsimp only
      rw [hh _ (hok.default r hdf).1]
  rw [h1, h2, hl, hd]

/-- A new field leaves every field as it was. -/
theorem make_view (wf : WF h) {src : Val} {spec : HookName → String} {dspec : String} (ho : h.field i = some o) :
    (h.make src spec dspec).2.view i = h.view i := by
  obtain ⟨use, hw⟩ := wf
  obtain ⟨hlt, hok⟩ := hw i o ho
  unfold Heap.view
  have e : (h.make src spec dspec).2.field i = some o := by
    show put h.field h.next _ i = _
    rw [put_other _ _ (by omega), ho]
  rw [e, ho]
  show some _ = some _
  congr 1
  have hh : ∀ r, r < h.next → (h.make src spec dspec).2.hooks r = h.hooks r := fun r hr => if_pos (.inl hr)
  have hd : ∀ r, r < h.next → (h.make src spec dspec).2.dict r = h.dict r := by
    intro r hr
    show put (put h.dict (h.next + 2) []) (h.next + 3) [] r = _
    rw [put_other _ _ (by omega), put_other _ _ (by omega)]
  have hl : ∀ r, r < h.next → (h.make src spec dspec).2.list r = h.list r := by
    intro r hr
    show put h.list (h.next + 1) [] r = _
    rw [put_other _ _ (by omega)]
  unfold Heap.read
  rw [hl _ hok.ignores, hd _ hok.translations.1, hd _ hok.tags.1]
  congr 1
  · cases hdf : o.default with
    | value v => rfl
    | hook r =>
      dsimp only
      rw [hh _ (hok.default r hdf).1]
  · funext n
    rw [hh _ (hok.hook n).1]

theorem apart_view (wf : WF h) {a : Act} (ha : Apart h i a) (ho : h.field i = some o) :
    (h.perform a).view i = h.view i := by
  cases a with
  | make src spec dspec => exact make_view wf ho
  | on j op =>
  unfold Heap.perform Heap.step
  dsimp only
  cases hj : h.field j with
  | none => rfl
  | some oj =>
    dsimp only
    have hlt := wf.field ho
    cases op with
    | nullable v => unfold Heap.view; rw [show (h.act j oj (.nullable v)).2.field i = _ from assign_other (Ne.symm ha)]; rfl
    | default v => unfold Heap.view; rw [show (h.act j oj (.default v)).2.field i = _ from assign_other (Ne.symm ha)]; rfl
    | attachParent b => unfold Heap.view; rw [show (h.act j oj (.attachParent b)).2.field i = _ from assign_other (Ne.symm ha)]; rfl
    | attach p n => unfold Heap.view; rw [show (h.act j oj (.attach p n)).2.field i = _ from assign_other (Ne.symm ha)]; rfl
    | clone => exact ((C67_copy wf oj).2 i o ho).2
    | constant fn =>
      cases hp : oj.parent with
      | none => exact absurd hp (ha oj hj)
      | some p =>
        rw [constant_attached_eq hp]
        unfold Heap.view
        dsimp only
        rw [put_other _ _ (by omega), put_other _ _ (by omega), ho]
        show some _ = some _
        congr 1
        refine read_hooks wf ho rfl rfl fun r hr => ?_
        dsimp only
        rw [put_other _ _ (by omega), put_other _ _ (by omega)]
    | _ => exact ha.elim

/-- C67 (partial: see `C67_counterexample_shared` for the rest). No history of assignments to other fields, copies and
constants of attached fields changes a field. -/
theorem C67_apart_partial (ops : List Act) : ∀ {h : Heap} {o : Obj}, WF h → h.field i = some o →
    AllApart i h ops → (h.run ops).view i = h.view i := by
  induction ops with
  | nil => intro h o _ _ _; rfl
  | cons a ops ih =>
    intro h o wf ho ha
    obtain ⟨o1, h1, _⟩ := perform_aliased wf a ho
    exact (ih (perform_wf wf a) h1 ha.2).trans (apart_view wf ha.1 ho)

/-- C67. `constant` on a field that is attached: every field there was keeps its settings; what is returned is a new
field, not attached, with the settings of the old one but for `compute`. -/
theorem C67_constant_attached {p fn : Nat} (wf : WF h) (ho : h.field i = some o) (hp : o.parent = some p) :
    ∃ c, (h.act i o (.constant fn)).1 = .top c ∧ h.field c = none ∧
      (h.act i o (.constant fn)).2.view c = some { h.read o with
        parent := none
        hook := fun n => if n = .compute then some ⟨fn, computeSpec⟩ else (h.read o).hook n } ∧
      ∀ k ok, h.field k = some ok → (h.act i o (.constant fn)).2.view k = h.view k := by
  have hok := (wf.choose_spec i o ho).2
  refine ⟨h.next, by rw [constant_attached_eq hp], ?_, ?_, fun k ok hk => ?_⟩
  · cases hn : h.field h.next with
    | none => rfl
    | some x => exact absurd (wf.field hn) (Nat.lt_irrefl _)
  · rw [constant_attached_eq hp]
    unfold Heap.view
    dsimp only
    rw [put_same]
    show some _ = some _
    congr 1
    have h1 : ∀ r, r < h.next → put (put h.hooks (h.next + 1) { spec := computeSpec }) (h.next + 1)
        { spec := computeSpec, func := some ⟨fn, computeSpec⟩, target := some h.next } r = h.hooks r := by
      intro r hr
      rw [put_other _ _ (by omega), put_other _ _ (by omega)]
    unfold Heap.read
    dsimp only
    congr 1
    · cases hdf : o.default with
      | value v => rfl
      | hook r =>
        dsimp only
        rw [h1 _ (hok.default r hdf).1]
    · funext n
      by_cases e : n = .compute
      · rw [if_pos e, if_pos e, put_same]
      · rw [if_neg e, if_neg e, h1 _ (hok.hook n).1]
  · have := apart_view (a := .on i (.constant fn)) (i := k) wf (by
      show ∀ o', h.field i = some o' → o'.parent ≠ none
      intro o' ho'
      rw [ho] at ho'
      cases ho'
      rw [hp]
      intro h; cases h) hk
    unfold Heap.perform Heap.step at this
    dsimp only at this
    rw [ho] at this
    exact this

/-- C67. `constant` on a field that is not attached, with no `compute` yet: it is registered on the field itself. -/
theorem C67_constant_unattached {fn : Nat} (ho : h.field i = some o) (hp : o.parent = none)
    (hs : (h.hooks (o.hook .compute)).spec = computeSpec) (hu : (h.hooks (o.hook .compute)).func = none) :
    (h.act i o (.constant fn)).1 = .top (h.owner (o.hook .compute)) ∧
    ∃ s, (h.act i o (.constant fn)).2.view i = some s ∧ s.hook .compute = some ⟨fn, computeSpec⟩ := by
  have he : h.act i o (.constant fn) = (.top (h.owner (o.hook .compute)), { h with
      hooks := put h.hooks (o.hook .compute) { h.hooks (o.hook .compute) with
        target := some i, func := some ⟨fn, computeSpec⟩ } }) := by
    unfold Heap.act
    rw [hp]
    dsimp only
    unfold Heap.setCompute
    simp [Hooks.Hook.attach, Hooks.Hook.call, hu, hs]
  rw [he]
  refine ⟨rfl, _, by unfold Heap.view; dsimp only; rw [ho]; rfl, ?_⟩
  show (put h.hooks (o.hook .compute) _ _).func = _
  rw [put_same]

/-- C67, the negation for copies: `field.clone().constant(v)` makes the original constant as well, and returns what the
original is attached to. -/
theorem C67_counterexample_constant {fn : Nat} (wf : WF h) (ho : h.field i = some o)
    (hs : (h.hooks (o.hook .compute)).spec = computeSpec) (hu : (h.hooks (o.hook .compute)).func = none)
    (hw : h.owner (o.hook .compute) = i) :
    ((h.clone o).2.act (h.clone o).1 { o with parent := none } (.constant fn)).1 = .top i ∧
    ∃ s, ((h.clone o).2.step (h.clone o).1 (.constant fn)).view i = some s ∧
      s.hook .compute = some ⟨fn, computeSpec⟩ := by
  have hc : (h.clone o).2.field (h.clone o).1 = some { o with parent := none } := put_same _ _ _
  obtain ⟨h1, s, hv, hf⟩ := C67_constant_unattached (h := (h.clone o).2) (i := (h.clone o).1)
    (o := { o with parent := none }) (fn := fn) hc rfl hs hu
  refine ⟨by rw [h1]; exact congrArg _ hw, ?_⟩
  obtain ⟨a, b, ha, hb, _, _, _, hh⟩ := C67_counterexample_shared wf ho [.on (h.clone o).1 (.constant fn)]
  refine ⟨a, ha, ?_⟩
  rw [hh]
  have : ((h.clone o).2.run [.on (h.clone o).1 (.constant fn)]).view (h.clone o).1 = some s := by
    show ((h.clone o).2.step (h.clone o).1 (.constant fn)).view _ = _
    unfold Heap.step
    rw [hc]
    exact hv
  rw [hb] at this
  cases this
  exact hf

/-! ## What each operation does to each field -/

/-- What is registered in a hook after a registration was tried: the first function stays, and it must have the right
arguments. -/
def tried (old : Option Func) (spec : String) (fn : Func) : Option Func :=
  match old with
  | some f => some f
  | none => if fn.spec = spec then some fn else none

/-- What becomes of the settings of field `i`, with attributes `o`, by an operation on field `j`, with attributes `oj`:
assignments are seen by `j` only, everything else by the fields that have the same list, dictionary or hook. -/
def Heap.after (h : Heap) (j : Nat) (oj : Obj) (i : Nat) (o : Obj) : Op → Settings
  | .nullable v => if i = j then { h.read o with nullable := v } else h.read o
  | .default v =>
    if i = j then { h.read o with default := .inr v, nullable := if v = .none then .bool true else o.nullable } else h.read o
  | .attachParent b => if i = j then { h.read o with attachParent := b } else h.read o
  | .attach p n =>
    if i = j then
      { h.read o with parent := some p, name := n, src := if o.src = .NONE then n.elim .none .str else o.src }
    else h.read o
  | .ignore vs => if o.ignores = oj.ignores then { h.read o with ignores := (h.read o).ignores ++ vs } else h.read o
  | .translate kvs =>
    if o.translations = oj.translations then { h.read o with translations := dictUpdate (h.read o).translations kvs }
    else h.read o
  | .tag kvs => if o.tags = oj.tags then { h.read o with tags := dictUpdate (h.read o).tags kvs } else h.read o
  | .register n fn =>
    if o.hook n = oj.hook n then
      { h.read o with
        hook := fun m => if m = n then tried ((h.read o).hook n) (h.hooks (oj.hook n)).spec fn else (h.read o).hook m }
    else h.read o
  | .registerDefault fn =>
    match oj.default, o.default with
    | .hook r, .hook r' =>
      if r' = r then { h.read o with default := .inl (tried (h.hooks r).func (h.hooks r).spec fn) } else h.read o
    | _, _ => h.read o
  | .constant fn =>
    if oj.parent = none ∧ o.hook .compute = oj.hook .compute then
      { h.read o with
        hook := fun m => if m = .compute then tried ((h.read o).hook .compute) (h.hooks (oj.hook .compute)).spec ⟨fn, computeSpec⟩
          else (h.read o).hook m }
    else h.read o
  | .clone => h.read o

theorem call_func (k : Hooks.Hook) (t : Nat) (fn : Func) : (k.call t [.func fn]).2.func = tried k.func k.spec fn := by
  unfold Hooks.Hook.call tried
  cases hf : k.func with
  | some f => simp [hf]
  | none =>
    dsimp only
    split <;> simp_all

/-- A hook replaced, as one hook of the fields that have it. -/
theorem read_hook {use : Nat → Use} {n : Nat} (hok : o.OK use n) (m : HookName) (r : Nat) (hr : use r = .hook m)
    (k : Hooks.Hook) : { h with hooks := put h.hooks r k }.read o =
      if o.hook m = r then { h.read o with hook := fun m' => if m' = m then k.func else (h.read o).hook m' } else h.read o := by
  have hd : (match o.default with | .hook r' => (Sum.inl (put h.hooks r k r').func : Option Func ⊕ Val) | .value v => .inr v) =
      match o.default with | .hook r => .inl (h.hooks r).func | .value v => .inr v := by
    cases hdf : o.default with
    | value v => rfl
    | hook r' =>
      dsimp only
      rw [put_other]
      rintro rfl
      rw [(hok.default _ hdf).2] at hr
      cases hr
  have hother : ∀ m', m' ≠ m → put h.hooks r k (o.hook m') = h.hooks (o.hook m') := by
    intro m' hm
    rw [put_other]
    rintro rfl
    rw [(hok.hook m').2] at hr
    cases hr
    exact hm rfl
  split
  · rename_i e
    unfold Heap.read
    dsimp only
    rw [hd]
    congr 1
    funext m'
    by_cases e' : m' = m
    · subst e'
      rw [if_pos rfl, e, put_same]
    · rw [if_neg e', hother m' e']
  · rename_i e
    unfold Heap.read
    dsimp only
    rw [hd]
    congr 1
    funext m'
    by_cases e' : m' = m
    · subst e'
      rw [put_other _ _ e]
    · rw [hother m' e']

/-- C67. Exactly what every operation does to every field. -/
theorem C67_effects (wf : WF h) {oj : Obj} (hj : h.field j = some oj) (ho : h.field i = some o) (op : Op) :
    (h.act j oj op).2.view i = some (h.after j oj i o op) := by
  have wf' := wf
  obtain ⟨use, hw⟩ := wf
  obtain ⟨hlt, hok⟩ := hw i o ho
  have hokj := (hw j oj hj).2
  have assign : ∀ g : Obj → Obj, (h.assign j g).view i = some (if i = j then h.read (g o) else h.read o) := by
    intro g
    unfold Heap.view
    by_cases e : i = j
    · subst e
      rw [assign_same ho, if_pos rfl]
      rfl
    · rw [assign_other e, ho, if_neg e]
      rfl
  have here : ∀ h' : Heap, h'.field i = some o → h'.view i = some (h'.read o) := by
    intro h' e
    unfold Heap.view
    rw [e]
    rfl
  cases op with
  | nullable v => exact assign _
  | default v =>
    refine (assign _).trans ?_
    dsimp only [Heap.after]
    split
    · show some _ = some _
      congr 1
      unfold Heap.read
      dsimp only
      congr 1
      cases v <;> rfl
    · rfl
  | attachParent b => exact assign _
  | attach p n =>
    refine (assign _).trans ?_
    dsimp only [Heap.after]
    split
    · show some _ = some _
      congr 1
      unfold Heap.read
      dsimp only
      congr 1
      have : o.src.isNONE = true ↔ o.src = .NONE := by
        unfold Val.isNONE
        split <;> simp_all
      by_cases e : o.src = .NONE
      · rw [if_pos e, if_pos (this.2 e)]
        cases n <;> rfl
      · rw [if_neg e, if_neg (fun h => e (this.1 h))]
    · rfl
  | ignore vs =>
    refine (here (h.act j oj (.ignore vs)).2 ho).trans ?_
    dsimp only [Heap.after, Heap.act]
    show some _ = some _
    congr 1
    split
    · rename_i e
      unfold Heap.read
      dsimp only
      rw [e, put_same]
    · rename_i e
      unfold Heap.read
      dsimp only
      rw [put_other _ _ e]
  | translate kvs =>
    refine (here (h.act j oj (.translate kvs)).2 ho).trans ?_
    dsimp only [Heap.after, Heap.act]
    show some _ = some _
    congr 1
    have ht : o.tags ≠ oj.translations := by
      intro e
      have h1 := hok.tags.2
      rw [e, hokj.translations.2] at h1
      cases h1
    split
    · rename_i e
      unfold Heap.read
      dsimp only
      rw [e, put_same, put_other _ _ ht]
    · rename_i e
      unfold Heap.read
      dsimp only
      rw [put_other _ _ e, put_other _ _ ht]
  | tag kvs =>
    refine (here (h.act j oj (.tag kvs)).2 ho).trans ?_
    dsimp only [Heap.after, Heap.act]
    show some _ = some _
    congr 1
    have ht : o.translations ≠ oj.tags := by
      intro e
      have h1 := hok.translations.2
      rw [e, hokj.tags.2] at h1
      cases h1
    split
    · rename_i e
      unfold Heap.read
      dsimp only
      rw [e, put_same, put_other _ _ ht]
    · rename_i e
      unfold Heap.read
      dsimp only
      rw [put_other _ _ e, put_other _ _ ht]
  | register n fn =>
    refine (here (h.act j oj (.register n fn)).2 ho).trans ?_
    dsimp only [Heap.after, Heap.act]
    show some _ = some _
    congr 1
    refine (read_hook hok n _ (hokj.hook n).2 _).trans ?_
    split
    · rename_i e
      rw [call_func]
      have : (h.read o).hook n = (h.hooks (oj.hook n)).func := by unfold Heap.read; dsimp only; rw [e]
      rw [this]
    · rfl
  | registerDefault fn =>
    dsimp only [Heap.act, Heap.after]
    cases hdj : oj.default with
    | value v => exact here _ ho
    | hook r =>
      refine (here { h with hooks := put h.hooks r ((h.hooks r).call j [.func fn]).2 } ho).trans ?_
      show some _ = some _
      congr 1
      have hh : ∀ n, put h.hooks r ((h.hooks r).call j [.func fn]).2 (o.hook n) = h.hooks (o.hook n) := by
        intro n
        rw [put_other]
        intro e
        have h1 := (hok.hook n).2
        rw [e, (hokj.default _ hdj).2] at h1
        cases h1
      unfold Heap.read
      dsimp only
      cases hdo : o.default with
      | value v => simp only [hh]
      | hook r' =>
        simp only [hh]
        split
        · rename_i e
          subst e
          rw [put_same, call_func]
        · rename_i e
          rw [put_other _ _ e]
  | constant fn =>
    dsimp only [Heap.after]
    cases hp : oj.parent with
    | some p =>
      rw [if_neg (by simp)]
      have := apart_view (a := .on j (.constant fn)) wf' (by
        show ∀ o', h.field j = some o' → o'.parent ≠ none
        intro o' ho'
        rw [hj] at ho'
        cases ho'
        rw [hp]
        intro h; cases h) ho
      unfold Heap.perform Heap.step at this
      dsimp only at this
      rw [hj] at this
      exact this.trans (here _ ho)
    | none =>
      dsimp only [Heap.act]
      rw [hp]
      refine (here (h.setCompute j oj fn).2 ho).trans ?_
      show some _ = some _
      congr 1
      refine (read_hook hok .compute _ (hokj.hook .compute).2 _).trans ?_
      split
      · rename_i e
        rw [call_func]
        have : (h.read o).hook .compute = (h.hooks (oj.hook .compute)).func := by unfold Heap.read; dsimp only; rw [e]
        rw [this, if_pos ⟨rfl, e⟩]
        rfl
      · rename_i e
        rw [if_neg fun h => e h.2]
  | clone => exact ((C67_copy wf' oj).2 i o ho).2.trans (here _ ho)

/-! ## Families -/

/-- Two fields have a list, a dictionary or a hook in common. -/
def Shares (o o' : Obj) : Prop :=
  o.ignores = o'.ignores ∨ o.translations = o'.translations ∨ o.tags = o'.tags ∨ (∃ n, o.hook n = o'.hook n) ∨
    ∃ r, o.default = .hook r ∧ o'.default = .hook r

/-- What is done to a field is not seen by another that has nothing in common with it. -/
theorem after_foreign {oj : Obj} (hne : i ≠ j) (hs : ¬ Shares o oj) (op : Op) : h.after j oj i o op = h.read o := by
  unfold Shares at hs
  simp only [not_or, not_exists, not_and] at hs
  obtain ⟨h1, h2, h3, h4, h5⟩ := hs
  cases op <;> simp only [Heap.after, if_neg hne, if_neg h1, if_neg h2, if_neg h3, if_neg (h4 _)]
  case registerDefault fn =>
    split
    · rename_i r r' e1 e2
      rw [if_neg]
      rintro rfl
      exact h5 _ e2 e1
    · rfl
  case constant fn => rw [if_neg fun e => h4 _ e.2]

/-- Families: a field made by `Field(...)` begins one, a copy, also the one `constant` makes, belongs to the family of its
original.  `fam` says to which family the fields so far belong. -/
def Heap.family (h : Heap) (fam : Nat → Nat) : Act → Nat → Nat
  | .on i .clone | .on i (.constant _) => put fam h.next (fam i)
  | .on _ _ => fam
  | .make _ _ _ => put fam h.next h.next

/-- A history, with families. -/
def Heap.trace (h : Heap) (fam : Nat → Nat) : List Act → Heap × (Nat → Nat)
  | [] => (h, fam)
  | a :: acts => (h.perform a).trace (h.family fam a) acts

/-- Fields of different families have nothing in common. -/
structure Kin (h : Heap) (fam : Nat → Nat) : Prop where
  below : ∀ i o, h.field i = some o → fam i < h.next
  apart : ∀ i j o o', h.field i = some o → h.field j = some o' → fam i ≠ fam j → ¬ Shares o o'

theorem Shares.symm {o o' : Obj} (hs : Shares o o') : Shares o' o := by
  rcases hs with e | e | e | ⟨n, e⟩ | ⟨r, e, e'⟩
  · exact .inl e.symm
  · exact .inr (.inl e.symm)
  · exact .inr (.inr (.inl e.symm))
  · exact .inr (.inr (.inr (.inl ⟨n, e.symm⟩)))
  · exact .inr (.inr (.inr (.inr ⟨r, e', e⟩)))

theorem Aliased.shares {a b a' b' : Obj} (ha : Aliased a a') (hb : Aliased b b') (hs : Shares a' b') : Shares a b := by
  rcases hs with e | e | e | ⟨n, e⟩ | ⟨r, e, e'⟩
  · exact .inl (by rw [← ha.ignores, ← hb.ignores, e])
  · exact .inr (.inl (by rw [← ha.translations, ← hb.translations, e]))
  · exact .inr (.inr (.inl (by rw [← ha.tags, ← hb.tags, e])))
  · exact .inr (.inr (.inr (.inl ⟨n, by rw [← ha.hook, ← hb.hook, e]⟩)))
  · exact .inr (.inr (.inr (.inr ⟨r, ha.default r e, hb.default r e'⟩)))

/-- The families of the fields there were stay. -/
theorem family_old (fam : Nat → Nat) (a : Act) {k : Nat} (hk : k < h.next) : h.family fam a k = fam k := by
  have : ∀ v, put fam h.next v k = fam k := fun v => put_other _ _ (by omega)
  unfold Heap.family
  split <;> first | exact this _ | rfl

theorem perform_kin (wf : WF h) {fam : Nat → Nat} (hk : Kin h fam) (a : Act) : Kin (h.perform a) (h.family fam a) := by
  have wf' := wf
  obtain ⟨use, hw⟩ := wf
  cases a with
  | make src spec dspec =>
    have hnew : ∀ k ok, (h.make src spec dspec).2.field k = some ok →
        h.field k = some ok ∧ h.family fam (.make src spec dspec) k = fam k ∨
        k = h.next ∧ h.family fam (.make src spec dspec) k = h.next ∧ ∀ j oj, h.field j = some oj → ¬ Shares ok oj := by
      intro k ok h1
      rcases make_field h1 with ⟨h1, hne⟩ | ⟨rfl, rfl⟩
      · exact .inl ⟨h1, put_other _ _ hne⟩
      · refine .inr ⟨rfl, put_same _ _ _, fun j oj hj hs => ?_⟩
        obtain ⟨-, hok⟩ := hw j oj hj
        rcases hs with e | e | e | ⟨n, e⟩ | ⟨r, e, e'⟩
        · have := hok.ignores; dsimp only at e; omega
        · have := hok.translations.1; dsimp only at e; omega
        · have := hok.tags.1; dsimp only at e; omega
        · have := (hok.hook n).1; dsimp only at e; omega
        · cases e; have := (hok.default _ e').1; omega
    refine ⟨fun k ok h1 => ?_, fun k l ok ol h1 h2 hne => ?_⟩
    · show _ < h.next + 11
      rcases hnew k ok h1 with ⟨h1, e⟩ | ⟨-, e, -⟩
      · have := hk.below k ok h1; rw [e]; omega
      · rw [e]; omega
    · rcases hnew k ok h1 with ⟨h1, e1⟩ | ⟨rfl, e1, d1⟩
      · rcases hnew l ol h2 with ⟨h2, e2⟩ | ⟨rfl, e2, d2⟩
        · rw [e1, e2] at hne
          exact hk.apart k l ok ol h1 h2 hne
        · exact fun hs => d2 k ok h1 hs.symm
      · rcases hnew l ol h2 with ⟨h2, e2⟩ | ⟨rfl, e2, d2⟩
        · exact d1 l ol h2
        · exact absurd rfl hne
  | on j op =>
    show Kin (h.step j op) _
    unfold Heap.step
    cases hj : h.field j with
    | none =>
      dsimp only
      have hold : ∀ k ok, h.field k = some ok → h.family fam (.on j op) k = fam k :=
        fun k ok h1 => family_old fam _ (hw k ok h1).1
      refine ⟨fun k ok h1 => ?_, fun k l ok ol h1 h2 hne => ?_⟩
      · rw [hold k ok h1]; exact hk.below k ok h1
      · rw [hold k ok h1, hold l ol h2] at hne
        exact hk.apart k l ok ol h1 h2 hne
    | some oj =>
      dsimp only
      have hle := act_next (h := h) (j := j) (oj := oj) op
      obtain ⟨-, hokj⟩ := hw j oj hj
      -- each field has the family of an old one it shares with no more than that one does
      have hnew : ∀ k ok, (h.act j oj op).2.field k = some ok → ∃ k0 o0, h.field k0 = some o0 ∧
          h.family fam (.on j op) k = fam k0 ∧
          (k ≠ h.next ∧ Aliased o0 ok ∨ k = h.next ∧ ∀ k' ok', h.field k' = some ok' → ∀ ok'', Aliased ok' ok'' →
            Shares ok ok'' → Shares o0 ok') := by
        intro k ok h1
        rcases act_field hj op h1 with ⟨o, ho, ha⟩ | ⟨rfl, hlt, e1, e2, e3, e4, e5⟩
        · have := (hw k o ho).1
          exact ⟨k, o, ho, family_old fam _ this, .inl ⟨by omega, ha⟩⟩
        · refine ⟨j, oj, hj, ?_, .inr ⟨rfl, fun k' ok' hk' ok'' ha hs => ?_⟩⟩
          · cases op <;> first
              | exact put_same _ _ _
              | exact absurd hlt (Nat.lt_irrefl _)
              | (exfalso
                 revert hlt
                 unfold Heap.act
                 cases oj.default <;> exact Nat.lt_irrefl _)
          · obtain ⟨-, hok'⟩ := hw k' ok' hk'
            rcases hs with e | e | e | ⟨n, e⟩ | ⟨r, e, e'⟩
            · exact .inl (by rw [← e1, e, ha.ignores])
            · exact .inr (.inl (by rw [← e2, e, ha.translations]))
            · exact .inr (.inr (.inl (by rw [← e3, e, ha.tags])))
            · refine .inr (.inr (.inr (.inl ⟨n, ?_⟩)))
              rcases e5 n with h5 | ⟨-, h5, -⟩
              · rw [← h5, e, ha.hook]
              · have := (hok'.hook n).1
                rw [← ha.hook, ← e, h5] at this
                omega
            · exact .inr (.inr (.inr (.inr ⟨r, by rw [← e4, e], ha.default r e'⟩)))
      refine ⟨fun k ok h1 => ?_, fun k l ok ol h1 h2 hne hs => ?_⟩
      · obtain ⟨k0, o0, h0, e, -⟩ := hnew k ok h1
        have := hk.below k0 o0 h0
        rw [e]
        omega
      · obtain ⟨k0, o0, h0, e0, c0⟩ := hnew k ok h1
        obtain ⟨l0, p0, g0, d0, f0⟩ := hnew l ol h2
        rw [e0, d0] at hne
        refine hk.apart k0 l0 o0 p0 h0 g0 hne ?_
        rcases c0 with ⟨-, ha⟩ | ⟨rfl, hc⟩
        · rcases f0 with ⟨-, hb⟩ | ⟨rfl, hd⟩
          · exact ha.shares hb hs
          · exact (hd k0 o0 h0 ok ha hs.symm).symm
        · rcases f0 with ⟨-, hb⟩ | ⟨rfl, hd⟩
          · exact hc l0 p0 g0 ol hb hs
          · exact absurd (e0.symm.trans d0) hne

theorem trace_kin (acts : List Act) : ∀ {h : Heap} {fam : Nat → Nat}, WF h → Kin h fam →
    WF (h.trace fam acts).1 ∧ Kin (h.trace fam acts).1 (h.trace fam acts).2 := by
  induction acts with
  | nil => intro h fam wf hk; exact ⟨wf, hk⟩
  | cons a acts ih => intro h fam wf hk; exact ih (perform_wf wf a) (perform_kin wf hk a)

/-- Nothing is done to a field of the family of `i`; at the outset the families are `fam`. -/
def Foreign (i : Nat) : Heap → (Nat → Nat) → List Act → Prop
  | _, _, [] => True
  | h, fam, .on j op :: acts => fam j ≠ fam i ∧ Foreign i (h.perform (.on j op)) (h.family fam (.on j op)) acts
  | h, fam, .make src spec dspec :: acts =>
    Foreign i (h.perform (.make src spec dspec)) (h.family fam (.make src spec dspec)) acts

theorem foreign_view (acts : List Act) : ∀ {h : Heap} {fam : Nat → Nat} {o : Obj}, WF h → Kin h fam → h.field i = some o →
    Foreign i h fam acts → (h.run acts).view i = h.view i := by
  induction acts with
  | nil => intro h fam o _ _ _ _; rfl
  | cons a acts ih =>
    intro h fam o wf hk ho hf
    obtain ⟨o1, h1, -⟩ := perform_aliased wf a ho
    have hrest : Foreign i (h.perform a) (h.family fam a) acts := by
      cases a with
      | on j op => exact hf.2
      | make src spec dspec => exact hf
    refine (ih (perform_wf wf a) (perform_kin wf hk a) h1 hrest).trans ?_
    cases a with
    | make src spec dspec => exact make_view wf ho
    | on j op =>
      unfold Heap.perform Heap.step
      dsimp only
      cases hj : h.field j with
      | none => rfl
      | some oj =>
        dsimp only
        rw [C67_effects wf hj ho op, after_foreign (by rintro rfl; exact hf.1 rfl) (hk.apart i j o oj ho hj (Ne.symm hf.1)) op]
        unfold Heap.view
        rw [ho]
        rfl

/-- C67. After any history, what is done to fields of other families, and making new ones, leaves a field as it is. -/
theorem C67_families (past acts : List Act) {h : Heap} {fam : Nat → Nat} (hp : Heap.empty.trace id past = (h, fam))
    (ho : h.field i = some o) (hf : Foreign i h fam acts) : (h.run acts).view i = h.view i := by
  have hk := trace_kin (h := Heap.empty) (fam := id) past empty_wf ⟨fun i o h => by (cases h), fun i j o o' h => by (cases h)⟩
  rw [hp] at hk
  exact foreign_view acts hk.1 hk.2 ho hf

/-! ## A concrete heap -/

namespace Demo

def specs : HookName → String
  | .compute | .resolve => computeSpec
  | _ => "self, value"

/-- A field attached to the class 9 with nothing set. -/
def made : List Act := [.make .NONE specs "self", .on 0 (.attach 9 (some "a"))]

def heap : Heap := Heap.empty.run made

/-- Its attributes. -/
def fresh : Obj where
  parent := some 9
  name := some "a"
  src := .str "a"
  default := .hook 4
  ignores := 1
  translations := 2
  tags := 3
  hook n := 5 + n.index

theorem heap_wf : WF heap := run_wf _ empty_wf

theorem heap_field : heap.field 0 = some fresh := by
  show some _ = some _
  simp [fresh, Val.isNONE, Heap.empty]

/-- C67: ignoring `"-"` on the copy ignores it on the original. -/
example : ∃ s, (((heap.clone fresh).2.run [.on 11 (.ignore [.str "-"])]).view 0) = some s ∧ s.ignores = [.str "-"] :=
  ⟨_, rfl, rfl⟩

/-- C67: the constant of the attached field is another field. -/
example : ∃ c, (heap.act 0 fresh (.constant 7)).1 = .top c ∧ heap.field c = none :=
  have ⟨c, h1, h2, _⟩ := C67_constant_attached (fn := 7) heap_wf heap_field rfl
  ⟨c, h1, h2⟩

/-- C67: a copy made and attached elsewhere, made nullable and constant: the original is as it was. -/
example : ((heap.run [.on 0 .clone, .on 11 (.attach 12 (some "b")), .on 11 (.nullable (.bool false)), .on 11 (.constant 7)]).view 0)
    = heap.view 0 := by
  refine C67_apart_partial _ heap_wf heap_field ⟨trivial, (by intro h; cases h), (by intro h; cases h), ?_, trivial⟩
  intro o ho
  cases ho
  intro h
  cases h

/-- C67: `clone().constant(...)` changes the original. -/
example : ∃ s, ((heap.clone fresh).2.step 11 (.constant 7)).view 0 = some s ∧ s.hook .compute = some ⟨7, computeSpec⟩ :=
  (C67_counterexample_constant (fn := 7) heap_wf heap_field rfl rfl rfl).2

/-- C67: on a field that is not attached, `constant` registers on the field. -/
example : ∃ s, ((heap.clone fresh).2.act 11 { fresh with parent := none } (.constant 7)).2.view 11 = some s ∧
    s.hook .compute = some ⟨7, computeSpec⟩ :=
  (C67_constant_unattached (h := (heap.clone fresh).2) (fn := 7) rfl rfl rfl rfl).2

/-- C67: a copy of it. -/
example : (heap.clone fresh).2.view 11 = some { heap.read fresh with parent := none } := (C67_copy heap_wf fresh).1

/-- C67: `translate` on the copy is seen by the original, and changes nothing but translations. -/
example : ((heap.clone fresh).2.act 11 { fresh with parent := none } (.translate [(.str "x", .int 1)])).2.view 0 =
    some { heap.read fresh with translations := [(.str "x", .int 1)] } :=
  C67_effects (act_wf heap_wf heap_field .clone) (j := 11) (i := 0) rfl heap_field _

/-- C67: a second field, a copy of it, and what is done to them: the first one is as it was. -/
example : (heap.run [.make (.str "b") specs "self", .on 11 (.ignore [.int 0]), .on 11 .clone, .on 22 (.tag [(.str "t", .none)]),
    .on 22 (.constant 7)]).view 0 = heap.view 0 := by
  refine C67_families made _ (h := heap) rfl heap_field ?_
  simp only [Foreign, and_true]
  decide

end Demo
end Pilo.Clone
