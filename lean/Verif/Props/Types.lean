import Verif.Props.Meta

/-!
# Casting by identity (C32, C33)
-/

namespace Pilo.Meta
namespace World

variable {w : World} {b : Nat → Nat}

/-! ### What the properties say -/

/-- `c` is `p` or below it in the class hierarchy, by any of its bases. -/
inductive Below (w : World) (p : Nat) : Nat → Prop
  | self : Below w p p
  | sub {c d : Nat} : Below w p c → c ∈ (w.cls d).bases → Below w p d

/-- The field class `c` has under the name `n` lists `s` among its choices. -/
def Names (w : World) (c : Nat) (n s : String) : Prop :=
  ∃ f, w.Nearest c n f ∧ s ∈ (w.obj f).choices

/-! ### Tables -/

theorem mem_tableSet {k v : String} {c x : Nat} : ∀ {t : Table},
    (v, x) ∈ tableSet t k c → (v, x) ∈ t ∨ (v = k ∧ x = c)
  | [], h => by
    simp [tableSet] at h; exact Or.inr h
  | (k', v') :: t, h => by
    unfold tableSet at h
    split at h
    · rename_i e
      rcases List.mem_cons.1 h with h | h
      · cases h; exact Or.inr ⟨e.symm, rfl⟩
      · exact Or.inl (List.mem_cons_of_mem _ h)
    · rcases List.mem_cons.1 h with h | h
      · left; rw [h]; simp
      · rcases mem_tableSet h with h | h
        · exact Or.inl (List.mem_cons_of_mem _ h)
        · exact Or.inr h

/-- `v` is a key of the table. -/
def Key (t : Table) (v : String) : Prop := ∃ x, (v, x) ∈ t

theorem Key.set {t : Table} {v : String} (k : String) (c : Nat) (h : Key t v) :
    Key (tableSet t k c) v := by
  induction t with
  | nil => obtain ⟨x, h⟩ := h; cases h
  | cons p t ih =>
    obtain ⟨k', v'⟩ := p
    obtain ⟨x, h⟩ := h
    unfold tableSet
    split
    · rcases List.mem_cons.1 h with h | h
      · cases h; exact ⟨c, by simp⟩
      · exact ⟨x, List.mem_cons_of_mem _ h⟩
    · rcases List.mem_cons.1 h with h | h
      · exact ⟨x, by rw [h]; simp⟩
      · obtain ⟨y, hy⟩ := ih ⟨x, h⟩
        exact ⟨y, List.mem_cons_of_mem _ hy⟩

theorem Key.new (t : Table) (k : String) (c : Nat) : Key (tableSet t k c) k := by
  induction t with
  | nil => exact ⟨c, by simp [tableSet]⟩
  | cons p t ih =>
    obtain ⟨k', v'⟩ := p
    unfold tableSet
    split
    · rename_i e; exact ⟨c, by rw [e]; simp⟩
    · obtain ⟨y, hy⟩ := ih
      exact ⟨y, List.mem_cons_of_mem _ hy⟩

theorem mem_setAll {c : Nat} {v : String} {x : Nat} : ∀ {vs : List String} {t : Table},
    (v, x) ∈ vs.foldl (fun t v => tableSet t v c) t → (v, x) ∈ t ∨ (v ∈ vs ∧ x = c)
  | [], _, h => Or.inl h
  | u :: vs, t, h => by
    rcases mem_setAll (vs := vs) h with h | ⟨h, e⟩
    · rcases mem_tableSet h with h | ⟨h, e⟩
      · exact Or.inl h
      · exact Or.inr ⟨by rw [h]; simp, e⟩
    · exact Or.inr ⟨by simp [h], e⟩

theorem Key.setAll {c : Nat} {v : String} : ∀ {vs : List String} {t : Table},
    Key t v ∨ v ∈ vs → Key (vs.foldl (fun t v => tableSet t v c) t) v
  | [], _, h => by
    rcases h with h | h
    · exact h
    · cases h
  | u :: vs, t, h => by
    refine Key.setAll (vs := vs) ?_
    rcases h with h | h
    · exact Or.inl (h.set u c)
    · rcases List.mem_cons.1 h with rfl | h
      · exact Or.inl (Key.new t v c)
      · exact Or.inr h

theorem listed_iff {c : Nat} {n s : String} : s ∈ w.listed c n ↔ w.Names c n s := by
  unfold listed Names
  constructor
  · intro h
    split at h
    · rename_i f hf; exact ⟨f, fieldAt_iff.1 hf, h⟩
    · cases h
  · rintro ⟨f, hf, h⟩
    rw [fieldAt_iff.2 hf]; exact h

theorem mem_subclasses {c d : Nat} : d ∈ w.subclasses c ↔
    d < w.classes.length ∧ c ∈ (w.cls d).bases := by
  unfold subclasses
  rw [List.mem_filter, List.mem_range, decide_eq_true_eq]

theorem base_lt_length {c d : Nat} (h : c ∈ (w.cls d).bases) : d < w.classes.length := by
  by_contra hd
  rw [cls_out (Nat.le_of_not_lt hd)] at h
  cases h

theorem Below.cons {p c d : Nat} (h : p ∈ (w.cls c).bases) (hb : w.Below c d) :
    w.Below p d := by
  induction hb with
  | self => exact .sub .self h
  | sub _ h' ih => exact .sub ih h'

theorem Below.first {p d : Nat} (h : w.Below p d) :
    d = p ∨ ∃ e, p ∈ (w.cls e).bases ∧ w.Below e d := by
  induction h with
  | self => exact Or.inl rfl
  | sub _ h' ih =>
    rcases ih with rfl | ⟨e, he, hb⟩
    · exact Or.inr ⟨_, h', .self⟩
    · exact Or.inr ⟨e, he, .sub hb h'⟩

theorem Core.base_lt (I : Core w b) {c d : Nat} (h : c ∈ (w.cls d).bases) : c < d := by
  exact I.bases d c h

theorem Core.below_le (I : Core w b) {p d : Nat} (h : w.Below p d) : p ≤ d := by
  induction h with
  | self => exact Nat.le_refl _
  | sub _ h' ih => have := I.base_lt h'; omega

/-- Every entry of the table comes from a class below. -/
theorem walk_sound {n : String} : ∀ (k c : Nat) (t : Table) (v : String) (x : Nat),
    (v, x) ∈ w.walk n k c t → (v, x) ∈ t ∨ (w.Below c x ∧ w.Names x n v)
  | 0, _, _, _, _, h => Or.inl h
  | k + 1, c, t, v, x, h => by
    unfold walk at h
    have key : ∀ (ds : List Nat) (t : Table), (∀ d ∈ ds, c ∈ (w.cls d).bases) →
        (v, x) ∈ ds.foldl (fun t d => walk w n k d t) t →
        (v, x) ∈ t ∨ (w.Below c x ∧ w.Names x n v) := by
      intro ds
      induction ds with
      | nil => intro t _ h; exact Or.inl h
      | cons d ds ih =>
        intro t hd h
        rcases ih _ (fun e he => hd e (by simp [he])) h with h | h
        · rcases walk_sound k d t v x h with h | ⟨h1, h2⟩
          · exact Or.inl h
          · exact Or.inr ⟨h1.cons (hd d (by simp)), h2⟩
        · exact Or.inr h
    rcases key _ _ (fun d hd => (mem_subclasses.1 hd).2) h with h | h
    · rcases mem_setAll h with h | ⟨h, rfl⟩
      · exact Or.inl h
      · exact Or.inr ⟨.self, listed_iff.1 h⟩
    · exact Or.inr h

theorem walk_keeps {n v : String} : ∀ (k c : Nat) (t : Table), Key t v → Key (w.walk n k c t) v
  | 0, _, _, h => h
  | k + 1, c, t, h => by
    unfold walk
    have key : ∀ (ds : List Nat) (t : Table), Key t v →
        Key (ds.foldl (fun t d => walk w n k d t) t) v := by
      intro ds
      induction ds with
      | nil => intro t h; exact h
      | cons d ds ih => intro t h; exact ih _ (walk_keeps k d t h)
    exact key _ _ (Key.setAll (Or.inl h))

/-- Every class below contributes its identities. -/
theorem Core.walk_complete (I : Core w b) {n v : String} : ∀ (k c : Nat) (t : Table) (x : Nat),
    w.Below c x → x - c < k → w.Names x n v → Key (w.walk n k c t) v
  | 0, _, _, _, _, hk, _ => by omega
  | k + 1, c, t, x, hb, hk, hv => by
    unfold walk
    have keep : ∀ (ds : List Nat) (t : Table), Key t v →
        Key (ds.foldl (fun t d => walk w n k d t) t) v := by
      intro ds
      induction ds with
      | nil => intro t h; exact h
      | cons d ds ih => intro t h; exact ih _ (walk_keeps k d t h)
    rcases hb.first with rfl | ⟨e, he, hb'⟩
    · exact keep _ _ (Key.setAll (Or.inr (listed_iff.2 hv)))
    · have hlt := I.base_lt he
      have hle := I.below_le hb'
      have hm : e ∈ w.subclasses c := mem_subclasses.2 ⟨base_lt_length he, he⟩
      have key : ∀ (ds : List Nat) (t : Table), e ∈ ds →
          Key (ds.foldl (fun t d => walk w n k d t) t) v := by
        intro ds
        induction ds with
        | nil => intro t h; cases h
        | cons d ds ih =>
          intro t h
          rcases List.mem_cons.1 h with rfl | h
          · exact keep ds _ (I.walk_complete k e t x hb' (by omega) hv)
          · exact ih _ h
      exact key _ _ hm

/-! ### Tables stay right as the world grows -/

/-- What a stored table says is so. -/
def Right (w : World) : Prop :=
  ∀ t tbl v x, (w.obj t).types = some tbl → (v, x) ∈ tbl →
    ∃ p n, (w.obj t).parent = some (.cls p) ∧ (w.obj t).name = some n ∧ w.Below p x ∧
      w.Names x n v

/-- How one world extends another. -/
structure Grows (w w' : World) : Prop where
  cls : ∀ c, c < w.classes.length → w'.cls c = w.cls c
  choices : ∀ f, f < w.fields.length → (w'.obj f).choices = (w.obj f).choices
  attached : ∀ f p, (w.obj f).parent = some (.cls p) →
    (w'.obj f).parent = some (.cls p) ∧ (w'.obj f).name = (w.obj f).name

theorem Grows.below {w' : World} (G : Grows w w') {p c : Nat} (h : w.Below p c) :
    w'.Below p c := by
  induction h with
  | self => exact .self
  | sub _ h ih => exact .sub ih (by rw [G.cls _ (base_lt_length h)]; exact h)

theorem Nearest.lt {c : Nat} {n : String} {f : Nat} (h : w.Nearest c n f) :
    c < w.classes.length := by
  by_contra hc
  obtain ⟨ds, d, es, h1, _, _⟩ := h
  rw [cls_out (Nat.le_of_not_lt hc)] at h1
  have h2 : ([] : List Nat) = ds ++ d :: es := h1
  simp at h2

theorem Core.grows_names (I : Core w b) {w' : World} (G : Grows w w') {c : Nat} {n s : String}
    (h : w.Names c n s) : w'.Names c n s := by
  obtain ⟨f, hf, hs⟩ := h
  refine ⟨f, (I.nearest_old G.cls hf.lt n f).2 hf, ?_⟩
  rw [G.choices f (I.name hf).1]; exact hs

/-- Stored tables that do not change stay right. -/
theorem Core.right_of (I : Core w b) {w' : World} (G : Grows w w') (R : Right w)
    (ht : ∀ f, (w'.obj f).types = (w.obj f).types ∨ (w'.obj f).types = none) : Right w' := by
  intro t tbl v x h hm
  rcases ht t with e | e
  · rw [e] at h
    obtain ⟨p, n, h1, h2, h3, h4⟩ := R t tbl v x h hm
    obtain ⟨h5, h6⟩ := G.attached t p h1
    exact ⟨p, n, h5, by rw [h6, h2], G.below h3, I.grows_names G h4⟩
  · rw [e] at h; cases h

theorem obj_out {f : Nat} (h : w.fields.length ≤ f) : w.obj f = ⟨0, none, none, [], none⟩ := by
  unfold obj
  rw [List.getD_eq_default _ _ h]

theorem Grows.newField (cs : List String) : Grows w (w.newField cs) where
  cls _ _ := rfl
  choices f h := by rw [obj_newField _ _ _ h]
  attached f p h := by
    have hf : f < w.fields.length := by
      by_contra hf; rw [obj_out (Nat.le_of_not_lt hf)] at h; cases h
    rw [obj_newField _ _ _ hf]
    exact ⟨h, rfl⟩

theorem types_newField (cs : List String) (f : Nat) : ((w.newField cs).obj f).types =
    (w.obj f).types ∨ ((w.newField cs).obj f).types = none := by
  rcases Nat.lt_trichotomy f w.fields.length with h | h | h
  · left; rw [obj_newField _ _ _ h]
  · right; subst h; simp [World.newField, obj]
  · right
    rw [obj_out (by simp only [World.newField, List.length_append, List.length_singleton]; omega)]

theorem Grows.nest {f : Nat} (p : Nat) (hp : (w.obj f).parent = none) : Grows w (w.nest f p) where
  cls _ _ := rfl
  choices g _ := by
    unfold World.nest
    rw [obj_setObj]
    split
    · rename_i e; rw [e.1]
    · rfl
  attached g q h := by
    unfold World.nest
    rw [obj_setObj]
    split
    · rename_i e; rw [← e.1, hp] at h; cases h
    · exact ⟨h, rfl⟩

theorem types_nest {f : Nat} (p g : Nat) : ((w.nest f p).obj g).types = (w.obj g).types := by
  unfold World.nest
  rw [obj_setObj]
  split
  · rename_i e; rw [e.1]
  · rfl

theorem Declared.grows {w' : World} {ps us : List Nat} {d : List (String × Attr)} (D : Declared w w' ps us d)
    (hnew : ∀ n f, (n, Attr.field f) ∈ d → f < w.fields.length ∧ (w.obj f).parent = none) :
    Grows w w' where
  cls := D.old
  choices f _ := by
    by_cases h : ∃ n, (n, Attr.field f) ∈ d
    · obtain ⟨n, h⟩ := h; rw [D.set n f h]
    · rw [D.kept f fun n hn => h ⟨n, hn⟩]
  attached f q h := by
    have : w'.obj f = w.obj f := D.kept f fun n hn => by rw [(hnew n f hn).2] at h; cases h
    rw [this]; exact ⟨h, rfl⟩

theorem Declared.types {w' : World} {ps us : List Nat} {d : List (String × Attr)} (D : Declared w w' ps us d)
    (f : Nat) : (w'.obj f).types = (w.obj f).types := by
  by_cases h : ∃ n, (n, Attr.field f) ∈ d
  · obtain ⟨n, h⟩ := h; rw [D.set n f h]
  · rw [D.kept f fun n hn => h ⟨n, hn⟩]

theorem Grows.setTypes (t : Nat) (o : Option Table) :
    Grows w (w.setObj t { w.obj t with types := o }) where
  cls _ _ := rfl
  choices g _ := by
    rw [obj_setObj]
    split
    · rename_i e; rw [e.1]
    · rfl
  attached g q h := by
    rw [obj_setObj]
    split
    · rename_i e; rw [e.1]; exact ⟨h, rfl⟩
    · exact ⟨h, rfl⟩

/-- A table just built is right. -/
theorem typesMap_sound {t : Nat} {tbl : Table} (h : w.typesMap t = .ok tbl) :
    ∃ p n, (w.obj t).parent = some (.cls p) ∧ (w.obj t).name = some n ∧
      t ∈ (w.cls p).fields ∧ tbl = w.walk n w.classes.length p [] := by
  unfold typesMap at h
  split at h
  · rename_i p n hp hn
    split at h
    · rename_i ht
      cases h
      exact ⟨p, n, hp, hn, ht, rfl⟩
    · cases h
  · cases h
  · cases h

theorem Core.right_load (I : Core w b) (R : Right w) {t : Nat} {w' : World}
    (h : w.load t = .ok w') : Right w' ∧ Grows w w' := by
  unfold World.load at h
  split at h
  · split at h
    · rename_i tbl htbl
      cases h
      have G : Grows w (w.setObj t { w.obj t with types := some tbl }) := Grows.setTypes t _
      refine ⟨?_, G⟩
      intro g tbl' v x hg hm
      rw [obj_setObj] at hg
      split at hg
      · rename_i e
        obtain ⟨rfl, _⟩ := e
        cases hg
        obtain ⟨p, n, h1, h2, _, rfl⟩ := typesMap_sound htbl
        rcases walk_sound _ _ _ _ _ hm with hm | ⟨h3, h4⟩
        · cases hm
        · obtain ⟨h5, h6⟩ := G.attached t p h1
          exact ⟨p, n, h5, by rw [h6, h2], G.below h3, I.grows_names G h4⟩
      · obtain ⟨p, n, h1, h2, h3, h4⟩ := R g tbl' v x hg hm
        obtain ⟨h5, h6⟩ := G.attached g p h1
        exact ⟨p, n, h5, by rw [h6, h2], G.below h3, I.grows_names G h4⟩
    · cases h
  · cases h
    exact ⟨R, fun _ _ => rfl, fun _ _ => rfl, fun _ _ h => ⟨h, rfl⟩⟩

theorem Reach.right (h : Reach w) : Right w := by
  induction h with
  | init =>
    intro t tbl v x h
    rw [obj_out (Nat.zero_le _)] at h
    cases h
  | @step w op hw hcan ih =>
    obtain ⟨⟨b, I⟩, _⟩ := hw.core
    cases op with
    | field cs => exact I.right_of (Grows.newField cs) ih (types_newField cs)
    | form =>
      exact I.right_of (w' := w.newForm) ⟨fun _ _ => rfl, fun _ _ => rfl, fun _ _ h => ⟨h, rfl⟩⟩ ih
        fun _ => Or.inl rfl
    | nest f p => exact I.right_of (Grows.nest p hcan.2) ih fun g => Or.inl (types_nest p g)
    | declare ps d =>
      obtain ⟨_, h1, h2, h3, h4⟩ := hcan
      show Right (w.declare ps d)
      cases ht : w.linearize ps with
      | none => rw [declare_none ht]; exact ih
      | some us =>
        have D := I.declared h1 ht h2 h3 h4
        exact I.right_of (D.grows h4) ih fun f => Or.inl (D.types f)
    | cast t v =>
      show Right (w.cast t v).2
      unfold World.cast
      split
      · exact ih
      · rename_i w' h; exact (I.right_load ih h).1

/-! ### The theorems -/

theorem pick_ok {t c : Nat} {v : Val} (h : w.pick t v = .ok c) :
    ∃ tbl s, (w.obj t).types = some tbl ∧ (s, c) ∈ tbl ∧ v.pyEq (.str s) = true := by
  unfold pick at h
  split at h
  · rename_i p hp
    have hm0 := List.mem_of_find?_eq_some hp
    have he := List.find?_some hp
    obtain ⟨⟨s, x⟩, hm, rfl⟩ := List.mem_map.1 hm0
    clear hm0
    cases h
    cases ht : (w.obj t).types with
    | none => rw [ht] at hm; cases hm
    | some tbl => rw [ht] at hm; exact ⟨tbl, s, rfl, hm, he⟩
  · cases h

theorem load_grows_back {t : Nat} {w' : World} (h : w.load t = .ok w') :
    w'.classes = w.classes ∧ (∀ f, (w'.obj f).choices = (w.obj f).choices) ∧
    (∀ f, (w'.obj f).parent = (w.obj f).parent) ∧ (∀ f, (w'.obj f).name = (w.obj f).name) := by
  unfold World.load at h
  split at h
  · split at h
    · cases h
      refine ⟨rfl, ?_, ?_, ?_⟩ <;>
      · intro f
        rw [obj_setObj]
        split
        · rename_i e; rw [e.1]
        · rfl
    · cases h
  · cases h; exact ⟨rfl, fun _ => rfl, fun _ => rfl, fun _ => rfl⟩

theorem below_congr {w' : World} (h : w'.classes = w.classes) {p c : Nat} (hb : w'.Below p c) :
    w.Below p c := by
  induction hb with
  | self => exact .self
  | sub _ h' ih => exact .sub ih (by rw [← cls_congr h]; exact h')

/-- **C32.** Whatever classes were declared and values cast before, a class that `Type.cast` chooses
for an identity is the type field's class or below it, and its own type field (declared or
inherited) lists that identity. -/
theorem C32_cast (h : Reach w) {t c : Nat} {v : Val} (hr : (w.cast t v).1 = .ok c) :
    ∃ p n s, (w.obj t).parent = some (.cls p) ∧ (w.obj t).name = some n ∧
      w.Below p c ∧ w.Names c n s ∧ v.pyEq (.str s) = true := by
  obtain ⟨⟨b, I⟩, _⟩ := h.core
  unfold World.cast at hr
  split at hr
  · cases hr
  · rename_i w' hl
    obtain ⟨R, _⟩ := I.right_load h.right hl
    obtain ⟨h1, h2, h3, h4⟩ := load_grows_back hl
    obtain ⟨tbl, s, ht, hm, he⟩ := pick_ok hr
    obtain ⟨p, n, hp, hn, hb, f, hf, hs⟩ := R t tbl s c ht hm
    rw [nearest_congr h1] at hf
    exact ⟨p, n, s, by rw [← h3]; exact hp, by rw [← h4]; exact hn, below_congr h1 hb,
      ⟨f, hf, by rw [← h2]; exact hs⟩, he⟩

/-- **C32.** An identity no class below lists is rejected with a `ValueError`. -/
theorem C32_rejects (h : Reach w) {t p : Nat} {n : String} {v : Val}
    (hp : (w.obj t).parent = some (.cls p)) (hn : (w.obj t).name = some n)
    (hv : ∀ c s, w.Below p c → w.Names c n s → v.pyEq (.str s) = false) :
    (w.cast t v).1 = .error "ValueError" := by
  cases hr : (w.cast t v).1 with
  | ok c =>
    obtain ⟨p', n', s, hp', hn', hb, hs, he⟩ := C32_cast h hr
    rw [hp] at hp'
    cases hp'
    rw [hn] at hn'
    cases hn'
    rw [hv c s hb hs] at he
    cases he
  | error e =>
    unfold World.cast at hr
    split at hr
    · rename_i e' hl
      cases hr
      unfold World.load at hl
      split at hl
      · split at hl
        · cases hl
        · rename_i e' hm
          cases hl
          unfold typesMap at hm
          rw [hp, hn] at hm
          simp only at hm
          split at hm
          · cases hm
          · cases hm; rfl
      · cases hl
    · unfold pick at hr
      split at hr
      · cases hr
      · cases hr; rfl

/-- A class lists its own field. -/
theorem Reach.own_mem (h : Reach w) {p t : Nat} {n : String} (ho : w.own p n = some (.field t)) :
    t ∈ (w.cls p).fields ∧ p < w.classes.length := by
  obtain ⟨⟨b, I⟩, hl⟩ := h.core
  have hp : p < w.classes.length := by
    by_contra hp
    unfold own at ho
    rw [cls_out (Nat.le_of_not_lt hp)] at ho
    cases ho
  refine ⟨?_, hp⟩
  have hN : w.Nearest p n t := (I.declares_own hp ho).nearest
  obtain ⟨ns, _, h2, h3, _⟩ := hl p hp
  obtain ⟨i, hi, hi'⟩ := List.mem_iff_getElem.1 ((h2 n).2 ⟨t, hN⟩)
  have hlen := h3.length_eq
  have := h3.get hi (by omega)
  have hi2 : i < (w.cls p).fields.length := by omega
  have e : w.Nearest p ns[i] (w.cls p).fields[i] := this
  rw [hi'] at e
  rw [hN.unique e]
  exact List.getElem_mem _

/-- **C33, in part.** As long as no cast has built a non-empty table, a cast takes every class
declared so far into account: any identity one of them lists is accepted. What is missing is casts
after that: see `Ex.C33_counterexample`. -/
theorem C33_first_partial (h : Reach w) {t p : Nat} {n : String} {v : Val}
    (ho : w.own p n = some (.field t)) (hu : ∀ tbl, (w.obj t).types = some tbl → tbl = [])
    {c : Nat} {s : String} (hb : w.Below p c) (hs : w.Names c n s)
    (hv : v.pyEq (.str s) = true) : ∃ c', (w.cast t v).1 = .ok c' := by
  obtain ⟨⟨b, I⟩, hl⟩ := h.core
  obtain ⟨ht, hp⟩ := h.own_mem ho
  obtain ⟨htl, h1, h2⟩ := I.owned p n t ho
  have hmap : w.typesMap t = .ok (w.walk n w.classes.length p []) := by
    unfold typesMap
    rw [h1, h2]
    simp only
    rw [if_pos ht]
  have hunset : unset (w.obj t).types = true := by
    cases hq : (w.obj t).types with
    | none => rfl
    | some tbl => rw [hu tbl hq]; rfl
  have hload : w.load t = .ok (w.setObj t { w.obj t with
      types := some (w.walk n w.classes.length p []) }) := by
    unfold World.load
    rw [if_pos hunset, hmap]
  have hc : c < w.classes.length := by
    obtain ⟨f, hf, _⟩ := hs
    exact hf.lt
  obtain ⟨x, hx⟩ := I.walk_complete w.classes.length p [] c hb (by omega) hs
  unfold World.cast
  rw [hload]
  simp only
  unfold pick
  rw [obj_setObj, if_pos ⟨rfl, htl⟩]
  simp only [Option.getD_some]
  cases hfd : List.find? (fun q => v.pyEq q.1)
      ((w.walk n w.classes.length p []).map fun p => (Val.str p.1, p.2)) with
  | some q => exact ⟨q.2, rfl⟩
  | none =>
    rw [List.find?_eq_none] at hfd
    exact (hfd (.str s, x) (List.mem_map.2 ⟨(s, x), hx, rfl⟩) hv).elim

namespace Ex

/-- `class Animal(Form): kind = Type.abstract()`,
`class Cat(Animal): kind = Type.instance('cat')`, a cast of a cat,
`class Dog(Animal): kind = Type.instance('dog')`. -/
def zoo : List Op :=
  [.field [], .declare [0] [("kind", .field 0)],
   .field ["cat"], .declare [1] [("kind", .field 1)],
   .cast 0 (.str "cat"),
   .field ["dog"], .declare [1] [("kind", .field 2)]]

/-- The same without the cast in between. -/
def zoo' : List Op :=
  [.field [], .declare [0] [("kind", .field 0)],
   .field ["cat"], .declare [1] [("kind", .field 1)],
   .field ["dog"], .declare [1] [("kind", .field 2)]]

/-- What a cast answers after a history. -/
def answer (ops : List Op) (v : String) : Option (Option Nat) :=
  (run ops init).map fun w => (w.cast 0 (.str v)).1.toOption

example : answer zoo' "cat" = some (some 2) ∧ answer zoo' "dog" = some (some 3) ∧
    answer zoo' "cow" = some none := by decide +kernel

/-- `class Animal(Form): kind`, `class Pet(Form): name`, `class Cat(Animal): kind 'cat'`,
`class HouseCat(Pet, Cat): kind 'house'`: a class is found by its second base. -/
def pets : List Op :=
  [.field [], .declare [0] [("kind", .field 0)], .field [], .declare [0] [("name", .field 1)],
   .field ["cat"], .declare [1] [("kind", .field 2)],
   .field ["house"], .declare [2, 3] [("kind", .field 3)]]

example : answer pets "house" = some (some 4) ∧ answer pets "cat" = some (some 3) ∧
    answer pets "dog" = some none := by decide +kernel

/-- **C33 fails.** `Dog` is declared below `Animal` and lists `'dog'`, yet a cast of a dog is
rejected, because an earlier cast built the table before `Dog` was declared. -/
theorem C33_counterexample : ∃ w, Reach w ∧ w.own 1 "kind" = some (.field 0) ∧ w.Below 1 3 ∧
    w.Names 3 "kind" "dog" ∧ (w.cast 0 (.str "dog")).1 = .error "ValueError" := by
  have h : ∃ w, run zoo init = some w ∧ w.own 1 "kind" = some (.field 0) ∧
      1 ∈ (w.cls 3).bases ∧ w.fieldAt 3 "kind" = some 2 ∧ (w.obj 2).choices = ["dog"] ∧
      (w.cast 0 (.str "dog")).1.toOption = none := by
    have h0 : (run zoo init).any (fun w => decide (w.own 1 "kind" = some (.field 0)) &&
        decide (1 ∈ (w.cls 3).bases) && decide (w.fieldAt 3 "kind" = some 2) &&
        decide ((w.obj 2).choices = ["dog"]) &&
        decide ((w.cast 0 (.str "dog")).1.toOption = none)) = true := by decide +kernel
    cases hr : run zoo init with
    | none => rw [hr] at h0; cases h0
    | some w =>
      rw [hr] at h0
      simp only [Option.any_some, Bool.and_eq_true, decide_eq_true_eq] at h0
      obtain ⟨⟨⟨⟨h1, h2⟩, h3⟩, h4⟩, h5⟩ := h0
      exact ⟨w, rfl, h1, h2, h3, h4, h5⟩
  obtain ⟨w, hw, h1, h2, h3, h4, h5⟩ := h
  have hR := run_reach .init hw
  refine ⟨w, hR, h1, .sub .self h2, ⟨2, fieldAt_iff.1 h3, by rw [h4]; simp⟩, ?_⟩
  cases hr : (w.cast 0 (.str "dog")).1 with
  | ok c => rw [hr] at h5; cases h5
  | error e =>
    obtain ⟨⟨b, I⟩, _⟩ := hR.core
    obtain ⟨_, hp, hn⟩ := I.owned 1 "kind" 0 h1
    unfold World.cast at hr
    split at hr
    · rename_i e' hl
      cases hr
      unfold World.load at hl
      split at hl
      · split at hl
        · cases hl
        · rename_i e' hm
          cases hl
          unfold typesMap at hm
          rw [hp, hn] at hm
          simp only at hm
          split at hm
          · cases hm
          · cases hm; rfl
      · cases hl
    · unfold pick at hr
      split at hr
      · cases hr
      · cases hr; rfl

/-- The hypotheses of `C33_first_partial` are met by the history without the early cast. -/
example : (run zoo' init).any (fun w => decide (w.own 1 "kind" = some (.field 0)) &&
    decide ((w.obj 0).types = none) && decide (1 ∈ (w.cls 3).bases) &&
    decide (w.fieldAt 3 "kind" = some 2) && decide ((w.obj 2).choices = ["dog"])) = true := by
  decide +kernel

end Ex

end World
end Pilo.Meta
