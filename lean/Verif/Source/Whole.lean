import Verif.Source.RoomPath

/-!
# What a path was when it was made

Reads only fill caches of parts (`pilo/source/__init__.py:91-108`), so a path that is back at its root is the object
its source made.
-/

namespace Pilo

namespace PathSt
variable {C σ : Type}

theorem append_root (p : PathSt C) (k : Val) : (p.append k).root = p.root := rfl

theorem pop_root {p q : PathSt C} (h : p.pop = .ok q) : q.root = p.root := by
  unfold pop at h
  split at h <;> cases h
  rfl

theorem value_root (resolve : List Val → σ → C → Val → Except Exc C × σ) (isN : C → Bool) (s : σ) (p : PathSt C) :
    (p.value resolve isN s).2.2.root = p.root := by
  unfold value
  split <;> rfl

theorem setValue_root {p : PathSt C} (h : p.parts ≠ []) (v : C) : (p.setValue v).root = p.root := by
  unfold setValue
  split
  · rename_i h0
    rw [List.reverse_eq_nil_iff] at h0
    exact absurd h0 h
  · rfl

theorem fill_state {R : σ → Prop} {resolve : List Val → σ → C → Val → Except Exc C × σ} {isN : C → Bool}
    (h : ∀ ks s c k, R s → R (resolve ks s c k).2) (ks : List Val) (ps : List (Part C)) :
    ∀ s v, R s → R (fill resolve isN ks s v ps).2.1 := by
  induction ps with
  | nil => intro s v hs; exact hs
  | cons p ps ih =>
    intro s v hs
    have h1 := h ks s v p.key hs
    unfold fill
    rcases hr : resolve ks s v p.key with ⟨x, s'⟩
    rw [hr] at h1
    cases x with
    | error e => exact h1
    | ok w =>
      dsimp only
      split
      · exact h1
      · exact ih s' w h1

theorem value_state {R : σ → Prop} {resolve : List Val → σ → C → Val → Except Exc C × σ} {isN : C → Bool}
    (h : ∀ ks s c k, R s → R (resolve ks s c k).2) (s : σ) (p : PathSt C) (hs : R s) :
    R (p.value resolve isN s).2.1 := by
  unfold value
  split
  · exact hs
  · exact fill_state h _ _ _ _ hs
  · exact fill_state h _ _ _ _ hs

end PathSt

namespace SPath

/-- The path at its root. -/
def bare : SPath → SPath
  | .dflt cfg st => .dflt cfg { st with parts := [] }
  | .json s l st => .json s l { st with parts := [] }
  | .config cfg st => .config cfg { st with parts := [] }

theorem bare_of_nil {p : SPath} (h : p.keys = []) : p.bare = p := by
  cases p <;> simp only [keys, PathSt.keys, List.map_eq_nil_iff] at h <;> rename_i st <;> cases st <;>
    simp only at h <;> subst h <;> rfl

theorem append_bare (p : SPath) (k : Val) : (p.append k).bare = p.bare := by cases p <;> rfl

theorem shiftLast_bare (p : SPath) (o : Nat) : (p.shiftLast o).bare = p.bare := by
  have h : ∀ {C : Type} (st : PathSt C), (Pilo.shiftLast st o).root = st.root := by
    intro C st
    unfold Pilo.shiftLast
    split
    · rfl
    · split <;> rfl
  cases p <;> simp [shiftLast, bare, h]

theorem pop_bare {p q : SPath} (h : p.pop = .ok q) : q.bare = p.bare := by
  cases p <;> simp only [pop] at h <;> split at h <;> cases h <;> rename_i h <;> simp [bare, PathSt.pop_root h]

theorem withValue_bare {α : Type} (L : Lib) (p : SPath) (a : DefaultCfg → List Val → Val → Except Exc α)
    (b : Bool → Val → Except Exc α) (c : ConfigCfg → List Val → CfgVal → Except Exc α) :
    (p.withValue L a b c).2.bare = p.bare := by
  cases p with
  | dflt cfg st =>
    have h : (valueDflt L cfg st).2.root = st.root := PathSt.value_root ..
    unfold withValue
    dsimp only
    split <;> rename_i heq <;> rw [heq] at h <;> simp only [bare] <;> congr 2
  | json s l st =>
    have h : (valueJson st).2.root = st.root := PathSt.value_root ..
    unfold withValue
    dsimp only
    split <;> rename_i heq <;> rw [heq] at h <;> simp only [bare] <;> congr 2
  | config cfg st =>
    have h : (valueCfg L cfg st).2.root = st.root := PathSt.value_root ..
    unfold withValue
    dsimp only
    split <;> rename_i heq <;> rw [heq] at h <;> simp only [bare] <;> congr 2

end SPath

/-! ## Union paths -/

theorem onChild_bare {α : Type} {f : SPath → Except Exc α × SPath} (hf : ∀ p, (f p).2.bare = p.bare)
    (kids : List SPath) (i : Nat) : (onChild kids i f).2.map SPath.bare = kids.map SPath.bare := by
  unfold onChild
  split
  · rfl
  · rename_i p hp
    show (kids.set i (f p).2).map SPath.bare = _
    rw [List.map_set, hf]
    apply List.ext_getElem?
    intro j
    rw [List.getElem?_set]
    split
    · rename_i hj
      subst hj
      rw [List.getElem?_map, hp]
      have := (List.getElem?_eq_some_iff.1 hp).1
      simp [this]
    · rfl

theorem mappingLoop_bare (L : Lib) (m : Merge) (cs : List Nat) : ∀ (acc : List (Nat × List Val)) (kids : List SPath),
    (mappingLoop L m cs acc kids).2.map SPath.bare = kids.map SPath.bare := by
  induction cs with
  | nil => intro acc kids; rfl
  | cons i cs ih =>
    intro acc kids
    have h1 := onChild_bare (f := SPath.exists_ L) (fun p => SPath.withValue_bare L p _ _ _) kids i
    unfold mappingLoop
    rcases e1 : onChild kids i (SPath.exists_ L) with ⟨r1, kids1⟩
    rw [e1] at h1
    dsimp only at h1 ⊢
    cases r1 with
    | error e => exact h1
    | ok b =>
      cases b with
      | false => exact (ih acc kids1).trans h1
      | true =>
        have h2 := onChild_bare (f := SPath.isNull L) (fun p => SPath.withValue_bare L p _ _ _) kids1 i
        dsimp only
        rcases e2 : onChild kids1 i (SPath.isNull L) with ⟨r2, kids2⟩
        rw [e2] at h2
        dsimp only at h2 ⊢
        have h2 := h2.trans h1
        cases r2 with
        | error e => exact h2
        | ok n =>
          have h3 := onChild_bare (f := SPath.mapping L) (fun p => SPath.withValue_bare L p _ _ _) kids2 i
          dsimp only
          rcases e3 : onChild kids2 i (SPath.mapping L) with ⟨r3, kids3⟩
          rw [e3] at h3
          dsimp only at h3 ⊢
          have h3 := h3.trans h2
          cases r3 with
          | error e => repeat (first | exact h2 | exact h3 | exact (ih _ _).trans h2 | split)
          | ok ks =>
            dsimp only
            repeat (first | exact h2 | exact h3 | exact (ih _ _).trans h2 | exact (ih _ _).trans h3 | split)

theorem mkMapping_bare (L : Lib) (cfg : UnionCfg) (m : Option Merge) (cs : List Nat) (kids : List SPath) :
    (mkMapping L cfg m cs kids).2.map SPath.bare = kids.map SPath.bare := by
  unfold mkMapping
  dsimp only
  split
  · rfl
  · exact mappingLoop_bare L _ cs [] kids

theorem sequenceLoop_bare (L : Lib) (cfg : UnionCfg) (cs : List Nat) : ∀ (m : Option Merge) (acc : List (Nat × Nat))
    (kids : List SPath), (sequenceLoop L cfg cs m acc kids).2.map SPath.bare = kids.map SPath.bare := by
  induction cs with
  | nil => intro m acc kids; rfl
  | cons i cs ih =>
    intro m acc kids
    have h1 := onChild_bare (f := SPath.exists_ L) (fun p => SPath.withValue_bare L p _ _ _) kids i
    unfold sequenceLoop
    rcases e1 : onChild kids i (SPath.exists_ L) with ⟨r1, kids1⟩
    rw [e1] at h1
    dsimp only at h1 ⊢
    cases r1 with
    | error e => exact h1
    | ok b =>
      cases b with
      | false => exact (ih m acc kids1).trans h1
      | true =>
        have h2 := onChild_bare (f := SPath.isNull L) (fun p => SPath.withValue_bare L p _ _ _) kids1 i
        dsimp only
        rcases e2 : onChild kids1 i (SPath.isNull L) with ⟨r2, kids2⟩
        rw [e2] at h2
        dsimp only at h2 ⊢
        have h2 := h2.trans h1
        cases r2 with
        | error e => exact h2
        | ok n =>
          have h3 := onChild_bare (f := SPath.sequence L) (fun p => SPath.withValue_bare L p _ _ _) kids2 i
          cases n with
          | true => exact (ih _ _ _).trans h2
          | false =>
            dsimp only
            rcases e3 : onChild kids2 i (SPath.sequence L) with ⟨r3, kids3⟩
            rw [e3] at h3
            dsimp only at h3 ⊢
            have h3 := h3.trans h2
            cases r3 with
            | error e => exact h3
            | ok n =>
              dsimp only
              cases acc with
              | nil => exact (ih _ _ _).trans h3
              | cons a as =>
                dsimp only
                split <;> first | exact h3 | exact (ih _ _ _).trans h3

theorem resolveUnion_bare (c : UVal) (k : Val) (kids : List SPath) :
    (resolveUnion c k kids).2.map SPath.bare = kids.map SPath.bare := by
  have h : (unionGet c k kids).2.map SPath.bare = kids.map SPath.bare := by
    unfold unionGet
    split
    · rfl
    · rename_i ss
      unfold seqGet
      split
      · rfl
      · split
        · rfl
        · split
          · rfl
          · rename_i i o _ _ p hp
            have := onChild_bare (f := fun p => (.ok (), p.shiftLast o)) (fun p => SPath.shiftLast_bare p o) kids i
            unfold onChild at this
            rw [hp] at this
            split
            · exact this
            · rfl
    · rfl
    · split <;> rfl
  unfold resolveUnion
  split <;> rename_i heq <;> rw [heq] at h <;> exact h

namespace UPath

/-- The path at its root. -/
def bare (p : UPath) : UPath := { cfg := p.cfg, st := { root := p.st.root, parts := [] }, kids := p.kids.map SPath.bare }

/-- The root is a `Mapping` (`union.py:8-11`). -/
def Rooted (p : UPath) : Prop := ∃ ms, p.st.root = .mapping ms

theorem bare_of_nil {p : UPath} (hw : p.WF) (h : p.keys = []) : p.bare = p := by
  have hk : p.kids.map SPath.bare = p.kids := by
    refine (List.map_congr_left fun c hc => ?_).trans (List.map_id _)
    have := hw.kids c hc
    rw [h] at this
    exact SPath.bare_of_nil (List.length_eq_zero_iff.1 this)
  obtain ⟨cfg, ⟨root, parts⟩, kids⟩ := p
  simp only [keys, PathSt.keys, List.map_eq_nil_iff] at h
  subst h
  unfold bare
  dsimp only at hk ⊢
  rw [hk]

/-- `q` is `p` but for keys and caches. -/
def Kin (p q : UPath) : Prop := q.bare = p.bare

theorem Kin.rooted {p q : UPath} (h : Kin p q) (hp : p.Rooted) : q.Rooted := by
  obtain ⟨ms, hm⟩ := hp
  exact ⟨ms, (congrArg (fun x : UPath => x.st.root) h).trans hm⟩

theorem kin_of {p q : UPath} (hc : q.cfg = p.cfg) (hr : q.st.root = p.st.root)
    (hk : q.kids.map SPath.bare = p.kids.map SPath.bare) : Kin p q := by
  unfold Kin bare
  rw [hc, hr, hk]

theorem append_kin (p : UPath) (k : Val) : Kin p (p.append k) := by
  refine kin_of rfl rfl ?_
  show (p.kids.map _).map _ = _
  rw [List.map_map]
  exact List.map_congr_left fun c _ => SPath.append_bare c k

theorem popAll_bare : ∀ {kids kids' : List SPath}, popAll kids = .ok kids' →
    kids'.map SPath.bare = kids.map SPath.bare := by
  intro kids
  induction kids with
  | nil => intro kids' h; cases h; rfl
  | cons c cs ih =>
    intro kids' h
    unfold popAll at h
    split at h
    · cases h
    · rename_i c' hc
      split at h
      · cases h
      · rename_i cs' hcs
        cases h
        simp only [List.map_cons, SPath.pop_bare hc, ih hcs]

theorem pop_kin {p q : UPath} (h : p.pop = .ok q) : Kin p q := by
  unfold pop at h
  split at h
  · cases h
  · rename_i st' hst
    split at h
    · cases h
    · rename_i kids' hkids
      cases h
      exact kin_of rfl (PathSt.pop_root hst) (popAll_bare hkids)

theorem uvalue_kin (p : UPath) : Kin p p.uvalue.2 := by
  refine kin_of rfl (PathSt.value_root ..) ?_
  exact PathSt.value_state (R := fun kids : List SPath => kids.map SPath.bare = p.kids.map SPath.bare)
    (fun _ s c k hs => (resolveUnion_bare c k s).trans hs) p.kids p.st rfl

/-- At the root there is the `Mapping`. -/
theorem uvalue_join {p q : UPath} {cs : List Nat} (hp : p.Rooted) (h : p.uvalue = (.ok (.join cs), q)) :
    q.st.parts ≠ [] := by
  obtain ⟨ms, hm⟩ := hp
  intro hq
  have hk := uvalue_kin p
  have hsig : q.st.keys = p.st.keys := by
    have := PathSt.value_sig (fun _ kids c k => resolveUnion c k kids) UVal.isNONE p.kids p.st
    have h2 : q.st = p.uvalue.2.st := by rw [h]
    rw [h2]
    exact PathSt.keys_of_sig this
  have hnil : p.st.parts = [] := by
    have : p.st.keys = [] := by rw [← hsig]; simp [PathSt.keys, hq]
    simpa [PathSt.keys] using this
  unfold uvalue PathSt.value at h
  simp only [hnil, List.reverse_nil, PathSt.scan, PathSt.fill, hm] at h
  cases h

theorem value_kin (p : UPath) : Kin p p.value.2 := by
  have h := uvalue_kin p
  unfold value
  split <;> rename_i heq <;> rw [heq] at h <;> exact h

theorem exists_kin (p : UPath) : Kin p p.exists_.2 := by
  have h := uvalue_kin p
  unfold exists_
  split <;> rename_i heq <;> rw [heq] at h <;> exact h

theorem isNull_kin (p : UPath) : Kin p p.isNull.2 := by
  have h := uvalue_kin p
  unfold isNull
  split <;> rename_i heq <;> rw [heq] at h <;> exact h

theorem Kin.stored {p q : UPath} (h : Kin p q) {kids : List SPath} (hk : kids.map SPath.bare = q.kids.map SPath.bare) :
    Kin p { q with kids := kids } :=
  (kin_of (p := q) (q := { q with kids := kids }) rfl rfl hk).trans h

theorem Kin.cached {p q : UPath} (h : Kin p q) (hq : q.st.parts ≠ []) (v : UVal) {kids : List SPath}
    (hk : kids.map SPath.bare = q.kids.map SPath.bare) : Kin p { q with st := q.st.setValue v, kids := kids } :=
  (kin_of (p := q) (q := { q with st := q.st.setValue v, kids := kids }) rfl (PathSt.setValue_root hq v) hk).trans h

theorem mapping_kin (L : Lib) {p : UPath} (hp : p.Rooted) : Kin p (p.mapping L).2 := by
  have h := uvalue_kin p
  unfold mapping
  rcases hu : p.uvalue with ⟨r, q⟩
  rw [hu] at h
  cases r with
  | error e => exact h
  | ok v =>
    cases v with
    | join cs =>
      have hb := mkMapping_bare L q.cfg none cs q.kids
      dsimp only
      rcases hm : mkMapping L q.cfg none cs q.kids with ⟨r, kids⟩
      rw [hm] at hb
      cases r with
      | error e => exact h.stored hb
      | ok ms => exact h.cached (uvalue_join hp hu) _ hb
    | mapping ms => exact h
    | seq ss => exact h
    | val v => exact h

theorem sequence_kin (L : Lib) {p : UPath} (hp : p.Rooted) : Kin p (p.sequence L).2 := by
  have h := uvalue_kin p
  unfold sequence
  rcases hu : p.uvalue with ⟨r, q⟩
  rw [hu] at h
  cases r with
  | error e => exact h
  | ok v =>
    cases v with
    | join cs =>
      have hb := sequenceLoop_bare L q.cfg cs none [] q.kids
      dsimp only
      rcases hm : sequenceLoop L q.cfg cs none [] q.kids with ⟨r, kids⟩
      rw [hm] at hb
      cases r with
      | error e => exact h.stored hb
      | ok ms => exact h.cached (uvalue_join hp hu) _ hb
    | mapping ms => exact h
    | seq ss => exact h
    | val v => exact h

theorem primitive_kin (L : Lib) (ty : PTy) {p : UPath} (hp : p.Rooted) : Kin p (p.primitive L ty).2 := by
  have h := uvalue_kin p
  unfold primitive
  rcases hu : p.uvalue with ⟨r, q⟩
  rw [hu] at h
  cases r with
  | error e => exact h
  | ok v =>
    cases v with
    | join cs =>
      cases cs with
      | nil => exact h.cached (uvalue_join hp hu) _ rfl
      | cons c cs =>
        have hb := onChild_bare (f := SPath.primitive L ty) (fun p => SPath.withValue_bare L p _ _ _) q.kids c
        dsimp only
        rcases hm : onChild q.kids c (SPath.primitive L ty) with ⟨r, kids⟩
        rw [hm] at hb
        cases r with
        | error e => exact h.stored hb
        | ok ms => exact h.cached (uvalue_join hp hu) _ hb
    | mapping ms => exact h
    | seq ss => exact h
    | val v => exact h

end UPath

/-! ## Mounted paths -/

namespace BPath

/-- The path at its root. -/
def bare : BPath → BPath
  | .simple p => .simple p.bare
  | .union p => .union p.bare

/-- What a union needs. -/
def Rooted : BPath → Prop
  | .simple _ => True
  | .union p => p.Rooted

/-- `q` is `p` but for keys and caches, and as well made. -/
def Kin (p q : BPath) : Prop := q.Rooted ∧ q.bare = p.bare

theorem bare_of_nil {p : BPath} (hw : p.WF) (h : p.keys = []) : p.bare = p := by
  cases p with
  | simple p => exact congrArg simple (SPath.bare_of_nil h)
  | union p => exact congrArg union (UPath.bare_of_nil hw h)

theorem append_kin {p : BPath} (hp : p.Rooted) (k : Val) : Kin p (p.append k) := by
  cases p with
  | simple p => exact ⟨trivial, congrArg simple (SPath.append_bare p k)⟩
  | union p => exact ⟨(UPath.append_kin p k).rooted hp, congrArg union (UPath.append_kin p k)⟩

theorem pop_kin {p q : BPath} (hp : p.Rooted) (h : p.pop = .ok q) : Kin p q := by
  cases p with
  | simple p =>
    simp only [pop] at h
    split at h <;> cases h
    rename_i hr
    exact ⟨trivial, congrArg simple (SPath.pop_bare hr)⟩
  | union p =>
    simp only [pop] at h
    split at h <;> cases h
    rename_i hr
    exact ⟨(UPath.pop_kin hr).rooted hp, congrArg union (UPath.pop_kin hr)⟩

theorem read_kin {α : Type} {p : BPath} (hp : p.Rooted) {fs : SPath → Except Exc α × SPath}
    {fu : UPath → Except Exc α × UPath} (hs : ∀ p, (fs p).2.bare = p.bare) (hu : ∀ p : UPath, p.Rooted → UPath.Kin p (fu p).2) :
    Kin p (p.read fs fu).2 := by
  cases p with
  | simple p => exact ⟨trivial, congrArg simple (hs p)⟩
  | union p => exact ⟨(hu p hp).rooted hp, congrArg union (hu p hp)⟩

theorem value_kin (L : Lib) {p : BPath} (hp : p.Rooted) : Kin p (p.value L).2 :=
  read_kin hp (fun p => SPath.withValue_bare L p _ _ _) fun p _ => UPath.value_kin p
theorem exists_kin (L : Lib) {p : BPath} (hp : p.Rooted) : Kin p (p.exists_ L).2 :=
  read_kin hp (fun p => SPath.withValue_bare L p _ _ _) fun p _ => UPath.exists_kin p
theorem isNull_kin (L : Lib) {p : BPath} (hp : p.Rooted) : Kin p (p.isNull L).2 :=
  read_kin hp (fun p => SPath.withValue_bare L p _ _ _) fun p _ => UPath.isNull_kin p
theorem mapping_kin (L : Lib) {p : BPath} (hp : p.Rooted) : Kin p (p.mapping L).2 :=
  read_kin hp (fun p => SPath.withValue_bare L p _ _ _) fun _ h => UPath.mapping_kin L h
theorem sequence_kin (L : Lib) {p : BPath} (hp : p.Rooted) : Kin p (p.sequence L).2 :=
  read_kin hp (fun p => SPath.withValue_bare L p _ _ _) fun _ h => UPath.sequence_kin L h
theorem primitive_kin (L : Lib) (ty : PTy) {p : BPath} (hp : p.Rooted) : Kin p (p.primitive L ty).2 :=
  read_kin hp (fun p => SPath.withValue_bare L p _ _ _) fun _ h => UPath.primitive_kin L ty h

theorem joinPath_rooted {L : Lib} {p q : BPath} (h : p.joinPath L = some (.ok q)) : q.Rooted := by
  cases p with
  | simple p => cases h
  | union p =>
    simp only [joinPath] at h
    split at h
    · cases h
    · cases h
    · rename_i r hr
      cases h
      unfold UPath.joinPath at hr
      split at hr
      · rename_i cs p' _
        split at hr
        · cases hr
        · rename_i ms kids _
          dsimp only at hr
          split at hr
          · cases hr
          · rename_i hne
            cases hr
            refine ⟨ms, ?_⟩
            show (PathSt.setValue _ _).root = _
            rw [PathSt.setValue_root]
            intro h0
            have h0 : (UPath.prefixKeys cs kids).map Part.ofKey = ([] : List (Part UVal)) := h0
            rw [h0] at hne
            exact hne rfl
      · cases hr

end BPath

namespace MPath

/-- Nothing selected, every mounted path at its root. -/
def bare (p : MPath) : MPath := { part := none, dne := p.dne.bare, paths := p.paths.map fun q => (q.1, q.2.bare) }

/-- Every mounted path is well made, and all but the selected one are at their roots. -/
structure Rooted (p : MPath) : Prop where
  dne : p.dne.Rooted
  paths : ∀ q ∈ p.paths, q.2.Rooted ∧ q.2.WF
  away : ∀ i q, p.paths[i]? = some q → (∀ m, p.part = some m → p.find m ≠ some i) → q.2.keys = []

theorem bare_of_nil {p : MPath} (hw : p.WF) (hr : p.Rooted) (h : p.keys = []) : p.bare = p := by
  have hpart : p.part = none := by
    unfold keys at h
    split at h
    · assumption
    · cases h
  have hdne : p.dne.bare = p.dne := by
    have hd : p.sub (.int 0) = p.dne := by
      have : p.find (.int 0) = none := by
        unfold find
        rw [List.findIdx?_eq_none_iff]
        intro x _
        rfl
      unfold sub
      rw [this]
    have h1 := hw.sub (.int 0)
    have h2 := hw.idle (.int 0) (by intro m hm; rw [hpart] at hm; cases hm)
    rw [hd] at h1 h2
    exact BPath.bare_of_nil h1 h2
  have hps : (p.paths.map fun q => (q.1, q.2.bare)) = p.paths := by
    refine (List.map_congr_left fun q hq => ?_).trans (List.map_id _)
    obtain ⟨i, hi⟩ := List.getElem?_of_mem hq
    have := hr.away i q hi (by intro m hm; rw [hpart] at hm; cases hm)
    rw [BPath.bare_of_nil (hr.paths q hq).2 this]
    rfl
  unfold bare
  rw [hdne, hps, ← hpart]

/-- `q` is `p` but for keys and caches, and as well made. -/
def Kin (p q : MPath) : Prop := q.Rooted ∧ q.bare = p.bare

theorem sub_of_find {p : MPath} {k : Val} {i : Nat} (h : p.find k = some i) : ∃ x, p.paths[i]? = some x ∧ p.sub k = x.2 := by
  unfold sub
  rw [h]
  unfold find at h
  rw [List.findIdx?_eq_some_iff_getElem] at h
  obtain ⟨hi, -⟩ := h
  exact ⟨p.paths[i], List.getElem?_eq_getElem hi, by simp [hi]⟩

theorem Rooted.sub {p : MPath} (h : p.Rooted) (k : Val) : (p.sub k).Rooted := by
  cases hf : p.find k with
  | none =>
    unfold MPath.sub
    rw [hf]
    exact h.dne
  | some i =>
    obtain ⟨x, hx, hs⟩ := sub_of_find hf
    rw [hs]
    exact (h.paths x (List.mem_of_getElem? hx)).1

/-- A change of the selected path. -/
theorem setSub_kin {p : MPath} (hp : p.Rooted) {m : Val} (hm : p.part = some m) {q : BPath} (hq : BPath.Kin (p.sub m) q)
    (hw : q.WF) : Kin p (p.setSub m q) := by
  obtain ⟨hr, hb⟩ := hq
  cases hf : p.find m with
  | none =>
    have hs : p.sub m = p.dne := by unfold MPath.sub; rw [hf]
    rw [hs] at hb
    unfold setSub
    rw [hf]
    refine ⟨⟨hr, hp.paths, fun i x hx ha => hp.away i x hx ha⟩, ?_⟩
    unfold bare
    dsimp only
    rw [hb]
  | some i =>
    obtain ⟨x, hx, hs⟩ := sub_of_find hf
    rw [hs] at hb
    have hfind : ∀ j, (p.setSub m q).find j = p.find j := find_setSub p m q
    have hset : p.setSub m q = { p with paths := p.paths.modify i fun r => (r.1, q) } := by
      unfold setSub
      rw [hf]
    rw [hset] at hfind ⊢
    refine ⟨⟨hp.dne, ?_, ?_⟩, ?_⟩
    · intro y hy
      obtain ⟨j, hj⟩ := List.getElem?_of_mem hy
      dsimp only at hj
      rw [List.getElem?_modify] at hj
      by_cases hij : i = j
      · subst hij
        rw [hx] at hj
        simp only [if_true, Option.map_eq_map, Option.map_some, Option.some.injEq] at hj
        subst hj
        exact ⟨hr, hw⟩
      · simp only [hij, if_false, Option.map_eq_map, Option.map_id'] at hj
        exact hp.paths y (List.mem_of_getElem? hj)
    · intro j y hj ha
      have hij : i ≠ j := by
        intro he
        exact ha m hm ((hfind m).trans (he ▸ hf))
      dsimp only at hj
      rw [List.getElem?_modify] at hj
      simp only [hij, if_false, Option.map_eq_map, Option.map_id'] at hj
      exact hp.away j y hj fun m' hm' => by
        have := ha m' hm'
        rwa [hfind] at this
    · unfold bare
      dsimp only
      congr 1
      apply List.ext_getElem?
      intro j
      rw [List.getElem?_map, List.getElem?_map, List.getElem?_modify]
      by_cases hij : i = j
      · subst hij
        rw [hx]
        simp only [if_true, Option.map_eq_map, Option.map_some, hb]
      · simp only [hij, if_false, Option.map_eq_map, Option.map_id']

theorem append_kin {p q : MPath} (hw : p.WF) (hp : p.Rooted) {k : Val} (h : p.append k = .ok q) : Kin p q := by
  unfold append at h
  split at h
  · rename_i hm
    split at h
    · cases h
      exact ⟨⟨hp.dne, hp.paths, fun i x hx _ => hp.away i x hx (by intro m' h'; rw [hm] at h'; cases h')⟩, rfl⟩
    · cases h
  · rename_i m hm
    cases h
    exact setSub_kin hp hm (BPath.append_kin (hp.sub m) k) (BPath.append_keys (p := p.sub m) (hw.sub m) k).2.1

theorem pop_kin {p q : MPath} (hw : p.WF) (hp : p.Rooted) (h : p.pop = .ok q) : Kin p q := by
  unfold pop at h
  split at h
  · cases h
  · rename_i m hm
    split at h
    · rename_i he
      cases h
      refine ⟨⟨hp.dne, hp.paths, fun i x hx _ => ?_⟩, rfl⟩
      by_cases hf : p.find m = some i
      · obtain ⟨y, hy, hs⟩ := sub_of_find hf
        have hx : p.paths[i]? = some x := hx
        rw [hx] at hy
        cases hy
        rw [← hs]
        simpa using he
      · exact hp.away i x hx (by intro m' h'; rw [hm] at h'; cases h'; exact hf)
    · split at h
      · rename_i r hr
        cases h
        have hwf : r.WF := by
          have hne : (p.sub m).keys ≠ [] := by
            rename_i he _
            intro h0
            rw [h0] at he
            exact he rfl
          obtain ⟨q, h1, -, h3, -⟩ := BPath.pop_keys (hw.sub m) (List.dropLast_concat_getLast hne).symm
          rw [hr] at h1
          cases h1
          exact h3
        exact setSub_kin hp hm (BPath.pop_kin (hp.sub m) hr) hwf
      · cases h

theorem onSub_kin {α : Type} {p : MPath} (hw : p.WF) (hp : p.Rooted) {m : Val} (hm : p.part = some m)
    {f : BPath → Except Exc α × BPath} (hf : ∀ q : BPath, q.Rooted → BPath.Kin q (f q).2)
    (hf' : ∀ q : BPath, q.WF → (f q).2.WF) : Kin p (p.onSub m f).2 :=
  setSub_kin hp hm (hf _ (hp.sub m)) (hf' _ (hw.sub m))

theorem value_kin (L : Lib) {p : MPath} (hw : p.WF) (hp : p.Rooted) : Kin p (p.value L).2 := by
  unfold value
  split
  · exact ⟨hp, rfl⟩
  · rename_i m hm
    exact onSub_kin hw hp hm (fun _ => BPath.value_kin L) fun _ h => (BPath.value_keeps L h).wf

theorem exists_kin (L : Lib) {p : MPath} (hw : p.WF) (hp : p.Rooted) : Kin p (p.exists_ L).2 := by
  unfold exists_
  split
  · exact ⟨hp, rfl⟩
  · rename_i m hm
    exact onSub_kin hw hp hm (fun _ => BPath.exists_kin L) fun _ h => (BPath.exists_keeps L h).wf

theorem isNull_kin (L : Lib) {p : MPath} (hw : p.WF) (hp : p.Rooted) : Kin p (p.isNull L).2 := by
  unfold isNull
  split
  · exact ⟨hp, rfl⟩
  · rename_i m hm
    have := onSub_kin hw hp hm (f := BPath.value L) (fun _ => BPath.value_kin L) fun _ h => (BPath.value_keeps L h).wf
    split <;> rename_i heq <;> rw [heq] at this <;> exact this

theorem mapping_kin (L : Lib) {p : MPath} (hw : p.WF) (hp : p.Rooted) : Kin p (p.mapping L).2 := by
  unfold mapping
  split
  · exact ⟨hp, rfl⟩
  · rename_i m hm
    exact onSub_kin hw hp hm (fun _ => BPath.mapping_kin L) fun _ h => (BPath.mapping_keeps L h).wf

theorem sequence_kin (L : Lib) {p : MPath} (hw : p.WF) (hp : p.Rooted) : Kin p (p.sequence L).2 := by
  unfold sequence
  split
  · exact ⟨hp, rfl⟩
  · rename_i m hm
    split
    · exact ⟨hp, rfl⟩
    · exact onSub_kin hw hp hm (fun _ => BPath.sequence_kin L) fun _ h => (BPath.sequence_keeps L h).wf

theorem primitive_kin (L : Lib) (ty : PTy) {p : MPath} (hw : p.WF) (hp : p.Rooted) : Kin p (p.primitive L ty).2 := by
  unfold primitive
  split
  · exact ⟨hp, rfl⟩
  · rename_i m hm
    split
    · exact ⟨hp, rfl⟩
    · exact onSub_kin hw hp hm (fun _ => BPath.primitive_kin L ty) fun _ h => (BPath.primitive_keeps L ty h).wf

end MPath

/-! ## Any built-in path -/

namespace Path

/-- The path as its source makes it. -/
def bare : Path → Path
  | .base p => .base p.bare
  | .mount p => .mount p.bare

/-- What unions and mounts need. -/
def Rooted : Path → Prop
  | .base p => p.Rooted
  | .mount p => p.Rooted

theorem bare_of_nil {L : Lib} {p : Path} (hw : p.WF) (hr : p.Rooted) (h : (ops L).keys p = []) : p.bare = p := by
  cases p with
  | base p => exact congrArg base (BPath.bare_of_nil hw h)
  | mount p => exact congrArg mount (MPath.bare_of_nil hw hr h)

theorem read_kin {α : Type} {p : Path} (hw : p.WF) (hp : p.Rooted) {fb : BPath → Except Exc α × BPath}
    {fm : MPath → Except Exc α × MPath} (hb : ∀ q : BPath, q.Rooted → BPath.Kin q (fb q).2)
    (hm : ∀ q : MPath, q.WF → q.Rooted → MPath.Kin q (fm q).2) :
    (p.read fb fm).2.Rooted ∧ (p.read fb fm).2.bare = p.bare := by
  cases p with
  | base p => exact ⟨(hb p hp).1, congrArg base (hb p hp).2⟩
  | mount p => exact ⟨(hm p hw hp).1, congrArg mount (hm p hw hp).2⟩

/-- The built-in paths, with what they were when they were made as part of what nothing changes. -/
def whole (L : Lib) : LawfulPath (ops L) :=
  (lawful L).also Rooted bare
    (append := by
      intro p k q hw hp hq
      cases p with
      | base p =>
        cases hq
        have := BPath.append_kin hp k
        exact ⟨this.1, congrArg base this.2⟩
      | mount p =>
        simp only [ops] at hq
        split at hq
        · rename_i r hr
          cases hq
          have := MPath.append_kin hw hp hr
          exact ⟨this.1, congrArg mount this.2⟩
        · cases hq)
    (pop := by
      intro p q hw hp hq
      cases p with
      | base p =>
        simp only [ops] at hq
        split at hq
        · rename_i r hr
          cases hq
          have := BPath.pop_kin hp hr
          exact ⟨this.1, congrArg base this.2⟩
        · cases hq
      | mount p =>
        simp only [ops] at hq
        split at hq
        · rename_i r hr
          cases hq
          have := MPath.pop_kin hw hp hr
          exact ⟨this.1, congrArg mount this.2⟩
        · cases hq)
    (value := fun hw hp => read_kin hw hp (fun _ => BPath.value_kin L) (fun _ => MPath.value_kin L))
    (exists_ := fun hw hp => read_kin hw hp (fun _ => BPath.exists_kin L) (fun _ => MPath.exists_kin L))
    (isNull := fun hw hp => read_kin hw hp (fun _ => BPath.isNull_kin L) (fun _ => MPath.isNull_kin L))
    (mapping := fun {p} hw hp => by
      show (someKeys _).2.Rooted ∧ (someKeys _).2.bare = p.bare
      rw [someKeys_snd]
      exact read_kin hw hp (fun _ => BPath.mapping_kin L) (fun _ => MPath.mapping_kin L))
    (sequence := fun hw hp => read_kin hw hp (fun _ => BPath.sequence_kin L) (fun _ => MPath.sequence_kin L))
    (primitive := fun {_ ty} hw hp =>
      read_kin hw hp (fun _ => BPath.primitive_kin L ty) (fun _ => MPath.primitive_kin L ty))
    (join := by
      intro p q hw hp hq
      cases p with
      | base p =>
        simp only [ops] at hq
        split at hq
        · cases hq
        · rename_i r hr
          cases hq
          exact BPath.joinPath_rooted hr
        · cases hq
      | mount p =>
        simp only [ops] at hq
        split at hq
        · cases hq
        · split at hq
          · cases hq
          · rename_i r hr
            cases hq
            exact BPath.joinPath_rooted hr
          · cases hq)
    (native := fun _ _ => trivial)

/-- A path that is back at its root is the one its source made. -/
theorem whole_root {L : Lib} {p p0 : Path} (h0 : (whole L).WF p0) (hk0 : (ops L).keys p0 = []) (h : (whole L).WF p)
    (hk : (ops L).keys p = []) (hs : (whole L).shape p = (whole L).shape p0) : p = p0 := by
  have h1 : p.bare = p0.bare := congrArg Prod.snd hs
  rw [bare_of_nil (L := L) h.1 h.2 hk, bare_of_nil (L := L) h0.1 h0.2 hk0] at h1
  exact h1

end Path
end Pilo
