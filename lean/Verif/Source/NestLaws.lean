import Verif.Source.Nest
import Verif.Source.Lawful

/-!
# Paths of nested sources are lawful

If the paths below are lawful, so are the paths of a union and of a mount over them; hence the paths of
sources nested to any depth are (`Nest.lawful`).
-/

namespace Pilo

/-- Only caches differ. -/
structure KidAlike {P : Type} (K : Child P) (WF : P → Prop) (text : P → List Val → Except Exc String) (p q : P) : Prop where
  keys : K.keys q = K.keys p
  wf : WF q
  text : text q = text p

/-- The discipline of a path as a child. -/
structure ChildLaws {P : Type} (K : Child P) where
  WF : P → Prop
  /-- `str(path)` as a function of the keys -/
  text : P → List Val → Except Exc String
  render_text : ∀ {p}, WF p → K.render p = text p (K.keys p)
  isKey : ∀ {p}, WF p → ∀ k ∈ K.keys p, k.isKey = true
  app : ∀ {p k}, WF p → k.isKey = true →
    K.keys (K.app p k) = K.keys p ++ [k] ∧ WF (K.app p k) ∧ text (K.app p k) = text p
  pop : ∀ {p ks k}, WF p → K.keys p = ks ++ [k] →
    ∃ q, K.pop p = .ok q ∧ K.keys q = ks ∧ WF q ∧ text q = text p
  shift : ∀ {p o q}, WF p → K.shift p o = .ok q →
    (K.keys q).length = (K.keys p).length ∧ WF q ∧ text q = text p
  value : ∀ {p}, WF p → KidAlike K WF text p (K.value p).2
  exists_ : ∀ {p}, WF p → KidAlike K WF text p (K.exists_ p).2
  isNull : ∀ {p}, WF p → KidAlike K WF text p (K.isNull p).2
  mapping : ∀ {p}, WF p → KidAlike K WF text p (K.mapping p).2
  sequence : ∀ {p}, WF p → KidAlike K WF text p (K.sequence p).2
  primitive : ∀ {p ty}, WF p → KidAlike K WF text p (K.primitive ty p).2
  joinPath : ∀ {p q}, WF p → K.joinPath p = some (.ok q) → WF q
  native : ∀ {v al}, WF (K.native v al)
  native_keys : ∀ {v al}, K.keys (K.native v al) = []

/-! ## Plain sources -/

namespace PathSt
variable {C : Type}

theorem shift_spec {st st' : PathSt C} {o : Nat} (h : st.shift o = .ok st') :
    st'.keys.length = st.keys.length ∧ (st.Tidy → st'.Tidy) ∧
      ((∀ k ∈ st.keys, k.isKey = true) → ∀ k ∈ st'.keys, k.isKey = true) := by
  unfold shift at h
  cases hr : st.parts.reverse with
  | nil => rw [hr] at h; cases h
  | cons q rest =>
    rw [hr] at h
    have h2 : st.parts = rest.reverse ++ [q] := by rw [← List.reverse_reverse st.parts, hr]; simp
    cases hi : q.key.index? with
    | none => simp only [hi] at h; cases h
    | some i =>
      simp only [hi] at h
      cases h
      have hq : q.key.isIntLike = true := by
        cases hk : q.key <;> simp [hk, Val.index?, Val.isIntLike] at hi ⊢
      refine ⟨by simp [keys, h2], fun ht x hx => ?_, fun hk k hk' => ?_⟩
      · have hx : x ∈ rest.reverse ++ [{ q with key := .int (i - o) }] := by simpa using hx
        rcases List.mem_append.1 hx with hx | hx
        · exact ht x (by rw [h2]; exact List.mem_append_left _ hx)
        · rw [List.mem_singleton.1 hx]
          have := ht q (by rw [h2]; simp)
          show q.raw = _
          rw [this, hq]
          rfl
      · have hk' : k ∈ (rest.reverse ++ [{ q with key := .int (i - o) }]).map Part.key := by simpa [keys] using hk'
        rw [List.map_append] at hk'
        rcases List.mem_append.1 hk' with hx | hx
        · exact hk k (by unfold keys; rw [h2, List.map_append]; exact List.mem_append_left _ hx)
        · rw [List.mem_singleton.1 hx]; rfl

end PathSt

namespace SPath

/-- Every entry was made by `Path.insert` from an integer or a string. -/
structure Keyed (p : SPath) : Prop where
  tidy : p.Tidy
  isKey : ∀ k ∈ p.keys, k.isKey = true

theorem shift_spec (L : Lib) {p q : SPath} {o : Nat} (h : p.shift o = .ok q) :
    q.keys.length = p.keys.length ∧ (p.Keyed → q.Keyed) ∧ q.text L = p.text L := by
  cases p with
  | dflt cfg st =>
    simp only [shift] at h
    split at h <;> cases h
    rename_i hs
    obtain ⟨h1, h2, h3⟩ := PathSt.shift_spec hs
    exact ⟨h1, fun hk => ⟨h2 hk.tidy, h3 hk.isKey⟩, rfl⟩
  | json s l st =>
    simp only [shift] at h
    split at h <;> cases h
    rename_i hs
    obtain ⟨h1, h2, h3⟩ := PathSt.shift_spec hs
    exact ⟨h1, fun hk => ⟨h2 hk.tidy, h3 hk.isKey⟩, rfl⟩
  | config cfg st =>
    simp only [shift] at h
    split at h <;> cases h
    rename_i hs
    obtain ⟨h1, h2, h3⟩ := PathSt.shift_spec hs
    exact ⟨h1, fun hk => ⟨h2 hk.tidy, h3 hk.isKey⟩, rfl⟩

theorem Keyed.alike {L : Lib} {p q : SPath} (h : p.Keyed) (hk : Keeps p q) :
    KidAlike (child L) Keyed (text L) p q :=
  ⟨hk.keys, ⟨hk.tidy h.tidy, by rw [hk.keys]; exact h.isKey⟩, hk.text L⟩

/-- Default, JSON and config paths are lawful children. -/
def laws (L : Lib) : ChildLaws (child L) where
  WF := Keyed
  text := text L
  render_text h := render_text L h.tidy
  isKey h := h.isKey
  app {p k} h hk := by
    have e : (p.append k).keys = p.keys ++ [k] := keys_append p k
    refine ⟨e, ⟨append_tidy h.tidy k, ?_⟩, append_text L p k⟩
    intro x hx
    have hx : x ∈ (p.append k).keys := hx
    rw [e] at hx
    rcases List.mem_append.1 hx with hx | hx
    · exact h.isKey x hx
    · rw [List.mem_singleton.1 hx]; exact hk
  pop {p ks k} h hk := by
    obtain ⟨q, h1, h2, h3, h4⟩ := pop_keys (p := p) hk
    refine ⟨q, h1, h2, ⟨h3 h.tidy, ?_⟩, h4 L⟩
    intro x hx
    refine h.isKey x ?_
    have hk : p.keys = ks ++ [k] := hk
    rw [h2] at hx
    rw [hk]
    exact List.mem_append_left _ hx
  shift h hs := ⟨(shift_spec L hs).1, (shift_spec L hs).2.1 h, (shift_spec L hs).2.2⟩
  value h := h.alike (withValue_keeps L _ _ _ _)
  exists_ h := h.alike (withValue_keeps L _ _ _ _)
  isNull h := h.alike (withValue_keeps L _ _ _ _)
  mapping h := h.alike (withValue_keeps L _ _ _ _)
  sequence h := h.alike (withValue_keeps L _ _ _ _)
  primitive h := h.alike (withValue_keeps L _ _ _ _)
  joinPath _ h := by cases h
  native := ⟨native_tidy _ _, by intro k hk; cases hk⟩
  native_keys := rfl

end SPath

/-! ## Unions -/

namespace UnionOf
variable {P : Type} {K : Child P} (V : ChildLaws K)

/-- Every child is well formed and has as many keys as the union path. -/
def InStep (n : Nat) (kids : List P) : Prop := ∀ c ∈ kids, V.WF c ∧ (K.keys c).length = n

/-- Invariant of a `UnionPath`. -/
structure WF (p : UnionOf P) : Prop where
  kids : InStep V p.keys.length p.kids
  tidy : p.st.Tidy
  isKey : ∀ k ∈ p.keys, k.isKey = true

variable {V}

theorem InStep.set {n : Nat} {kids : List P} (h : InStep V n kids) {i : Nat} {c : P}
    (hc : V.WF c ∧ (K.keys c).length = n) : InStep V n (kids.set i c) := by
  intro x hx
  rcases List.mem_or_eq_of_mem_set hx with h1 | h1
  · exact h x h1
  · subst h1; exact hc

theorem InStep.get {n : Nat} {kids : List P} (h : InStep V n kids) {i : Nat} {c : P}
    (hc : kids[i]? = some c) : V.WF c ∧ (K.keys c).length = n := h c (List.mem_of_getElem? hc)

theorem InStep.onKid {α : Type} {n : Nat} {kids : List P} (h : InStep V n kids) (i : Nat)
    {f : P → Except Exc α × P} (hf : ∀ {p}, V.WF p → KidAlike K V.WF V.text p (f p).2) :
    InStep V n (onKid kids i f).2 := by
  unfold Pilo.onKid
  split
  · exact h
  · rename_i p hp
    have := hf (h.get hp).1
    exact h.set ⟨this.wf, by rw [this.keys]; exact (h.get hp).2⟩

theorem mappingLoop_inStep (m : Merge) {n : Nat} (cs : List Nat) :
    ∀ (acc : List (Nat × List Val)) (kids : List P), InStep V n kids →
      InStep V n (K.mappingLoop m cs acc kids).2 := by
  induction cs with
  | nil => intro acc kids h; exact h
  | cons i cs ih =>
    intro acc kids h
    have h1 : InStep V n (onKid kids i K.exists_).2 := h.onKid i V.exists_
    unfold Child.mappingLoop
    split
    · rename_i heq; rw [heq] at h1; exact h1
    · rename_i heq; rw [heq] at h1; exact ih _ _ h1
    · rename_i kids' heq; rw [heq] at h1
      have h2 : InStep V n (onKid kids' i K.isNull).2 := InStep.onKid h1 i V.isNull
      split
      · rename_i heq; rw [heq] at h2; exact h2
      · rename_i b kids2 heq; rw [heq] at h2
        have h3 : InStep V n (onKid kids2 i K.mapping).2 := InStep.onKid h2 i V.mapping
        split
        · split
          · exact h2
          · split <;> (rename_i heq; rw [heq] at h3; exact h3)
        · split
          · exact ih _ _ h2
          · split
            · rename_i heq; rw [heq] at h3; exact h3
            · rename_i heq; rw [heq] at h3
              split
              · exact ih _ _ h3
              · split
                · exact ih _ _ h3
                · split
                  · exact ih _ _ h3
                  · exact ih _ _ h3

theorem mkMapping_inStep (cfg : UnionCfg) (m : Option Merge) (cs : List Nat) {n : Nat}
    {kids : List P} (h : InStep V n kids) : InStep V n (K.mkMapping cfg m cs kids).2 := by
  unfold Child.mkMapping
  dsimp only
  split
  · exact h
  · exact mappingLoop_inStep _ _ _ _ h

theorem sequenceLoop_inStep (cfg : UnionCfg) {n : Nat} (cs : List Nat) :
    ∀ (m : Option Merge) (acc : List (Nat × Nat)) (kids : List P), InStep V n kids →
      InStep V n (K.sequenceLoop cfg cs m acc kids).2 := by
  induction cs with
  | nil => intro m acc kids h; exact h
  | cons i cs ih =>
    intro m acc kids h
    have h1 : InStep V n (onKid kids i K.exists_).2 := h.onKid i V.exists_
    unfold Child.sequenceLoop
    split
    · rename_i heq; rw [heq] at h1; exact h1
    · rename_i heq; rw [heq] at h1; exact ih _ _ _ h1
    · rename_i kids' heq; rw [heq] at h1
      have h2 : InStep V n (onKid kids' i K.isNull).2 := InStep.onKid h1 i V.isNull
      split
      · rename_i heq; rw [heq] at h2; exact h2
      · rename_i heq; rw [heq] at h2; exact ih _ _ _ h2
      · rename_i kids2 heq; rw [heq] at h2
        have h3 : InStep V n (onKid kids2 i K.sequence).2 := InStep.onKid h2 i V.sequence
        split
        · rename_i heq; rw [heq] at h3; exact h3
        · rename_i heq; rw [heq] at h3
          split
          · exact ih _ _ _ h3
          · dsimp only
            split
            · exact ih _ _ _ h3
            · exact ih _ _ _ h3
            · exact ih _ _ _ h3
            · exact h3

theorem seqGet_inStep {n : Nat} (ss : List (Nat × Nat)) (k : Val) {kids : List P}
    (h : InStep V n kids) : InStep V n (K.seqGet ss k kids).2 := by
  unfold Child.seqGet
  split
  · exact h
  · split
    · exact h
    · split
      · exact h
      · rename_i p hp
        split
        · rename_i q hq
          obtain ⟨h1, h2, -⟩ := V.shift (h.get hp).1 hq
          exact h.set ⟨h2, by rw [h1]; exact (h.get hp).2⟩
        · exact h

theorem resolveUnion_inStep {n : Nat} (c : UVal) (k : Val) {kids : List P}
    (h : InStep V n kids) : InStep V n (K.resolveUnion c k kids).2 := by
  unfold Child.resolveUnion
  split
  · exact h
  · rename_i ss
    have hg := seqGet_inStep ss k h
    split <;> (rename_i heq; rw [heq] at hg; exact hg)
  · exact h
  · exact h

theorem fill_inStep {n : Nat} (ks : List Val) (ps : List (Part UVal)) :
    ∀ (kids : List P) (v : UVal), InStep V n kids →
      InStep V n (PathSt.fill (fun _ kids c k => K.resolveUnion c k kids) UVal.isNONE ks kids v ps).2.1 := by
  induction ps with
  | nil => intro kids v h; exact h
  | cons p ps ih =>
    intro kids v h
    have h1 := resolveUnion_inStep v p.key h
    unfold PathSt.fill
    split
    · rename_i heq; rw [heq] at h1; exact h1
    · rename_i heq; rw [heq] at h1
      split
      · exact h1
      · exact ih _ _ h1

theorem uvalue_keys (p : UnionOf P) : (p.uvalue K).2.keys = p.keys := PathSt.value_keys ..

theorem uvalue_sig (p : UnionOf P) : (p.uvalue K).2.st.sig = p.st.sig := PathSt.value_sig ..

theorem uvalue_wf {p : UnionOf P} (h : p.WF V) : (p.uvalue K).2.WF V := by
  refine ⟨?_, PathSt.tidy_of_sig (uvalue_sig p) h.tidy, by rw [uvalue_keys]; exact h.isKey⟩
  rw [uvalue_keys]
  have h := h.kids
  unfold uvalue PathSt.value
  split
  · rename_i heq
    split at heq <;> cases heq
    · exact h
    · exact fill_inStep _ _ _ _ h
    · exact fill_inStep _ _ _ _ h

/-- Keys and the invariant are unchanged. -/
def Keeps (V : ChildLaws K) (p q : UnionOf P) : Prop := q.keys = p.keys ∧ q.WF V

theorem uvalue_keeps {p : UnionOf P} (h : p.WF V) : Keeps V p (p.uvalue K).2 := ⟨uvalue_keys p, uvalue_wf h⟩

theorem Keeps.kids {p q : UnionOf P} (h : Keeps V p q) {kids : List P} (hk : InStep V q.keys.length kids) :
    Keeps V p { q with kids := kids } := ⟨h.1, hk, h.2.tidy, h.2.isKey⟩

theorem Keeps.setv {p q : UnionOf P} (h : Keeps V p q) (v : UVal) {kids : List P}
    (hk : InStep V q.keys.length kids) : Keeps V p { q with st := q.st.setValue v, kids := kids } := by
  have hkeys : (q.st.setValue v).keys = q.st.keys := PathSt.setValue_keys ..
  refine ⟨?_, ?_, PathSt.tidy_of_sig (PathSt.setValue_sig ..) h.2.tidy, ?_⟩
  · show (q.st.setValue v).keys = _
    rw [hkeys]; exact h.1
  · show InStep V (q.st.setValue v).keys.length kids
    rw [hkeys]; exact hk
  · show ∀ k ∈ (q.st.setValue v).keys, _
    rw [hkeys]; exact h.2.isKey

theorem value_keeps {p : UnionOf P} (h : p.WF V) : Keeps V p (p.value K).2 := by
  have := uvalue_keeps h
  unfold value
  split <;> (rename_i heq; rw [heq] at this; exact this)

theorem exists_keeps {p : UnionOf P} (h : p.WF V) : Keeps V p (p.exists_ K).2 := by
  have := uvalue_keeps h
  unfold exists_
  split <;> (rename_i heq; rw [heq] at this; exact this)

theorem isNull_keeps {p : UnionOf P} (h : p.WF V) : Keeps V p (p.isNull K).2 := by
  have := uvalue_keeps h
  unfold isNull
  split <;> (rename_i heq; rw [heq] at this; exact this)

theorem mapping_keeps {p : UnionOf P} (h : p.WF V) : Keeps V p (p.mapping K).2 := by
  have hu := uvalue_keeps h
  unfold mapping
  split
  · rename_i heq; rw [heq] at hu; exact hu
  · rename_i cs q heq; rw [heq] at hu
    have hm := mkMapping_inStep q.cfg none cs hu.2.kids
    split
    · rename_i heq; rw [heq] at hm; exact hu.kids hm
    · rename_i heq; rw [heq] at hm; exact hu.setv _ hm
  · rename_i heq; rw [heq] at hu; exact hu
  · rename_i heq; rw [heq] at hu; exact hu

theorem sequence_keeps {p : UnionOf P} (h : p.WF V) : Keeps V p (p.sequence K).2 := by
  have hu := uvalue_keeps h
  unfold sequence
  split
  · rename_i heq; rw [heq] at hu; exact hu
  · rename_i cs q heq; rw [heq] at hu
    have hm := sequenceLoop_inStep q.cfg cs none [] _ hu.2.kids
    split
    · rename_i heq; rw [heq] at hm; exact hu.kids hm
    · rename_i heq; rw [heq] at hm; exact hu.setv _ hm
  · rename_i heq; rw [heq] at hu; exact hu
  · rename_i heq; rw [heq] at hu; exact hu

theorem primitive_keeps (ty : PTy) {p : UnionOf P} (h : p.WF V) : Keeps V p (p.primitive K ty).2 := by
  have hu := uvalue_keeps h
  unfold primitive
  split
  · rename_i heq; rw [heq] at hu; exact hu
  · rename_i cs q heq; rw [heq] at hu
    split
    · exact hu.setv _ hu.2.kids
    · rename_i c _
      have hm : InStep V q.keys.length (onKid q.kids c (K.primitive ty)).2 := InStep.onKid hu.2.kids c V.primitive
      split
      · rename_i heq; rw [heq] at hm; exact hu.kids hm
      · rename_i heq; rw [heq] at hm; exact hu.setv _ hm
  · rename_i heq; rw [heq] at hu; exact hu

theorem app_keys (p : UnionOf P) (k : Val) : (p.app K k).keys = p.keys ++ [k] :=
  PathSt.append_keys ..

theorem app_wf {p : UnionOf P} (h : p.WF V) {k : Val} (hk : k.isKey = true) : (p.app K k).WF V := by
  refine ⟨?_, PathSt.append_tidy h.tidy k, ?_⟩
  · rw [app_keys]
    intro c hc
    simp only [app, List.mem_map] at hc
    obtain ⟨c', hc', rfl⟩ := hc
    obtain ⟨h1, h2, -⟩ := V.app (h.kids c' hc').1 hk
    exact ⟨h2, by rw [h1]; simp [(h.kids c' hc').2]⟩
  · rw [app_keys]
    intro x hx
    rcases List.mem_append.1 hx with hx | hx
    · exact h.isKey x hx
    · rw [List.mem_singleton.1 hx]; exact hk

theorem popAll_ok {n : Nat} (kids : List P) (h : InStep V (n + 1) kids) :
    ∃ kids', popAll K kids = .ok kids' ∧ InStep V n kids' := by
  induction kids with
  | nil => exact ⟨[], rfl, by intro c hc; simp at hc⟩
  | cons c cs ih =>
    obtain ⟨cs', h1, h2⟩ := ih (fun x hx => h x (List.mem_cons_of_mem _ hx))
    obtain ⟨hw, hc⟩ := h c List.mem_cons_self
    have hne : K.keys c ≠ [] := by intro h0; rw [h0] at hc; simp at hc
    obtain ⟨q, hq, hk, hqw, -⟩ := V.pop (p := c) (ks := (K.keys c).dropLast) (k := (K.keys c).getLast hne) hw
      (List.dropLast_concat_getLast hne).symm
    refine ⟨q :: cs', by simp [popAll, hq, h1], ?_⟩
    intro x hx
    rcases List.mem_cons.1 hx with rfl | hx
    · exact ⟨hqw, by rw [hk, List.length_dropLast, hc]; rfl⟩
    · exact h2 x hx

theorem pop_keys {p : UnionOf P} (h : p.WF V) {ks : List Val} {k : Val} (hk : p.keys = ks ++ [k]) :
    ∃ q, p.pop K = .ok q ∧ q.keys = ks ∧ q.WF V := by
  obtain ⟨st', h1, h2, h5⟩ := PathSt.pop_keys (p := p.st) hk
  have hlen : p.keys.length = ks.length + 1 := by rw [hk]; simp
  have hw : InStep V (ks.length + 1) p.kids := by rw [← hlen]; exact h.kids
  obtain ⟨kids', h3, h4⟩ := popAll_ok p.kids hw
  refine ⟨{ p with st := st', kids := kids' }, by simp [pop, h1, h3], h2, ?_, h5 h.tidy, ?_⟩
  · show InStep V st'.keys.length kids'
    rw [h2]; exact h4
  · intro x hx
    have hx : x ∈ st'.keys := hx
    rw [h2] at hx
    exact h.isKey x (by rw [hk]; exact List.mem_append_left _ hx)

theorem shift_wf {p q : UnionOf P} {o : Nat} (h : p.WF V) (hq : p.shift o = .ok q) :
    q.keys.length = p.keys.length ∧ q.WF V := by
  unfold shift at hq
  split at hq
  · rename_i st' hs
    cases hq
    obtain ⟨h1, h2, h3⟩ := PathSt.shift_spec hs
    refine ⟨h1, ?_, h2 h.tidy, h3 h.isKey⟩
    show InStep V st'.keys.length p.kids
    rw [h1]; exact h.kids
  · cases hq

theorem joinPath_wf {p q : UnionOf P} (h : p.WF V) (hq : p.joinPath K = some (.ok q)) : q.WF V := by
  have hu := uvalue_keeps h
  unfold joinPath at hq
  split at hq
  · rename_i cs r heq; rw [heq] at hu
    have hm := mkMapping_inStep r.cfg none cs hu.2.kids
    split at hq
    · simp at hq
    · rename_i ms kids heq2; rw [heq2] at hm
      simp only [Option.some.injEq] at hq
      split at hq
      · simp at hq
      · rename_i hne
        simp only [Except.ok.injEq] at hq
        subst hq
        have hk : (PathSt.setValue { root := UVal.mapping ms, parts := (prefixKeys K cs kids).map Part.ofKey }
            (UVal.join cs)).keys = prefixKeys K cs kids := by
          rw [PathSt.setValue_keys]
          simp [PathSt.keys, Part.ofKey, Function.comp_def]
        have hl : (prefixKeys K cs kids).length = r.keys.length ∧ ∀ k ∈ prefixKeys K cs kids, k.isKey = true := by
          unfold prefixKeys at hne ⊢
          split
          · simp at hne
          · split
            · rename_i hp; exact ⟨(hm.get hp).2, V.isKey (hm.get hp).1⟩
            · rename_i hp; simp [hp] at hne
        refine ⟨?_, ?_, ?_⟩
        · show InStep V (PathSt.setValue _ _).keys.length kids
          rw [hk, hl.1]; exact hm
        · apply PathSt.tidy_of_sig (PathSt.setValue_sig ..)
          intro x hx
          simp only [List.mem_map] at hx
          obtain ⟨y, _, rfl⟩ := hx
          rfl
        · show ∀ k ∈ (PathSt.setValue _ _).keys, _
          rw [hk]; exact hl.2
  · simp at hq

theorem make_wf {cfg : UnionCfg} {kids : List P} {q : UnionOf P}
    (h : InStep V 0 kids) (hq : make K cfg kids = .ok q) : q.WF V ∧ q.keys = [] := by
  unfold make at hq
  split at hq
  · simp at hq
  · have hm := mkMapping_inStep cfg (some .combine) (List.range kids.length) h
    split at hq
    · simp at hq
    · rename_i heq; rw [heq] at hm
      simp only [Except.ok.injEq] at hq
      subst hq
      exact ⟨⟨hm, (by intro x hx; cases hx), (by intro x hx; cases hx)⟩, rfl⟩

end UnionOf

/-! ## Mounts -/

namespace MountOf
variable {P : Type} {K : Child P} (V : ChildLaws K)

/-- Every sub path is well formed and only the selected one has keys. -/
structure WF (p : MountOf P) : Prop where
  sub : ∀ k, V.WF (p.sub k)
  idle : ∀ k, (∀ m, p.part = some m → p.find k ≠ p.find m) → K.keys (p.sub k) = []
  part : ∀ m, p.part = some m → m.isKey = true

variable {V}

theorem find_setSub (p : MountOf P) (k : Val) (q : P) (j : Val) : (p.setSub k q).find j = p.find j := by
  unfold setSub
  split
  · rename_i i _
    unfold find
    simp only [List.findIdx?_eq_guard_findIdx_lt]
    have : ∀ (xs : List (String × P)) (i : Nat),
        List.findIdx (fun q => j.pyEq (.str q.1)) (xs.modify i fun r => (r.1, q))
          = List.findIdx (fun q => j.pyEq (.str q.1)) xs := by
      intro xs
      induction xs with
      | nil => intro i; simp
      | cons x xs ih =>
        intro i
        cases i with
        | zero => simp [List.findIdx_cons]
        | succ i => simp [List.findIdx_cons, ih i]
    simp [this]
  · rfl

theorem part_setSub (p : MountOf P) (k : Val) (q : P) : (p.setSub k q).part = p.part := by
  unfold setSub; split <;> rfl

theorem sub_eq_of_find {p : MountOf P} {j k : Val} (h : p.find j = p.find k) : p.sub j = p.sub k := by
  unfold sub; rw [h]

theorem sub_setSub_self (p : MountOf P) (k : Val) (q : P) : (p.setSub k q).sub k = q := by
  have hf := find_setSub p k q k
  unfold sub
  rw [hf]
  unfold setSub
  cases h : p.find k with
  | none => rfl
  | some i =>
    have hi : i < p.paths.length := by
      unfold find at h
      exact (List.findIdx?_eq_some_iff_getElem.1 h).1
    simp [hi]

theorem sub_setSub_other (p : MountOf P) (k : Val) (q : P) (j : Val) (h : p.find j ≠ p.find k) :
    (p.setSub k q).sub j = p.sub j := by
  unfold sub
  rw [find_setSub]
  unfold setSub
  cases hk : p.find k with
  | none =>
    cases hj : p.find j with
    | none => exact absurd (hj.trans hk.symm) h
    | some i =>
      have hi : i < p.paths.length := by
        unfold find at hj
        exact (List.findIdx?_eq_some_iff_getElem.1 hj).1
      simp [hi]
  | some i =>
    cases hj : p.find j with
    | none => rfl
    | some i' =>
      have : i ≠ i' := by
        intro he; apply h; rw [hj, hk, he]
      simp [this]

theorem setSub_wf {p : MountOf P} (h : p.WF V) {m : Val} (hm : p.part = some m) {q : P} (hq : V.WF q) :
    (p.setSub m q).WF V := by
  constructor
  · intro k
    by_cases hk : p.find k = p.find m
    · rw [sub_eq_of_find (p := p.setSub m q) (j := k) (k := m)
        (by rw [find_setSub, find_setSub]; exact hk), sub_setSub_self]
      exact hq
    · rw [sub_setSub_other _ _ _ _ hk]; exact h.sub k
  · intro k hk
    have := hk m (by rw [part_setSub]; exact hm)
    rw [find_setSub, find_setSub] at this
    rw [sub_setSub_other _ _ _ _ this]
    apply h.idle
    intro m' hm'
    rw [hm] at hm'
    cases hm'
    exact this
  · intro m' hm'
    rw [part_setSub] at hm'
    exact h.part m' hm'

/-- The text of a path of the same source with given keys. -/
def text (V : ChildLaws K) (L : Lib) (p : MountOf P) : List Val → Except Exc String
  | [] => .ok ""
  | k :: rest =>
    let ks := match k with | .str s => s | k => L.fmt k
    if rest.isEmpty then .ok ("@" ++ ks)
    else match V.text (p.sub k) rest with
      | .ok s => .ok ("@" ++ ks ++ ":" ++ s)
      | .error e => .error e

theorem render_text (L : Lib) {p : MountOf P} (h : p.WF V) : p.render K L = p.text V L (p.keys K) := by
  unfold render keys
  cases hp : p.part with
  | none => rfl
  | some k => simp only [text, V.render_text (h.sub k)]; rfl

theorem setSub_text (L : Lib) (p : MountOf P) (m : Val) {q : P}
    (h : V.text q = V.text (p.sub m)) : (p.setSub m q).text V L = p.text V L := by
  have hs : ∀ k, V.text ((p.setSub m q).sub k) = V.text (p.sub k) := by
    intro k
    by_cases hk : p.find k = p.find m
    · rw [sub_eq_of_find (p := p.setSub m q) (j := k) (k := m)
        (by rw [find_setSub, find_setSub]; exact hk), sub_setSub_self, h, sub_eq_of_find hk]
    · rw [sub_setSub_other _ _ _ _ hk]
  funext ks
  cases ks with
  | nil => rfl
  | cons k rest => simp only [text, hs]

/-- Keys, text and invariant are unchanged. -/
structure Keeps (V : ChildLaws K) (p q : MountOf P) : Prop where
  keys : q.keys K = p.keys K
  wf : q.WF V
  text : ∀ L, q.text V L = p.text V L

theorem Keeps.refl {p : MountOf P} (h : p.WF V) : Keeps V p p := ⟨rfl, h, fun _ => rfl⟩

theorem onSub_keeps {α : Type} {p : MountOf P} (h : p.WF V) {m : Val} (hm : p.part = some m)
    {f : P → Except Exc α × P} (hf : ∀ {q}, V.WF q → KidAlike K V.WF V.text q (f q).2) :
    Keeps V p (p.onSub m f).2 := by
  have hk := hf (h.sub m)
  refine ⟨?_, setSub_wf h hm hk.wf, fun L => setSub_text L p m hk.text⟩
  show (p.setSub m (f (p.sub m)).2).keys K = _
  unfold MountOf.keys
  rw [part_setSub, hm]
  simp only [sub_setSub_self, hk.keys]

theorem value_keeps {p : MountOf P} (h : p.WF V) : Keeps V p (p.value K).2 := by
  unfold value
  split
  · exact .refl h
  · rename_i m hm; exact onSub_keeps h hm V.value

theorem exists_keeps {p : MountOf P} (h : p.WF V) : Keeps V p (p.exists_ K).2 := by
  unfold exists_
  split
  · exact .refl h
  · rename_i m hm
    have := onSub_keeps h hm V.value
    split <;> (rename_i heq; rw [heq] at this; exact this)

theorem isNull_keeps {p : MountOf P} (h : p.WF V) : Keeps V p (p.isNull K).2 := by
  unfold isNull
  split
  · exact .refl h
  · rename_i m hm
    have := onSub_keeps h hm V.value
    split <;> (rename_i heq; rw [heq] at this; exact this)

theorem mapping_keeps {p : MountOf P} (h : p.WF V) : Keeps V p (p.mapping K).2 := by
  unfold mapping
  split
  · exact .refl h
  · rename_i m hm; exact onSub_keeps h hm V.mapping

theorem sequence_keeps {p : MountOf P} (h : p.WF V) : Keeps V p (p.sequence K).2 := by
  unfold sequence
  split
  · exact .refl h
  · rename_i m hm
    split
    · exact .refl h
    · exact onSub_keeps h hm V.sequence

theorem primitive_keeps (ty : PTy) {p : MountOf P} (h : p.WF V) : Keeps V p (p.primitive K ty).2 := by
  unfold primitive
  split
  · exact .refl h
  · rename_i m hm
    split
    · exact .refl h
    · exact onSub_keeps h hm V.primitive

theorem keys_isKey {p : MountOf P} (h : p.WF V) : ∀ k ∈ p.keys K, k.isKey = true := by
  intro k hk
  unfold keys at hk
  split at hk
  · cases hk
  · rename_i m hm
    rcases List.mem_cons.1 hk with rfl | hk
    · exact h.part _ hm
    · exact V.isKey (h.sub m) k hk

theorem app_keys {p : MountOf P} (h : p.WF V) {k : Val} (hok : k.isKey = true) :
    (p.app K k).keys K = p.keys K ++ [k] ∧ (p.app K k).WF V ∧ ∀ L, (p.app K k).text V L = p.text V L := by
  unfold app
  split
  · rename_i hp
    have hidle : ∀ j, K.keys (p.sub j) = [] := fun j => h.idle j (by intro m hm; rw [hp] at hm; simp at hm)
    refine ⟨?_, ⟨?_, ?_, ?_⟩, ?_⟩
    · show k :: K.keys (p.sub k) = p.keys K ++ [k]
      rw [hidle]; simp [keys, hp]
    · exact h.sub
    · intro j _; exact hidle j
    · intro m hm; cases hm; exact hok
    · intro L; funext ks; cases ks <;> rfl
  · rename_i m hm
    have := V.app (h.sub m) hok
    refine ⟨?_, setSub_wf h hm this.2.1, fun L => setSub_text L p m this.2.2⟩
    unfold keys
    rw [part_setSub, hm]
    simp only [sub_setSub_self, this.1]
    rfl

theorem pop_keys {p : MountOf P} (h : p.WF V) {ks : List Val} {k : Val} (hk : p.keys K = ks ++ [k]) :
    ∃ q, p.pop K = .ok q ∧ q.keys K = ks ∧ q.WF V ∧ ∀ L, q.text V L = p.text V L := by
  unfold pop
  split
  · rename_i hp; simp [keys, hp] at hk
  · rename_i m hm
    split
    · rename_i he
      have he' : K.keys (p.sub m) = [] := by simpa using he
      refine ⟨_, rfl, ?_, ⟨?_, ?_, by intro m' hm'; cases hm'⟩, by intro L; funext ks; cases ks <;> rfl⟩
      · simp only [keys, hm, he'] at hk
        cases ks with
        | nil => rfl
        | cons a as => simp at hk
      · exact h.sub
      · intro j _
        show K.keys (p.sub j) = []
        by_cases hj : p.find j = p.find m
        · rw [sub_eq_of_find hj]; exact he'
        · exact h.idle j (by intro m' hm'; rw [hm] at hm'; cases hm'; exact hj)
    · rename_i he
      have he' : K.keys (p.sub m) ≠ [] := by simpa using he
      simp only [keys, hm] at hk
      cases ks with
      | nil => simp at hk; exact absurd hk.2 he'
      | cons a as =>
        simp only [List.cons_append, List.cons.injEq] at hk
        obtain ⟨q, h1, h2, h3, h4⟩ := V.pop (h.sub m) hk.2
        refine ⟨p.setSub m q, by rw [h1], ?_, setSub_wf h hm h3, fun L => setSub_text L p m h4⟩
        unfold keys
        rw [part_setSub, hm]
        simp only [sub_setSub_self, h2, hk.1]

theorem find_int (p : MountOf P) {m : Val} (h : m.isIntLike = true) : p.find m = none := by
  unfold find
  rw [List.findIdx?_eq_none_iff]
  intro x _
  cases m <;> first | rfl | cases h

theorem shift_wf {p q : MountOf P} {o : Nat} (h : p.WF V) (hq : p.shift K o = .ok q) :
    (q.keys K).length = (p.keys K).length ∧ q.WF V ∧ ∀ L, q.text V L = p.text V L := by
  unfold shift at hq
  split at hq
  · cases hq
  · rename_i m hm
    split at hq
    · rename_i he
      split at hq
      · rename_i i hi
        cases hq
        have hint : m.isIntLike = true := by cases m <;> simp [Val.index?, Val.isIntLike] at hi ⊢
        have hf : p.find (.int (i - o)) = p.find m := by rw [find_int p hint, find_int p rfl]
        have hs : p.sub (.int (i - o)) = p.sub m := sub_eq_of_find hf
        refine ⟨?_, ⟨h.sub, ?_, ?_⟩, by intro L; funext ks; cases ks <;> rfl⟩
        · show (_ :: K.keys (p.sub (.int (i - o)))).length = _
          unfold keys
          rw [hm, hs]
          rfl
        · intro k hk
          refine h.idle k ?_
          intro m' hm'
          rw [hm] at hm'
          cases hm'
          have := hk _ rfl
          intro he
          exact this (he.trans hf.symm)
        · intro m' hm'
          cases hm'
          rfl
      · cases hq
    · split at hq
      · rename_i r hr
        cases hq
        obtain ⟨h1, h2, h3⟩ := V.shift (h.sub m) hr
        refine ⟨?_, setSub_wf h hm h2, fun L => setSub_text L p m h3⟩
        unfold keys
        rw [part_setSub, hm]
        simp only [sub_setSub_self, List.length_cons, h1]
      · cases hq

theorem make_wf {L : Lib} {paths : List (String × P)} {q : MountOf P}
    (h : ∀ x ∈ paths, V.WF x.2 ∧ K.keys x.2 = []) (hq : make K L paths = .ok q) : q.WF V ∧ q.keys K = [] := by
  unfold make at hq
  split at hq
  · cases hq
  · cases hq
    refine ⟨⟨fun k => ?_, fun k _ => ?_, by intro m hm; cases hm⟩, rfl⟩
    · unfold sub
      split
      · split
        · rename_i hx; exact (h _ (List.mem_of_getElem? hx)).1
        · exact V.native
      · exact V.native
    · unfold sub
      split
      · split
        · rename_i hx; exact (h _ (List.mem_of_getElem? hx)).2
        · exact V.native_keys
      · exact V.native_keys

end MountOf

/-! ## One more level -/

namespace Over
variable {P : Type} {L : Lib} {K : Child P} (V : ChildLaws K)

def WF : Over P → Prop
  | .leaf p => V.WF p
  | .union p => p.WF V
  | .mount p => p.WF V

/-- The text of a path of the same source with given keys; a `UnionPath` has no location. -/
def text (L : Lib) : Over P → List Val → Except Exc String
  | .leaf p => V.text p
  | .union _ => PathSt.keysText L
  | .mount p => p.text V L

variable {V}

theorem read_alike {α : Type} {p : Over P} {fl : P → Except Exc α × P} {fu : UnionOf P → Except Exc α × UnionOf P}
    {fm : MountOf P → Except Exc α × MountOf P} (h : p.WF V)
    (hl : ∀ {p}, V.WF p → KidAlike K V.WF V.text p (fl p).2)
    (hu : ∀ {p : UnionOf P}, p.WF V → UnionOf.Keeps V p (fu p).2)
    (hm : ∀ {p : MountOf P}, p.WF V → MountOf.Keeps V p (fm p).2) :
    KidAlike (child L K) (WF V) (text V L) p (p.read fl fu fm).2 := by
  cases p with
  | leaf p => exact ⟨(hl h).keys, (hl h).wf, (hl h).text⟩
  | union p => exact ⟨(hu h).1, (hu h).2, rfl⟩
  | mount p => exact ⟨(hm h).keys, (hm h).wf, (hm h).text L⟩

/-- Paths, unions of paths and mounts of paths are lawful children. -/
def laws (L : Lib) (V : ChildLaws K) : ChildLaws (child L K) where
  WF := WF V
  text := text V L
  render_text {p} h := by
    cases p with
    | leaf p => exact V.render_text h
    | union p => exact PathSt.render_text L h.tidy
    | mount p => exact MountOf.render_text L h
  isKey {p} h := by
    cases p with
    | leaf p => exact V.isKey h
    | union p => exact h.isKey
    | mount p => exact MountOf.keys_isKey h
  app {p k} h hk := by
    cases p with
    | leaf p => exact V.app h hk
    | union p => exact ⟨UnionOf.app_keys p k, UnionOf.app_wf h hk, rfl⟩
    | mount p =>
      obtain ⟨h1, h2, h3⟩ := MountOf.app_keys h hk
      exact ⟨h1, h2, h3 L⟩
  pop {p ks k} h hk := by
    cases p with
    | leaf p =>
      obtain ⟨q, h1, h2, h3, h4⟩ := V.pop (p := p) h hk
      exact ⟨.leaf q, by simp [child, change, h1], h2, h3, h4⟩
    | union p =>
      obtain ⟨q, h1, h2, h3⟩ := UnionOf.pop_keys (p := p) (V := V) h (ks := ks) (k := k) hk
      exact ⟨.union q, by simp [child, change, h1], h2, h3, rfl⟩
    | mount p =>
      obtain ⟨q, h1, h2, h3, h4⟩ := MountOf.pop_keys (p := p) (V := V) h (ks := ks) (k := k) hk
      exact ⟨.mount q, by simp [child, change, h1], h2, h3, h4 L⟩
  shift {p o q} h hq := by
    cases p with
    | leaf p =>
      simp only [child, change] at hq
      split at hq <;> cases hq
      rename_i hs
      exact V.shift (p := p) h hs
    | union p =>
      simp only [child, change] at hq
      split at hq <;> cases hq
      rename_i hs
      exact ⟨(UnionOf.shift_wf h hs).1, (UnionOf.shift_wf h hs).2, rfl⟩
    | mount p =>
      simp only [child, change] at hq
      split at hq <;> cases hq
      rename_i hs
      obtain ⟨h1, h2, h3⟩ := MountOf.shift_wf h hs
      exact ⟨h1, h2, h3 L⟩
  value h := read_alike h V.value UnionOf.value_keeps MountOf.value_keeps
  exists_ h := read_alike h V.exists_ UnionOf.exists_keeps MountOf.exists_keeps
  isNull h := read_alike h V.isNull UnionOf.isNull_keeps MountOf.isNull_keeps
  mapping h := read_alike h V.mapping UnionOf.mapping_keeps MountOf.mapping_keeps
  sequence h := read_alike h V.sequence UnionOf.sequence_keeps MountOf.sequence_keeps
  primitive h := read_alike h V.primitive (UnionOf.primitive_keeps _) (MountOf.primitive_keeps _)
  joinPath {p q} h hq := by
    cases p with
    | leaf p =>
      simp only [child] at hq
      split at hq <;> cases hq
      rename_i hs
      exact V.joinPath (p := p) h hs
    | union p =>
      simp only [child] at hq
      split at hq <;> cases hq
      rename_i hs
      exact UnionOf.joinPath_wf h hs
    | mount p =>
      simp only [child] at hq
      split at hq <;> cases hq
      rename_i hs
      unfold MountOf.joinPath at hs
      split at hs
      · cases hs
      · rename_i m _
        exact V.joinPath (h.sub m) hs
  native := V.native
  native_keys := V.native_keys

end Over

namespace Nest

/-- The laws at every level. -/
def laws (L : Lib) : (n : Nat) → ChildLaws (child L n)
  | 0 => SPath.laws L
  | n + 1 => Over.laws L (laws L n)

theorem same {L : Lib} {n : Nat} {p q : Nest n} (h : KidAlike (child L n) (laws L n).WF (laws L n).text p q) :
    Same (ops L n) (laws L n).WF (laws L n).text p q := ⟨h.keys, h.wf, h.text⟩

/-- The paths of sources nested to any depth are lawful. -/
def lawful (L : Lib) (n : Nat) : LawfulPath (ops L n) where
  WF := (laws L n).WF
  Shape := List Val → Except Exc String
  shape := (laws L n).text
  text := id
  render_text h := (laws L n).render_text h
  append_shape {p k q} h hq := by
    simp only [ops] at hq
    split at hq
    · rename_i hk
      cases hq
      exact ((laws L n).app h hk).2.2
    · cases hq
  append_back {p p' ks k} h _ hk _ _ := by
    have : k.isKey = true := (laws L n).isKey h k (by
      have hk : (child L n).keys p = ks ++ [k] := hk
      rw [hk]; simp)
    exact ⟨(child L n).app p' k, by simp only [ops, this, if_true]⟩
  append_keys {p k q} h hq := by
    simp only [ops] at hq
    split at hq
    · rename_i hk
      cases hq
      exact ⟨((laws L n).app h hk).1, ((laws L n).app h hk).2.1⟩
    · cases hq
  pop_keys h hk := (laws L n).pop h hk
  value_keys h := same ((laws L n).value h)
  exists_keys h := same ((laws L n).exists_ h)
  isNull_keys h := same ((laws L n).isNull h)
  mapping_keys {p} h := by
    have := (laws L n).mapping h
    have e : ((ops L n).mapping p).2 = ((child L n).mapping p).2 := by
      simp only [ops]
      split <;> rename_i heq <;> rw [heq]
    rw [e]
    exact same this
  sequence_keys h := same ((laws L n).sequence h)
  primitive_keys h := same ((laws L n).primitive h)
  joinPath_wf h hq := (laws L n).joinPath h hq
  native_wf := (laws L n).native
  native_keys := (laws L n).native_keys

end Nest
end Pilo
