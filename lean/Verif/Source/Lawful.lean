import Verif.Source.Mount

/-!
# Every built-in path is lawful

`append`/`pop` act on the key sequence as on a list, and reading never changes the key sequence.
-/

namespace Pilo

namespace PathSt
variable {C σ : Type}

/-- Keys with the mark for entries that are not `PathPart`s. -/
def sig (p : PathSt C) : List (Val × Bool) := p.parts.map fun q => (q.key, q.raw)

/-- Every entry was made by `Path.insert`. -/
def Tidy (p : PathSt C) : Prop := ∀ q ∈ p.parts, q.raw = !(q.key.isIntLike || q.key.isStr)

theorem keys_of_sig {p q : PathSt C} (h : q.sig = p.sig) : q.keys = p.keys := by
  have := congrArg (List.map Prod.fst) h
  simpa [sig, keys, Function.comp_def] using this

theorem tidy_of_sig {p q : PathSt C} (h : q.sig = p.sig) (ht : p.Tidy) : q.Tidy := by
  intro x hx
  have h1 : (x.key, x.raw) ∈ q.sig := List.mem_map.2 ⟨x, hx, rfl⟩
  rw [h] at h1
  obtain ⟨y, hy, he⟩ := List.mem_map.1 h1
  have := ht y hy
  simp only [Prod.mk.injEq] at he
  rw [← he.1, ← he.2]; exact this

theorem renderTail_text (L : Lib) (ps : List (Part C))
    (h : ∀ q ∈ ps, q.raw = !(q.key.isIntLike || q.key.isStr)) :
    renderTail L ps = keysTailText L (ps.map Part.key) := by
  induction ps with
  | nil => rfl
  | cons p ps ih =>
    have hp : renderPart L p = keyText L p.key := by
      unfold renderPart keyText
      rw [h p List.mem_cons_self]
    simp only [renderTail, keysTailText, List.map_cons, hp,
      ih fun q hq => h q (List.mem_cons_of_mem _ hq)]

theorem render_text (L : Lib) {p : PathSt C} (h : p.Tidy) : p.render L = keysText L p.keys := by
  unfold render keysText keys
  cases hp : p.parts with
  | nil => rfl
  | cons q qs =>
    simp only [List.map_cons]
    rw [renderTail_text L qs fun x hx => h x (by rw [hp]; exact List.mem_cons_of_mem _ hx)]

theorem fill_sig (resolve : List Val → σ → C → Val → Except Exc C × σ) (isN : C → Bool)
    (ks : List Val) (ps : List (Part C)) : ∀ (s : σ) (v : C),
    ((fill resolve isN ks s v ps).2.2).map (fun q => (q.key, q.raw))
      = ps.map fun q => (q.key, q.raw) := by
  induction ps with
  | nil => intro s v; rfl
  | cons p ps ih =>
    intro s v
    unfold fill
    split
    · rfl
    · rename_i w s' _
      split
      · rfl
      · simp [ih s' w]

theorem value_sig (resolve : List Val → σ → C → Val → Except Exc C × σ) (isN : C → Bool)
    (s : σ) (p : PathSt C) : (value resolve isN s p).2.2.sig = p.sig := by
  unfold value
  split
  · rfl
  · simp only [sig]; exact fill_sig ..
  · rename_i i v _
    simp only [sig, List.map_append]
    rw [fill_sig, ← List.map_append, List.take_append_drop]

theorem value_keys (resolve : List Val → σ → C → Val → Except Exc C × σ) (isN : C → Bool)
    (s : σ) (p : PathSt C) : (value resolve isN s p).2.2.keys = p.keys :=
  keys_of_sig (value_sig ..)

theorem setValue_sig (p : PathSt C) (v : C) : (p.setValue v).sig = p.sig := by
  unfold setValue
  cases h : p.parts.reverse with
  | nil => rfl
  | cons q rest =>
    have h2 : p.parts = (q :: rest).reverse := by rw [← h, List.reverse_reverse]
    simp [sig, h2]

theorem setValue_keys (p : PathSt C) (v : C) : (p.setValue v).keys = p.keys :=
  keys_of_sig (setValue_sig ..)

theorem append_keys (p : PathSt C) (k : Val) : (p.append k).keys = p.keys ++ [k] := by
  simp [append, keys, Part.ofKey]

theorem append_tidy {p : PathSt C} (h : p.Tidy) (k : Val) : (p.append k).Tidy := by
  intro q hq
  simp only [append, List.mem_append, List.mem_singleton] at hq
  rcases hq with hq | rfl
  · exact h q hq
  · rfl

theorem pop_keys {p : PathSt C} {ks : List Val} {k : Val} (h : p.keys = ks ++ [k]) :
    ∃ q, p.pop = .ok q ∧ q.keys = ks ∧ (p.Tidy → q.Tidy) := by
  unfold pop
  cases hr : p.parts.reverse with
  | nil =>
    have : p.parts = [] := by simpa using hr
    simp [keys, this] at h
  | cons q rest =>
    have h2 : p.parts = rest.reverse ++ [q] := by
      rw [← List.reverse_reverse p.parts, hr]; simp
    refine ⟨_, rfl, ?_, ?_⟩
    · rw [keys, h2] at h
      simp only [List.map_append, List.map_cons, List.map_nil] at h
      have := List.append_inj_left' h rfl
      simpa [keys] using this
    · intro ht x hx
      exact ht x (by rw [h2]; exact List.mem_append_left _ hx)

end PathSt

/-! ## Non-composite paths -/

namespace SPath

theorem keys_append (p : SPath) (k : Val) : (p.append k).keys = p.keys ++ [k] := by
  cases p <;> simp [append, keys, PathSt.append_keys]

def Tidy : SPath → Prop
  | .dflt _ st => st.Tidy
  | .json _ _ st => st.Tidy
  | .config _ st => st.Tidy

/-- The text of a path of the same source with given keys. -/
def text (L : Lib) : SPath → List Val → Except Exc String
  | .dflt cfg _, ks => withLocation cfg.location (PathSt.keysText L ks)
  | .json _ loc _, ks => withLocation loc (PathSt.keysText L ks)
  | .config cfg _, ks =>
    let r := PathSt.keysText L ks
    let r' := match cfg.sectionName with
      | some s => if s = "" then r else withLocation (some ("[" ++ s ++ "]")) r
      | none => r
    withLocation cfg.location r'

theorem render_text (L : Lib) {p : SPath} (h : p.Tidy) : p.render L = p.text L p.keys := by
  cases p <;> simp only [render, text, keys] <;> rw [PathSt.render_text L h] <;> rfl

/-- Only caches differ. -/
structure Keeps (p q : SPath) : Prop where
  keys : q.keys = p.keys
  tidy : p.Tidy → q.Tidy
  text : ∀ L, q.text L = p.text L

theorem append_tidy {p : SPath} (h : p.Tidy) (k : Val) : (p.append k).Tidy := by
  cases p <;> exact PathSt.append_tidy h k

theorem append_text (L : Lib) (p : SPath) (k : Val) : (p.append k).text L = p.text L := by
  cases p <;> rfl

theorem pop_keys {p : SPath} {ks : List Val} {k : Val} (h : p.keys = ks ++ [k]) :
    ∃ q, p.pop = .ok q ∧ q.keys = ks ∧ (p.Tidy → q.Tidy) ∧ ∀ L, q.text L = p.text L := by
  cases p with
  | dflt cfg st =>
    obtain ⟨q, hq, hk, ht⟩ := PathSt.pop_keys (p := st) h
    exact ⟨.dflt cfg q, by simp [pop, hq], hk, ht, fun _ => rfl⟩
  | json s l st =>
    obtain ⟨q, hq, hk, ht⟩ := PathSt.pop_keys (p := st) h
    exact ⟨.json s l q, by simp [pop, hq], hk, ht, fun _ => rfl⟩
  | config cfg st =>
    obtain ⟨q, hq, hk, ht⟩ := PathSt.pop_keys (p := st) h
    exact ⟨.config cfg q, by simp [pop, hq], hk, ht, fun _ => rfl⟩

theorem withValue_keeps {α : Type} (L : Lib) (p : SPath)
    (a : DefaultCfg → List Val → Val → Except Exc α) (b : Bool → Val → Except Exc α)
    (c : ConfigCfg → List Val → CfgVal → Except Exc α) :
    Keeps p (p.withValue L a b c).2 := by
  cases p with
  | dflt cfg st =>
    have h : (valueDflt L cfg st).2.sig = st.sig := PathSt.value_sig ..
    unfold withValue
    simp only
    split <;> rename_i heq <;> simp only [heq] at h <;>
      exact ⟨PathSt.keys_of_sig h, PathSt.tidy_of_sig h, fun _ => rfl⟩
  | json s l st =>
    have h : (valueJson st).2.sig = st.sig := PathSt.value_sig ..
    unfold withValue
    simp only
    split <;> rename_i heq <;> simp only [heq] at h <;>
      exact ⟨PathSt.keys_of_sig h, PathSt.tidy_of_sig h, fun _ => rfl⟩
  | config cfg st =>
    have h : (valueCfg L cfg st).2.sig = st.sig := PathSt.value_sig ..
    unfold withValue
    simp only
    split <;> rename_i heq <;> simp only [heq] at h <;>
      exact ⟨PathSt.keys_of_sig h, PathSt.tidy_of_sig h, fun _ => rfl⟩

theorem withValue_keys {α : Type} (L : Lib) (p : SPath)
    (a : DefaultCfg → List Val → Val → Except Exc α) (b : Bool → Val → Except Exc α)
    (c : ConfigCfg → List Val → CfgVal → Except Exc α) :
    (p.withValue L a b c).2.keys = p.keys := (withValue_keeps L p a b c).keys

theorem someKeys_snd (r : Except Exc KeysView × SPath) : (someKeys r).2 = r.2 := by
  obtain ⟨r, p⟩ := r
  cases r <;> rfl

theorem Keeps.same {L : Lib} {p q : SPath} (h : Keeps p q) (hp : p.Tidy) :
    Same (ops L) Tidy (SPath.text L) p q := ⟨h.keys, h.tidy hp, h.text L⟩

theorem native_tidy (v : Val) (al : Option (List (Val × Val))) : (native v al).Tidy := by
  intro q hq; cases hq

/-- The default, JSON and config paths are lawful. -/
def lawful (L : Lib) : LawfulPath (ops L) where
  WF := Tidy
  Shape := List Val → Except Exc String
  shape := text L
  text := id
  render_text := fun h => render_text L h
  append_shape := by
    intro p k q _ h
    simp only [ops, Except.ok.injEq] at h
    subst h
    exact append_text L p k
  append_back := fun {_ p' _ k} _ _ _ _ _ => ⟨p'.append k, rfl⟩
  append_keys := by
    intro p k q hp h
    simp only [ops, Except.ok.injEq] at h
    subst h
    exact ⟨keys_append p k, append_tidy hp k⟩
  pop_keys := by
    intro p ks k hp h
    obtain ⟨q, h1, h2, h3, h4⟩ := pop_keys h
    exact ⟨q, h1, h2, h3 hp, h4 L⟩
  value_keys := fun {p} h => (withValue_keeps L p _ _ _).same h
  exists_keys := fun {p} h => (withValue_keeps L p _ _ _).same h
  isNull_keys := fun {p} h => (withValue_keeps L p _ _ _).same h
  mapping_keys := fun {p} h => by
    show Same (ops L) Tidy (text L) p (someKeys _).2
    rw [someKeys_snd]
    exact (withValue_keeps L p _ _ _).same h
  sequence_keys := fun {p} h => (withValue_keeps L p _ _ _).same h
  primitive_keys := fun {p _} h => (withValue_keeps L p _ _ _).same h
  joinPath_wf := fun _ h => by cases h
  native_wf := native_tidy _ _
  native_keys := rfl

end SPath

/-! ## Union paths -/

theorem shiftLast_length {C : Type} (st : PathSt C) (o : Nat) :
    (shiftLast st o).keys.length = st.keys.length := by
  unfold shiftLast
  cases hr : st.parts.reverse with
  | nil => rfl
  | cons q rest =>
    have h2 : st.parts = (q :: rest).reverse := by rw [← hr, List.reverse_reverse]
    simp only
    split
    · simp [PathSt.keys, h2]
    · rfl

theorem SPath.shiftLast_length (p : SPath) (o : Nat) : (p.shiftLast o).keys.length = p.keys.length := by
  cases p <;> simp [SPath.shiftLast, SPath.keys, Pilo.shiftLast_length]

namespace UPath

/-- Every child has as many keys as the union path (`union.py:45-64` keep them in step). -/
def InStep (n : Nat) (kids : List SPath) : Prop := ∀ c ∈ kids, c.keys.length = n

/-- Invariant of a `UnionPath`. -/
structure WF (p : UPath) : Prop where
  kids : InStep p.keys.length p.kids
  tidy : p.st.Tidy

theorem InStep.set {n : Nat} {kids : List SPath} (h : InStep n kids) {i : Nat} {c : SPath}
    (hc : c.keys.length = n) : InStep n (kids.set i c) := by
  intro x hx
  rcases List.mem_or_eq_of_mem_set hx with h1 | h1
  · exact h x h1
  · subst h1; exact hc

theorem InStep.get {n : Nat} {kids : List SPath} (h : InStep n kids) {i : Nat} {c : SPath}
    (hc : kids[i]? = some c) : c.keys.length = n := h c (List.mem_of_getElem? hc)

theorem InStep.onChild {α : Type} {n : Nat} {kids : List SPath} (h : InStep n kids) (i : Nat)
    {f : SPath → Except Exc α × SPath} (hf : ∀ p, (f p).2.keys = p.keys) :
    InStep n (onChild kids i f).2 := by
  unfold Pilo.onChild
  split
  · exact h
  · rename_i p hp
    exact h.set (by rw [hf]; exact h.get hp)

theorem exists_k (L : Lib) (p : SPath) : (SPath.exists_ L p).2.keys = p.keys :=
  SPath.withValue_keys L p _ _ _
theorem isNull_k (L : Lib) (p : SPath) : (SPath.isNull L p).2.keys = p.keys :=
  SPath.withValue_keys L p _ _ _
theorem mapping_k (L : Lib) (p : SPath) : (SPath.mapping L p).2.keys = p.keys :=
  SPath.withValue_keys L p _ _ _
theorem sequence_k (L : Lib) (p : SPath) : (SPath.sequence L p).2.keys = p.keys :=
  SPath.withValue_keys L p _ _ _
theorem primitive_k (L : Lib) (ty : PTy) (p : SPath) : (SPath.primitive L ty p).2.keys = p.keys :=
  SPath.withValue_keys L p _ _ _

theorem mappingLoop_inStep (L : Lib) (m : Merge) {n : Nat} (cs : List Nat) :
    ∀ (acc : List (Nat × List Val)) (kids : List SPath), InStep n kids →
      InStep n (mappingLoop L m cs acc kids).2 := by
  induction cs with
  | nil => intro acc kids h; exact h
  | cons i cs ih =>
    intro acc kids h
    have h1 : InStep n (onChild kids i (SPath.exists_ L)).2 := h.onChild i (exists_k L)
    unfold mappingLoop
    split
    · rename_i heq; rw [heq] at h1; exact h1
    · rename_i heq; rw [heq] at h1; exact ih _ _ h1
    · rename_i kids' heq; rw [heq] at h1
      have h2 : InStep n (onChild kids' i (SPath.isNull L)).2 := InStep.onChild h1 i (isNull_k L)
      split
      · rename_i heq; rw [heq] at h2; exact h2
      · rename_i b kids2 heq; rw [heq] at h2
        have h3 : InStep n (onChild kids2 i (SPath.mapping L)).2 := InStep.onChild h2 i (mapping_k L)
        split
        · split
          · exact h2
          · split <;> (rename_i heq; rw [heq] at h3; exact h3)
        · split
          · exact ih _ _ h2
          · split
            · rename_i heq; rw [heq] at h3; exact h3
            · rename_i heq; rw [heq] at h3
              split
              · exact ih _ _ h3
              · split
                · exact ih _ _ h3
                · split
                  · exact ih _ _ h3
                  · exact ih _ _ h3

theorem mkMapping_inStep (L : Lib) (cfg : UnionCfg) (m : Option Merge) (cs : List Nat) {n : Nat}
    {kids : List SPath} (h : InStep n kids) : InStep n (mkMapping L cfg m cs kids).2 := by
  unfold mkMapping
  simp only
  split
  · exact h
  · exact mappingLoop_inStep L _ cs _ _ h

theorem sequenceLoop_inStep (L : Lib) (cfg : UnionCfg) {n : Nat} (cs : List Nat) :
    ∀ (m : Option Merge) (acc : List (Nat × Nat)) (kids : List SPath), InStep n kids →
      InStep n (sequenceLoop L cfg cs m acc kids).2 := by
  induction cs with
  | nil => intro m acc kids h; exact h
  | cons i cs ih =>
    intro m acc kids h
    have h1 : InStep n (onChild kids i (SPath.exists_ L)).2 := h.onChild i (exists_k L)
    unfold sequenceLoop
    split
    · rename_i heq; rw [heq] at h1; exact h1
    · rename_i heq; rw [heq] at h1; exact ih _ _ _ h1
    · rename_i kids' heq; rw [heq] at h1
      have h2 : InStep n (onChild kids' i (SPath.isNull L)).2 := InStep.onChild h1 i (isNull_k L)
      split
      · rename_i heq; rw [heq] at h2; exact h2
      · rename_i heq; rw [heq] at h2; exact ih _ _ _ h2
      · rename_i kids2 heq; rw [heq] at h2
        have h3 : InStep n (onChild kids2 i (SPath.sequence L)).2 := InStep.onChild h2 i (sequence_k L)
        split
        · rename_i heq; rw [heq] at h3; exact h3
        · rename_i heq; rw [heq] at h3
          split
          · exact ih _ _ _ h3
          · dsimp only
            split
            · exact ih _ _ _ h3
            · exact ih _ _ _ h3
            · exact ih _ _ _ h3
            · exact h3

theorem resolveUnion_inStep {n : Nat} (c : UVal) (k : Val) {kids : List SPath}
    (h : InStep n kids) : InStep n (resolveUnion c k kids).2 := by
  have hg : InStep n (unionGet c k kids).2 := by
    unfold unionGet
    split
    · exact h
    · unfold seqGet
      split
      · exact h
      · split
        · exact h
        · split
          · exact h
          · rename_i p hp
            split
            · exact h.set (by rw [SPath.shiftLast_length]; exact h.get hp)
            · exact h
    · exact h
    · split <;> exact h
  unfold resolveUnion
  split <;> (rename_i heq; rw [heq] at hg; exact hg)

theorem fill_inStep {n : Nat} (ks : List Val) (ps : List (Part UVal)) :
    ∀ (kids : List SPath) (v : UVal), InStep n kids →
      InStep n (PathSt.fill (fun _ kids c k => resolveUnion c k kids) UVal.isNONE ks kids v ps).2.1 := by
  induction ps with
  | nil => intro kids v h; exact h
  | cons p ps ih =>
    intro kids v h
    have h1 := resolveUnion_inStep v p.key h
    unfold PathSt.fill
    split
    · rename_i heq; rw [heq] at h1; exact h1
    · rename_i heq; rw [heq] at h1
      split
      · exact h1
      · exact ih _ _ h1

theorem uvalue_keys (p : UPath) : p.uvalue.2.keys = p.keys := PathSt.value_keys ..

theorem uvalue_sig (p : UPath) : p.uvalue.2.st.sig = p.st.sig := PathSt.value_sig ..

theorem uvalue_wf {p : UPath} (h : p.WF) : p.uvalue.2.WF := by
  refine ⟨?_, PathSt.tidy_of_sig (uvalue_sig p) h.tidy⟩
  rw [uvalue_keys]
  have h := h.kids
  unfold uvalue PathSt.value
  split
  · rename_i heq
    split at heq <;> cases heq
    · exact h
    · exact fill_inStep _ _ _ _ h
    · exact fill_inStep _ _ _ _ h

/-- Keys and the invariant are unchanged. -/
def Keeps (p q : UPath) : Prop := q.keys = p.keys ∧ q.WF

theorem uvalue_keeps {p : UPath} (h : p.WF) : Keeps p p.uvalue.2 := ⟨uvalue_keys p, uvalue_wf h⟩

theorem Keeps.kids {p q : UPath} (h : Keeps p q) {kids : List SPath} (hk : InStep q.keys.length kids) :
    Keeps p { q with kids := kids } := ⟨h.1, hk, h.2.tidy⟩

theorem Keeps.setv {p q : UPath} (h : Keeps p q) (v : UVal) {kids : List SPath}
    (hk : InStep q.keys.length kids) : Keeps p { q with st := q.st.setValue v, kids := kids } := by
  have hkeys : (q.st.setValue v).keys = q.st.keys := PathSt.setValue_keys ..
  refine ⟨?_, ?_, PathSt.tidy_of_sig (PathSt.setValue_sig ..) h.2.tidy⟩
  · show (q.st.setValue v).keys = _
    rw [hkeys]; exact h.1
  · show InStep (q.st.setValue v).keys.length kids
    rw [hkeys]; exact hk

theorem value_keeps {p : UPath} (h : p.WF) : Keeps p p.value.2 := by
  have := uvalue_keeps h
  unfold value
  split <;> (rename_i heq; rw [heq] at this; exact this)

theorem exists_keeps {p : UPath} (h : p.WF) : Keeps p p.exists_.2 := by
  have := uvalue_keeps h
  unfold exists_
  split <;> (rename_i heq; rw [heq] at this; exact this)

theorem isNull_keeps {p : UPath} (h : p.WF) : Keeps p p.isNull.2 := by
  have := uvalue_keeps h
  unfold isNull
  split <;> (rename_i heq; rw [heq] at this; exact this)

theorem mapping_keeps (L : Lib) {p : UPath} (h : p.WF) : Keeps p (p.mapping L).2 := by
  have hu := uvalue_keeps h
  unfold mapping
  split
  · rename_i heq; rw [heq] at hu; exact hu
  · rename_i cs q heq; rw [heq] at hu
    have hm := mkMapping_inStep L q.cfg none cs hu.2.kids
    split
    · rename_i heq; rw [heq] at hm; exact hu.kids hm
    · rename_i heq; rw [heq] at hm; exact hu.setv _ hm
  · rename_i heq; rw [heq] at hu; exact hu
  · rename_i heq; rw [heq] at hu; exact hu

theorem sequence_keeps (L : Lib) {p : UPath} (h : p.WF) : Keeps p (p.sequence L).2 := by
  have hu := uvalue_keeps h
  unfold sequence
  split
  · rename_i heq; rw [heq] at hu; exact hu
  · rename_i cs q heq; rw [heq] at hu
    have hm := sequenceLoop_inStep L q.cfg cs none [] q.kids hu.2.kids
    split
    · rename_i heq; rw [heq] at hm; exact hu.kids hm
    · rename_i heq; rw [heq] at hm; exact hu.setv _ hm
  · rename_i heq; rw [heq] at hu; exact hu
  · rename_i heq; rw [heq] at hu; exact hu

theorem primitive_keeps (L : Lib) (ty : PTy) {p : UPath} (h : p.WF) : Keeps p (p.primitive L ty).2 := by
  have hu := uvalue_keeps h
  unfold primitive
  split
  · rename_i heq; rw [heq] at hu; exact hu
  · rename_i cs q heq; rw [heq] at hu
    split
    · exact hu.setv _ hu.2.kids
    · rename_i c _
      have hm : InStep q.keys.length (onChild q.kids c (SPath.primitive L ty)).2 :=
        InStep.onChild hu.2.kids c (primitive_k L ty)
      split
      · rename_i heq; rw [heq] at hm; exact hu.kids hm
      · rename_i heq; rw [heq] at hm; exact hu.setv _ hm
  · rename_i heq; rw [heq] at hu; exact hu

theorem append_keys (p : UPath) (k : Val) : (p.append k).keys = p.keys ++ [k] :=
  PathSt.append_keys ..

theorem append_wf {p : UPath} (h : p.WF) (k : Val) : (p.append k).WF := by
  refine ⟨?_, PathSt.append_tidy h.tidy k⟩
  rw [append_keys]
  intro c hc
  simp only [append, List.mem_map] at hc
  obtain ⟨c', hc', rfl⟩ := hc
  simp [SPath.keys_append, h.kids c' hc']

theorem popAll_ok {n : Nat} (kids : List SPath) (h : InStep (n + 1) kids) :
    ∃ kids', popAll kids = .ok kids' ∧ InStep n kids' := by
  induction kids with
  | nil => exact ⟨[], rfl, by intro c hc; simp at hc⟩
  | cons c cs ih =>
    obtain ⟨cs', h1, h2⟩ := ih (fun x hx => h x (List.mem_cons_of_mem _ hx))
    have hc := h c List.mem_cons_self
    have hne : c.keys ≠ [] := by intro h0; rw [h0] at hc; simp at hc
    obtain ⟨q, hq, hk, _⟩ := SPath.pop_keys (p := c) (ks := c.keys.dropLast) (k := c.keys.getLast hne)
      (List.dropLast_concat_getLast hne).symm
    refine ⟨q :: cs', by simp [popAll, hq, h1], ?_⟩
    intro x hx
    rcases List.mem_cons.1 hx with rfl | hx
    · rw [hk, List.length_dropLast, hc]; rfl
    · exact h2 x hx

theorem pop_keys {p : UPath} (h : p.WF) {ks : List Val} {k : Val} (hk : p.keys = ks ++ [k]) :
    ∃ q, p.pop = .ok q ∧ q.keys = ks ∧ q.WF := by
  obtain ⟨st', h1, h2, h5⟩ := PathSt.pop_keys (p := p.st) hk
  have hlen : p.keys.length = ks.length + 1 := by rw [hk]; simp
  have hw : InStep (ks.length + 1) p.kids := by rw [← hlen]; exact h.kids
  obtain ⟨kids', h3, h4⟩ := popAll_ok p.kids hw
  refine ⟨{ p with st := st', kids := kids' }, by simp [pop, h1, h3], h2, ?_, h5 h.tidy⟩
  show InStep st'.keys.length kids'
  rw [h2]; exact h4

theorem joinPath_wf (L : Lib) {p q : UPath} (h : p.WF) (hq : p.joinPath L = some (.ok q)) : q.WF := by
  have hu := uvalue_keeps h
  unfold joinPath at hq
  split at hq
  · rename_i cs r heq; rw [heq] at hu
    have hm := mkMapping_inStep L r.cfg none cs hu.2.kids
    split at hq
    · simp at hq
    · rename_i ms kids heq2; rw [heq2] at hm
      simp only [Option.some.injEq] at hq
      split at hq
      · simp at hq
      · rename_i hne
        simp only [Except.ok.injEq] at hq
        subst hq
        have hk : (PathSt.setValue { root := UVal.mapping ms, parts := (prefixKeys cs kids).map Part.ofKey }
            (UVal.join cs)).keys = prefixKeys cs kids := by
          rw [PathSt.setValue_keys]
          simp [PathSt.keys, Part.ofKey, Function.comp_def]
        have hl : (prefixKeys cs kids).length = r.keys.length := by
          unfold prefixKeys at hne ⊢
          split
          · simp at hne
          · split
            · rename_i hp; exact hm.get hp
            · rename_i hp; simp [hp] at hne
        refine ⟨?_, ?_⟩
        · show InStep (PathSt.setValue _ _).keys.length kids
          rw [hk, hl]; exact hm
        · apply PathSt.tidy_of_sig (PathSt.setValue_sig ..)
          intro x hx
          simp only [List.mem_map] at hx
          obtain ⟨y, _, rfl⟩ := hx
          rfl
  · simp at hq

theorem mk'_wf (L : Lib) {cfg : UnionCfg} {kids : List SPath} {q : UPath}
    (h : InStep 0 kids) (hq : mk' L cfg kids = .ok q) : q.WF ∧ q.keys = [] := by
  unfold mk' at hq
  split at hq
  · simp at hq
  · have hm := mkMapping_inStep L cfg (some .combine) (List.range kids.length) h
    split at hq
    · simp at hq
    · rename_i heq; rw [heq] at hm
      simp only [Except.ok.injEq] at hq
      subst hq
      exact ⟨⟨hm, by intro x hx; cases hx⟩, rfl⟩

end UPath

/-! ## Mountable paths -/

namespace BPath

def WF : BPath → Prop
  | .simple p => p.Tidy
  | .union p => p.WF

/-- The text of a path of the same source with given keys; a `UnionPath` has no location. -/
def text (L : Lib) : BPath → List Val → Except Exc String
  | .simple p => p.text L
  | .union _ => PathSt.keysText L

theorem render_text (L : Lib) {p : BPath} (h : p.WF) : p.render L = p.text L p.keys := by
  cases p with
  | simple p => exact SPath.render_text L h
  | union p => exact PathSt.render_text L h.tidy

/-- Keys, text and invariant are unchanged. -/
structure Keeps (p q : BPath) : Prop where
  keys : q.keys = p.keys
  wf : q.WF
  text : ∀ L, q.text L = p.text L

theorem read_keeps {α : Type} {p : BPath} {fs : SPath → Except Exc α × SPath}
    {fu : UPath → Except Exc α × UPath} (h : p.WF) (hs : ∀ p, SPath.Keeps p (fs p).2)
    (hu : ∀ p : UPath, p.WF → UPath.Keeps p (fu p).2) : Keeps p (p.read fs fu).2 := by
  cases p with
  | simple p => exact ⟨(hs p).keys, (hs p).tidy h, (hs p).text⟩
  | union p => exact ⟨(hu p h).1, (hu p h).2, fun _ => rfl⟩

theorem value_keeps (L : Lib) {p : BPath} (h : p.WF) : Keeps p (p.value L).2 :=
  read_keeps h (fun p => SPath.withValue_keeps L p _ _ _) (fun _ hw => UPath.value_keeps hw)
theorem exists_keeps (L : Lib) {p : BPath} (h : p.WF) : Keeps p (p.exists_ L).2 :=
  read_keeps h (fun p => SPath.withValue_keeps L p _ _ _) (fun _ hw => UPath.exists_keeps hw)
theorem isNull_keeps (L : Lib) {p : BPath} (h : p.WF) : Keeps p (p.isNull L).2 :=
  read_keeps h (fun p => SPath.withValue_keeps L p _ _ _) (fun _ hw => UPath.isNull_keeps hw)
theorem mapping_keeps (L : Lib) {p : BPath} (h : p.WF) : Keeps p (p.mapping L).2 :=
  read_keeps h (fun p => SPath.withValue_keeps L p _ _ _) (fun _ hw => UPath.mapping_keeps L hw)
theorem sequence_keeps (L : Lib) {p : BPath} (h : p.WF) : Keeps p (p.sequence L).2 :=
  read_keeps h (fun p => SPath.withValue_keeps L p _ _ _) (fun _ hw => UPath.sequence_keeps L hw)
theorem primitive_keeps (L : Lib) (ty : PTy) {p : BPath} (h : p.WF) : Keeps p (p.primitive L ty).2 :=
  read_keeps h (fun p => SPath.withValue_keeps L p _ _ _) (fun _ hw => UPath.primitive_keeps L ty hw)

theorem append_keys {p : BPath} (h : p.WF) (k : Val) :
    (p.append k).keys = p.keys ++ [k] ∧ (p.append k).WF ∧ ∀ L, (p.append k).text L = p.text L := by
  cases p with
  | simple p => exact ⟨SPath.keys_append p k, SPath.append_tidy h k, fun L => SPath.append_text L p k⟩
  | union p => exact ⟨UPath.append_keys p k, UPath.append_wf h k, fun _ => rfl⟩

theorem pop_keys {p : BPath} (h : p.WF) {ks : List Val} {k : Val} (hk : p.keys = ks ++ [k]) :
    ∃ q, p.pop = .ok q ∧ q.keys = ks ∧ q.WF ∧ ∀ L, q.text L = p.text L := by
  cases p with
  | simple p =>
    obtain ⟨q, h1, h2, h3, h4⟩ := SPath.pop_keys (p := p) hk
    exact ⟨.simple q, by simp [pop, h1], h2, h3 h, h4⟩
  | union p =>
    obtain ⟨q, h1, h2, h3⟩ := UPath.pop_keys h (k := k) (ks := ks) hk
    exact ⟨.union q, by simp [pop, h1], h2, h3, fun _ => rfl⟩

theorem joinPath_wf (L : Lib) {p q : BPath} (h : p.WF) (hq : p.joinPath L = some (.ok q)) : q.WF := by
  cases p with
  | simple p => simp [joinPath] at hq
  | union p =>
    unfold joinPath at hq
    simp only at hq
    split at hq
    · simp at hq
    · simp at hq
    · rename_i r hr
      simp only [Option.some.injEq, Except.ok.injEq] at hq
      subst hq
      exact UPath.joinPath_wf L h hr

end BPath

/-! ## Mount paths -/

namespace MPath

/-- Every sub path is well formed and only the selected one has keys. -/
structure WF (p : MPath) : Prop where
  sub : ∀ k, (p.sub k).WF
  idle : ∀ k, (∀ m, p.part = some m → p.find k ≠ p.find m) → (p.sub k).keys = []
  part : ∀ m, p.part = some m → (m.isIntLike || m.isStr) = true

theorem find_setSub (p : MPath) (k : Val) (q : BPath) (j : Val) :
    (p.setSub k q).find j = p.find j := by
  unfold setSub
  split
  · rename_i i _
    unfold find
    simp only [List.findIdx?_eq_guard_findIdx_lt]
    have : ∀ (xs : List (String × BPath)) (i : Nat),
        List.findIdx (fun q => j.pyEq (.str q.1)) (xs.modify i fun r => (r.1, q))
          = List.findIdx (fun q => j.pyEq (.str q.1)) xs := by
      intro xs
      induction xs with
      | nil => intro i; simp
      | cons x xs ih =>
        intro i
        cases i with
        | zero => simp [List.findIdx_cons]
        | succ i => simp [List.findIdx_cons, ih i]
    simp [this]
  · rfl

theorem part_setSub (p : MPath) (k : Val) (q : BPath) : (p.setSub k q).part = p.part := by
  unfold setSub; split <;> rfl

theorem sub_eq_of_find {p : MPath} {j k : Val} (h : p.find j = p.find k) : p.sub j = p.sub k := by
  unfold sub; rw [h]

theorem sub_setSub_self (p : MPath) (k : Val) (q : BPath) : (p.setSub k q).sub k = q := by
  have hf := find_setSub p k q k
  unfold sub
  rw [hf]
  unfold setSub
  cases h : p.find k with
  | none => rfl
  | some i =>
    have hi : i < p.paths.length := by
      unfold find at h
      exact (List.findIdx?_eq_some_iff_getElem.1 h).1
    simp [hi]

theorem sub_setSub_other (p : MPath) (k : Val) (q : BPath) (j : Val) (h : p.find j ≠ p.find k) :
    (p.setSub k q).sub j = p.sub j := by
  unfold sub
  rw [find_setSub]
  unfold setSub
  cases hk : p.find k with
  | none =>
    cases hj : p.find j with
    | none => exact absurd (hj.trans hk.symm) h
    | some i =>
      have hi : i < p.paths.length := by
        unfold find at hj
        exact (List.findIdx?_eq_some_iff_getElem.1 hj).1
      simp [hi]
  | some i =>
    cases hj : p.find j with
    | none => rfl
    | some i' =>
      have : i ≠ i' := by
        intro he; apply h; rw [hj, hk, he]
      simp [this]

theorem setSub_wf {p : MPath} (h : p.WF) {m : Val} (hm : p.part = some m) {q : BPath} (hq : q.WF) :
    (p.setSub m q).WF := by
  constructor
  · intro k
    by_cases hk : p.find k = p.find m
    · rw [sub_eq_of_find (p := p.setSub m q) (j := k) (k := m)
        (by rw [find_setSub, find_setSub]; exact hk), sub_setSub_self]
      exact hq
    · rw [sub_setSub_other _ _ _ _ hk]; exact h.sub k
  · intro k hk
    have := hk m (by rw [part_setSub]; exact hm)
    rw [find_setSub, find_setSub] at this
    rw [sub_setSub_other _ _ _ _ this]
    apply h.idle
    intro m' hm'
    rw [hm] at hm'
    cases hm'
    exact this
  · intro m' hm'
    rw [part_setSub] at hm'
    exact h.part m' hm'

/-- The text of a path of the same source with given keys. -/
def text (L : Lib) (p : MPath) : List Val → Except Exc String
  | [] => .ok ""
  | k :: rest =>
    let ks := match k with | .str s => s | k => L.fmt k
    if rest.isEmpty then .ok ("@" ++ ks)
    else match (p.sub k).text L rest with
      | .ok s => .ok ("@" ++ ks ++ ":" ++ s)
      | .error e => .error e

theorem render_text (L : Lib) {p : MPath} (h : p.WF) : p.render L = p.text L p.keys := by
  unfold render keys
  cases hp : p.part with
  | none => rfl
  | some k => simp only [text, BPath.render_text L (h.sub k)]; rfl

theorem setSub_text (L : Lib) (p : MPath) (m : Val) {q : BPath}
    (h : q.text L = (p.sub m).text L) : (p.setSub m q).text L = p.text L := by
  have hs : ∀ k, ((p.setSub m q).sub k).text L = (p.sub k).text L := by
    intro k
    by_cases hk : p.find k = p.find m
    · rw [sub_eq_of_find (p := p.setSub m q) (j := k) (k := m)
        (by rw [find_setSub, find_setSub]; exact hk), sub_setSub_self, h, sub_eq_of_find hk]
    · rw [sub_setSub_other _ _ _ _ hk]
  funext ks
  cases ks with
  | nil => rfl
  | cons k rest => simp only [text, hs]

/-- Keys, text and invariant are unchanged. -/
structure Keeps (p q : MPath) : Prop where
  keys : q.keys = p.keys
  wf : q.WF
  text : ∀ L, q.text L = p.text L

theorem Keeps.refl {p : MPath} (h : p.WF) : Keeps p p := ⟨rfl, h, fun _ => rfl⟩

theorem onSub_keeps {α : Type} {p : MPath} (h : p.WF) {m : Val} (hm : p.part = some m)
    {f : BPath → Except Exc α × BPath} (hf : ∀ q : BPath, q.WF → BPath.Keeps q (f q).2) :
    Keeps p (p.onSub m f).2 := by
  have hk := hf (p.sub m) (h.sub m)
  refine ⟨?_, setSub_wf h hm hk.wf, fun L => setSub_text L p m (hk.text L)⟩
  show (p.setSub m (f (p.sub m)).2).keys = _
  unfold MPath.keys
  rw [part_setSub, hm]
  simp only [sub_setSub_self, hk.keys]

theorem value_keeps (L : Lib) {p : MPath} (h : p.WF) : Keeps p (p.value L).2 := by
  unfold value
  split
  · exact .refl h
  · rename_i m hm; exact onSub_keeps h hm fun _ => BPath.value_keeps L

theorem exists_keeps (L : Lib) {p : MPath} (h : p.WF) : Keeps p (p.exists_ L).2 := by
  unfold exists_
  split
  · exact .refl h
  · rename_i m hm; exact onSub_keeps h hm fun _ => BPath.exists_keeps L

theorem isNull_keeps (L : Lib) {p : MPath} (h : p.WF) : Keeps p (p.isNull L).2 := by
  unfold isNull
  split
  · exact .refl h
  · rename_i m hm
    have := onSub_keeps h hm fun _ => BPath.value_keeps L
    split <;> (rename_i heq; rw [heq] at this; exact this)

theorem mapping_keeps (L : Lib) {p : MPath} (h : p.WF) : Keeps p (p.mapping L).2 := by
  unfold mapping
  split
  · exact .refl h
  · rename_i m hm; exact onSub_keeps h hm fun _ => BPath.mapping_keeps L

theorem sequence_keeps (L : Lib) {p : MPath} (h : p.WF) : Keeps p (p.sequence L).2 := by
  unfold sequence
  split
  · exact .refl h
  · rename_i m hm
    split
    · exact .refl h
    · exact onSub_keeps h hm fun _ => BPath.sequence_keeps L

theorem primitive_keeps (L : Lib) (ty : PTy) {p : MPath} (h : p.WF) : Keeps p (p.primitive L ty).2 := by
  unfold primitive
  split
  · exact .refl h
  · rename_i m hm
    split
    · exact .refl h
    · exact onSub_keeps h hm fun _ => BPath.primitive_keeps L ty

theorem append_keys {p q : MPath} (h : p.WF) {k : Val} (hq : p.append k = .ok q) :
    q.keys = p.keys ++ [k] ∧ q.WF ∧ ∀ L, q.text L = p.text L := by
  unfold append at hq
  split at hq
  · rename_i hp
    split at hq
    · rename_i hok
      simp only [Except.ok.injEq] at hq
      subst hq
      have hidle : ∀ j, (p.sub j).keys = [] := fun j => h.idle j (by intro m hm; rw [hp] at hm; simp at hm)
      refine ⟨?_, ⟨?_, ?_, ?_⟩, ?_⟩
      · show k :: (p.sub k).keys = p.keys ++ [k]
        rw [hidle]; simp [keys, hp]
      · exact h.sub
      · intro j _; exact hidle j
      · intro m hm; cases hm; exact hok
      · intro L; funext ks; cases ks <;> rfl
    · simp at hq
  · rename_i m hm
    simp only [Except.ok.injEq] at hq
    subst hq
    have := BPath.append_keys (h.sub m) k
    refine ⟨?_, setSub_wf h hm this.2.1, fun L => setSub_text L p m (this.2.2 L)⟩
    unfold keys
    rw [part_setSub, hm]
    simp only [sub_setSub_self, this.1]
    rfl

theorem pop_keys {p : MPath} (h : p.WF) {ks : List Val} {k : Val} (hk : p.keys = ks ++ [k]) :
    ∃ q, p.pop = .ok q ∧ q.keys = ks ∧ q.WF ∧ ∀ L, q.text L = p.text L := by
  unfold pop
  split
  · rename_i hp; simp [keys, hp] at hk
  · rename_i m hm
    split
    · rename_i he
      have he' : (p.sub m).keys = [] := by simpa using he
      refine ⟨_, rfl, ?_, ⟨?_, ?_, by intro m' hm'; cases hm'⟩, by intro L; funext ks; cases ks <;> rfl⟩
      · simp only [keys, hm, he'] at hk
        cases ks with
        | nil => rfl
        | cons a as => simp at hk
      · exact h.sub
      · intro j _
        show (p.sub j).keys = []
        by_cases hj : p.find j = p.find m
        · rw [sub_eq_of_find hj]; exact he'
        · exact h.idle j (by intro m' hm'; rw [hm] at hm'; cases hm'; exact hj)
    · rename_i he
      simp only [keys, hm] at hk
      cases ks with
      | nil =>
        simp at hk
        simp [hk.2] at he
      | cons a as =>
        simp only [List.cons_append, List.cons.injEq] at hk
        obtain ⟨q, h1, h2, h3, h4⟩ := BPath.pop_keys (h.sub m) hk.2
        refine ⟨p.setSub m q, by simp [h1], ?_, setSub_wf h hm h3, fun L => setSub_text L p m (h4 L)⟩
        unfold keys
        rw [part_setSub, hm]
        simp only [sub_setSub_self, h2, hk.1]

/-- A freshly made mount path is well formed when the mounted paths are at their roots. -/
theorem mk'_wf {L : Lib} {paths : List (String × BPath)} {q : MPath}
    (hw : ∀ x ∈ paths, x.2.WF ∧ x.2.keys = []) (hq : mk' L paths = .ok q) : q.WF ∧ q.keys = [] := by
  unfold mk' at hq
  split at hq
  · simp at hq
  · simp only [Except.ok.injEq] at hq
    subst hq
    have key : ∀ k, (({ part := none, dne := .simple (SPath.native (.dict []) none), paths := paths } : MPath).sub k).WF
        ∧ (({ part := none, dne := .simple (SPath.native (.dict []) none), paths := paths } : MPath).sub k).keys = [] := by
      intro k
      unfold sub
      split
      · split
        · rename_i x hx
          exact hw x (List.mem_of_getElem? hx)
        · exact ⟨SPath.native_tidy (.dict []) none, rfl⟩
      · exact ⟨SPath.native_tidy (.dict []) none, rfl⟩
    exact ⟨⟨fun k => (key k).1, fun k _ => (key k).2, by intro m hm; cases hm⟩, rfl⟩

end MPath

/-! ## All built-in paths -/

namespace Path

def WF : Path → Prop
  | .base p => p.WF
  | .mount p => p.WF

/-- Only mount paths restrict the keys that can be appended; the text of a path depends on the
location, section and mount points. -/
def shape (L : Lib) : Path → Bool × (List Val → Except Exc String)
  | .base p => (false, p.text L)
  | .mount p => (true, p.text L)

theorem read_keeps (L : Lib) {α : Type} {p : Path} {fb : BPath → Except Exc α × BPath}
    {fm : MPath → Except Exc α × MPath} (h : p.WF)
    (hb : ∀ p : BPath, p.WF → BPath.Keeps p (fb p).2)
    (hm : ∀ p : MPath, p.WF → MPath.Keeps p (fm p).2) :
    Same (ops L) WF (shape L) p (p.read fb fm).2 := by
  cases p with
  | base p => exact ⟨(hb p h).keys, (hb p h).wf, by simp [shape, read, (hb p h).text]⟩
  | mount p => exact ⟨(hm p h).keys, (hm p h).wf, by simp [shape, read, (hm p h).text]⟩

theorem someKeys_snd (r : Except Exc KeysView × Path) : (someKeys r).2 = r.2 := by
  obtain ⟨r, p⟩ := r
  cases r <;> rfl

/-- Every built-in path is lawful. -/
def lawful (L : Lib) : LawfulPath (ops L) where
  WF := WF
  Shape := Bool × (List Val → Except Exc String)
  shape := shape L
  text := Prod.snd
  render_text := by
    intro p h
    cases p with
    | base p => exact BPath.render_text L h
    | mount p => exact MPath.render_text L h
  append_shape := by
    intro p k q h hq
    cases p with
    | base p =>
      simp only [ops, Except.ok.injEq] at hq
      subst hq
      simp [shape, (BPath.append_keys (p := p) h k).2.2 L]
    | mount p =>
      simp only [ops] at hq
      split at hq
      · rename_i r hr
        simp only [Except.ok.injEq] at hq
        subst hq
        simp [shape, (MPath.append_keys (p := p) h hr).2.2 L]
      · simp at hq
  append_back := by
    intro p p' ks k h h' hk hk' hs
    cases p' with
    | base p' => exact ⟨_, rfl⟩
    | mount p' =>
      cases p with
      | base p => simp [shape] at hs
      | mount p =>
        cases hp' : p'.part with
        | some m => exact ⟨.mount (p'.setSub m ((p'.sub m).append k)), by simp [ops, MPath.append, hp']⟩
        | none =>
          have hks : ks = [] := by
            rw [← hk']; simp [ops, MPath.keys, hp']
          subst hks
          have hok : (k.isIntLike || k.isStr) = true := by
            cases hp : p.part with
            | none => simp [ops, MPath.keys, hp] at hk
            | some m =>
              simp [ops, MPath.keys, hp] at hk
              rw [← hk.1]
              exact h.part m hp
          refine ⟨.mount { p' with part := some k }, ?_⟩
          simp only [ops, MPath.append, hp', hok, if_true]
  append_keys := by
    intro p k q h hq
    cases p with
    | base p =>
      simp only [ops, Except.ok.injEq] at hq
      subst hq
      exact ⟨(BPath.append_keys h k).1, (BPath.append_keys h k).2.1⟩
    | mount p =>
      simp only [ops] at hq
      split at hq
      · rename_i r hr
        simp only [Except.ok.injEq] at hq
        subst hq
        exact ⟨(MPath.append_keys h hr).1, (MPath.append_keys h hr).2.1⟩
      · simp at hq
  pop_keys := by
    intro p ks k h hk
    cases p with
    | base p =>
      obtain ⟨q, h1, h2, h3, h4⟩ := BPath.pop_keys (p := p) h hk
      exact ⟨.base q, by simp [ops, h1], h2, h3, by simp [shape, h4 L]⟩
    | mount p =>
      obtain ⟨q, h1, h2, h3, h4⟩ := MPath.pop_keys (p := p) h hk
      exact ⟨.mount q, by simp [ops, h1], h2, h3, by simp [shape, h4 L]⟩
  value_keys := fun h => read_keeps L h (fun _ => BPath.value_keeps L) (fun _ => MPath.value_keeps L)
  exists_keys := fun h => read_keeps L h (fun _ => BPath.exists_keeps L) (fun _ => MPath.exists_keeps L)
  isNull_keys := fun h => read_keeps L h (fun _ => BPath.isNull_keeps L) (fun _ => MPath.isNull_keeps L)
  mapping_keys := fun {p} h => by
    show Same (ops L) WF (shape L) p (someKeys _).2
    rw [someKeys_snd]
    exact read_keeps L h (fun _ => BPath.mapping_keeps L) (fun _ => MPath.mapping_keeps L)
  sequence_keys := fun h =>
    read_keeps L h (fun _ => BPath.sequence_keeps L) (fun _ => MPath.sequence_keeps L)
  primitive_keys := fun {_ ty} h =>
    read_keeps L h (fun _ => BPath.primitive_keeps L ty) (fun _ => MPath.primitive_keeps L ty)
  joinPath_wf := by
    intro p q h hq
    cases p with
    | base p =>
      simp only [ops] at hq
      split at hq
      · simp at hq
      · rename_i r hr
        simp only [Option.some.injEq, Except.ok.injEq] at hq
        subst hq
        exact BPath.joinPath_wf L h hr
      · simp at hq
    | mount p =>
      simp only [ops] at hq
      split at hq
      · simp at hq
      · rename_i m _
        split at hq
        · simp at hq
        · rename_i r hr
          simp only [Option.some.injEq, Except.ok.injEq] at hq
          subst hq
          exact BPath.joinPath_wf L (h.sub m) hr
        · simp at hq
  native_wf := fun {v al} => SPath.native_tidy v al
  native_keys := rfl

end Path
end Pilo
