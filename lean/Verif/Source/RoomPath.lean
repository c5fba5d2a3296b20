import Verif.Source.RoomUnion
import Verif.Fuel

/-!
# The room of mounts, and of any built-in path
-/

namespace Pilo

/-- A lawful path implementation with one more invariant and one more part that nothing changes. -/
def LawfulPath.also {P T : Type} {I : PathOps P} (W : LawfulPath I) (ok : P → Prop) (extra : P → T)
    (append : ∀ {p k q}, W.WF p → ok p → I.append p k = .ok q → ok q ∧ extra q = extra p)
    (pop : ∀ {p q}, W.WF p → ok p → I.pop p = .ok q → ok q ∧ extra q = extra p)
    (value : ∀ {p}, W.WF p → ok p → ok (I.value p).2 ∧ extra (I.value p).2 = extra p)
    (exists_ : ∀ {p}, W.WF p → ok p → ok (I.exists_ p).2 ∧ extra (I.exists_ p).2 = extra p)
    (isNull : ∀ {p}, W.WF p → ok p → ok (I.isNull p).2 ∧ extra (I.isNull p).2 = extra p)
    (mapping : ∀ {p}, W.WF p → ok p → ok (I.mapping p).2 ∧ extra (I.mapping p).2 = extra p)
    (sequence : ∀ {p}, W.WF p → ok p → ok (I.sequence p).2 ∧ extra (I.sequence p).2 = extra p)
    (primitive : ∀ {p ty}, W.WF p → ok p → ok (I.primitive ty p).2 ∧ extra (I.primitive ty p).2 = extra p)
    (join : ∀ {p q}, W.WF p → ok p → I.joinPath p = some (.ok q) → ok q)
    (native : ∀ v al, ok (I.native v al)) : LawfulPath I where
  WF p := W.WF p ∧ ok p
  Shape := W.Shape × T
  shape p := (W.shape p, extra p)
  text s := W.text s.1
  render_text h := W.render_text h.1
  append_shape h hq := Prod.ext (W.append_shape h.1 hq) (append h.1 h.2 hq).2
  append_back h h' hk hk' hs := W.append_back h.1 h'.1 hk hk' (congrArg Prod.fst hs)
  append_keys h hq := ⟨(W.append_keys h.1 hq).1, (W.append_keys h.1 hq).2, (append h.1 h.2 hq).1⟩
  pop_keys h hk := by
    obtain ⟨q, h1, h2, h3, h4⟩ := W.pop_keys h.1 hk
    have := pop h.1 h.2 h1
    exact ⟨q, h1, h2, ⟨h3, this.1⟩, Prod.ext h4 this.2⟩
  value_keys h :=
    ⟨(W.value_keys h.1).keys, ⟨(W.value_keys h.1).wf, (value h.1 h.2).1⟩,
      Prod.ext (W.value_keys h.1).shape (value h.1 h.2).2⟩
  exists_keys h :=
    ⟨(W.exists_keys h.1).keys, ⟨(W.exists_keys h.1).wf, (exists_ h.1 h.2).1⟩,
      Prod.ext (W.exists_keys h.1).shape (exists_ h.1 h.2).2⟩
  isNull_keys h :=
    ⟨(W.isNull_keys h.1).keys, ⟨(W.isNull_keys h.1).wf, (isNull h.1 h.2).1⟩,
      Prod.ext (W.isNull_keys h.1).shape (isNull h.1 h.2).2⟩
  mapping_keys h :=
    ⟨(W.mapping_keys h.1).keys, ⟨(W.mapping_keys h.1).wf, (mapping h.1 h.2).1⟩,
      Prod.ext (W.mapping_keys h.1).shape (mapping h.1 h.2).2⟩
  sequence_keys h :=
    ⟨(W.sequence_keys h.1).keys, ⟨(W.sequence_keys h.1).wf, (sequence h.1 h.2).1⟩,
      Prod.ext (W.sequence_keys h.1).shape (sequence h.1 h.2).2⟩
  primitive_keys h :=
    ⟨(W.primitive_keys h.1).keys, ⟨(W.primitive_keys h.1).wf, (primitive h.1 h.2).1⟩,
      Prod.ext (W.primitive_keys h.1).shape (primitive h.1 h.2).2⟩
  joinPath_wf h hq := ⟨W.joinPath_wf h.1 hq, join h.1 h.2 hq⟩
  native_wf := ⟨W.native_wf, native _ _⟩
  native_keys := W.native_keys

variable {L : Lib} {N : String → Bool} (R : Rank L N)

namespace BPath

/-- What is left to read at the root. -/
def base : BPath → Nat
  | .simple p => p.base R
  | .union p => most (p.bases R)

/-- Everything cached has at most the room that is left. -/
def Lasting : BPath → Prop
  | .simple p => p.Lasting R
  | .union p => p.Lasting R

variable {R}

/-- The read keeps the invariant and the room at the root. -/
def Holding (p q : BPath) : Prop := q.Lasting R ∧ q.base R = p.base R

theorem read_holding {α : Type} {p : BPath} (hp : p.Lasting R) (a : DefaultCfg → List Val → Val → Except Exc α)
    (b : Bool → Val → Except Exc α) (c : ConfigCfg → List Val → CfgVal → Except Exc α)
    {fu : UPath → Except Exc α × UPath} (hu : ∀ p : UPath, p.Lasting R → UPath.Steady R p (fu p).2) :
    Holding (R := R) p (p.read (fun x => x.withValue L a b c) fu).2 := by
  cases p with
  | simple p =>
    have := SPath.withValue_lasting R hp a b c
    exact ⟨this.1, this.2.1⟩
  | union p =>
    have := hu p hp
    exact ⟨this.lasting, congrArg most this.bases⟩

theorem value_holding {p : BPath} (hp : p.Lasting R) : Holding (R := R) p (p.value L).2 :=
  read_holding hp _ _ _ fun _ => UPath.value_lasting
theorem exists_holding {p : BPath} (hp : p.Lasting R) : Holding (R := R) p (p.exists_ L).2 :=
  read_holding hp _ _ _ fun _ => UPath.exists_lasting
theorem isNull_holding {p : BPath} (hp : p.Lasting R) : Holding (R := R) p (p.isNull L).2 :=
  read_holding hp _ _ _ fun _ => UPath.isNull_lasting
theorem mapping_holding {p : BPath} (hp : p.Lasting R) : Holding (R := R) p (p.mapping L).2 :=
  read_holding hp _ _ _ fun _ => UPath.mapping_lasting
theorem sequence_holding {p : BPath} (hp : p.Lasting R) : Holding (R := R) p (p.sequence L).2 :=
  read_holding hp _ _ _ fun _ => UPath.sequence_lasting
theorem primitive_holding {p : BPath} (ty : PTy) (hp : p.Lasting R) : Holding (R := R) p (p.primitive L ty).2 :=
  read_holding hp _ _ _ fun _ => UPath.primitive_lasting ty

theorem append_holding {p : BPath} (hp : p.Lasting R) (k : Val) : Holding (R := R) p (p.append k) := by
  cases p with
  | simple p => exact SPath.append_lasting R hp k
  | union p =>
    obtain ⟨h1, h2⟩ := UPath.append_lasting hp k
    exact ⟨h1, congrArg most h2⟩

theorem pop_holding {p q : BPath} (hp : p.Lasting R) (hq : p.pop = .ok q) : Holding (R := R) p q := by
  cases p with
  | simple p =>
    simp only [pop] at hq
    cases h : p.pop with
    | error e => rw [h] at hq; cases hq
    | ok r => rw [h] at hq; cases hq; exact SPath.pop_lasting R hp h
  | union p =>
    simp only [pop] at hq
    cases h : p.pop with
    | error e => rw [h] at hq; cases hq
    | ok r =>
      rw [h] at hq; cases hq
      obtain ⟨h1, h2⟩ := UPath.pop_lasting hp h
      exact ⟨h1, congrArg most h2⟩

theorem join_holding {p q : BPath} (hp : p.Lasting R) (hq : p.joinPath L = some (.ok q)) :
    Holding (R := R) p q ∧ q.keys.map (named N) = p.keys.map (named N) := by
  cases p with
  | simple p => cases hq
  | union p =>
    simp only [joinPath] at hq
    split at hq
    · cases hq
    · cases hq
    · rename_i r hr
      cases hq
      obtain ⟨h1, h2, h3⟩ := UPath.joinPath_lasting hp hr
      exact ⟨⟨h1, congrArg most h2⟩, h3⟩

/-- Where something exists there is room left. -/
theorem exists_room {p : BPath} (hp : p.Lasting R) (h : (p.exists_ L).1 = .ok true) :
    1 ≤ room N (p.base R) p.keys := by
  cases p with
  | simple p => exact SPath.exists_room R hp h
  | union p =>
    have hu := (UPath.uvalue_lasting (R := R) hp).2
    have h : p.exists_.1 = .ok true := h
    unfold UPath.exists_ at h
    cases hv : p.uvalue with
    | mk r q =>
      rw [hv] at h hu
      cases r with
      | error e => cases h
      | ok v =>
        simp only [Except.ok.injEq, Bool.not_eq_true'] at h
        have hok := hu v rfl h
        cases v with
        | join cs => exact hok
        | mapping ms => exact hok.1
        | seq ss => exact hok
        | val v =>
          rcases hok with h' | h'
          · have h : v.isNONE = false := h
            rw [h] at h'; cases h'
          · exact Nat.le_trans (R.pos v) h'

/-- A dict, list or tuple that is read has at most the room that is left. -/
theorem value_room {p : BPath} (hp : p.Lasting R) {v : Val} (hb : v.box = true) (h : (p.value L).1 = .ok v) :
    R.of v ≤ room N (p.base R) p.keys := by
  have hn : v.isNONE = false := by cases v <;> first | rfl | cases hb
  cases p with
  | simple p =>
    rcases SPath.value_room R hp h with h | h
    · rw [hn] at h; cases h
    · exact h
  | union p =>
    have hu := (UPath.uvalue_lasting (R := R) hp).2
    have h : p.value.1 = .ok v := h
    unfold UPath.value at h
    cases hv : p.uvalue with
    | mk r q =>
      rw [hv] at h hu
      cases r with
      | error e => cases h
      | ok u =>
        simp only [Except.ok.injEq] at h
        subst h
        cases u with
        | join cs => cases hb
        | mapping ms => cases hb
        | seq ss => cases hb
        | val w =>
          rcases hu _ rfl hn with h | h
          · have hn : w.isNONE = false := hn
            rw [hn] at h; cases h
          · exact h

end BPath

namespace MPath

/-- Everything cached has at most the room that is left. -/
structure Lasting (p : MPath) : Prop where
  dne : p.dne.Lasting R
  paths : ∀ q ∈ p.paths, q.2.Lasting R

/-- What is left to read at the root of each mounted source. -/
def bases (p : MPath) : List Nat := p.dne.base R :: p.paths.map fun q => q.2.base R

/-- What is left to read after the keys. -/
def left (p : MPath) : List Val → Nat
  | [] => 1 + most (p.bases R)
  | k :: ks => room N ((p.sub k).base R) ks

variable {R}

theorem sub_mem (p : MPath) (k : Val) : p.sub k = p.dne ∨ ∃ q ∈ p.paths, p.sub k = q.2 := by
  unfold sub
  split
  · split
    · rename_i i _ q hq
      exact .inr ⟨q, List.mem_of_getElem? hq, rfl⟩
    · exact .inl rfl
  · exact .inl rfl

theorem Lasting.sub {p : MPath} (h : p.Lasting R) (k : Val) : (p.sub k).Lasting R := by
  rcases p.sub_mem k with e | ⟨q, hq, e⟩
  · rw [e]; exact h.dne
  · rw [e]; exact h.paths q hq

theorem sub_base (p : MPath) (k : Val) : (p.sub k).base R ≤ most (p.bases R) := by
  rcases p.sub_mem k with e | ⟨q, hq, e⟩
  · rw [e]; exact le_most (by simp [bases])
  · rw [e]; exact le_most (by simp only [bases, List.mem_cons, List.mem_map]; exact .inr ⟨q, hq, rfl⟩)

/-- Storing a sub path with the same room at its root. -/
theorem setSub_lasting {p : MPath} (h : p.Lasting R) {m : Val} {q : BPath} (hq : BPath.Holding (R := R) (p.sub m) q) :
    (p.setSub m q).Lasting R ∧ (p.setSub m q).left R = p.left R := by
  refine ⟨?_, ?_⟩
  · unfold setSub
    split
    · refine ⟨h.dne, ?_⟩
      intro x hx
      rw [List.mem_iff_getElem?] at hx
      obtain ⟨j, hj⟩ := hx
      dsimp only at hj
      rw [List.getElem?_modify] at hj
      cases hp : p.paths[j]? with
      | none => rw [hp] at hj; simp at hj
      | some y =>
        rw [hp] at hj
        simp only [Option.map_eq_map, Option.map_some, Option.some.injEq] at hj
        subst hj
        split
        · exact hq.1
        · exact h.paths y (List.mem_of_getElem? hp)
    · exact ⟨hq.1, h.paths⟩
  · have hb : (p.setSub m q).bases R = p.bases R := by
      have he := hq.2
      unfold sub at he
      unfold setSub
      cases hf : p.find m with
      | none =>
        rw [hf] at he
        simp only [bases, he]
      | some i =>
        rw [hf] at he
        simp only [bases]
        congr 1
        apply List.ext_getElem?
        intro j
        simp only [List.getElem?_map, List.getElem?_modify]
        cases hp : p.paths[j]? with
        | none => rfl
        | some y =>
          by_cases hij : i = j
          · subst hij
            dsimp only at he
            rw [hp] at he
            simp [he]
          · simp [hij]
    have hs : ∀ k, ((p.setSub m q).sub k).base R = (p.sub k).base R := by
      intro k
      by_cases hk : p.find k = p.find m
      · rw [sub_eq_of_find (p := p.setSub m q) (j := k) (k := m)
          (by rw [find_setSub, find_setSub]; exact hk), sub_setSub_self, hq.2, sub_eq_of_find hk]
      · rw [sub_setSub_other _ _ _ _ hk]
    funext ks
    cases ks with
    | nil => simp only [left, hb]
    | cons k ks => simp only [left, hs]

theorem onSub_lasting {α : Type} {p : MPath} (h : p.Lasting R) {m : Val} {f : BPath → Except Exc α × BPath}
    (hf : ∀ q : BPath, q.Lasting R → BPath.Holding (R := R) q (f q).2) :
    (p.onSub m f).2.Lasting R ∧ (p.onSub m f).2.left R = p.left R :=
  setSub_lasting h (hf _ (h.sub m))

theorem value_lasting {p : MPath} (h : p.Lasting R) : (p.value L).2.Lasting R ∧ (p.value L).2.left R = p.left R := by
  unfold value
  split
  · exact ⟨h, rfl⟩
  · exact onSub_lasting h fun _ => BPath.value_holding

theorem exists_lasting {p : MPath} (h : p.Lasting R) :
    (p.exists_ L).2.Lasting R ∧ (p.exists_ L).2.left R = p.left R := by
  unfold exists_
  split
  · exact ⟨h, rfl⟩
  · exact onSub_lasting h fun _ => BPath.exists_holding

theorem isNull_lasting {p : MPath} (h : p.Lasting R) :
    (p.isNull L).2.Lasting R ∧ (p.isNull L).2.left R = p.left R := by
  unfold isNull
  split
  · exact ⟨h, rfl⟩
  · rename_i m _
    have := onSub_lasting (m := m) h fun q hq => BPath.value_holding (L := L) hq
    split <;> (rename_i heq; rw [heq] at this; exact this)

theorem mapping_lasting {p : MPath} (h : p.Lasting R) :
    (p.mapping L).2.Lasting R ∧ (p.mapping L).2.left R = p.left R := by
  unfold mapping
  split
  · exact ⟨h, rfl⟩
  · exact onSub_lasting h fun _ => BPath.mapping_holding

theorem sequence_lasting {p : MPath} (h : p.Lasting R) :
    (p.sequence L).2.Lasting R ∧ (p.sequence L).2.left R = p.left R := by
  unfold sequence
  split
  · exact ⟨h, rfl⟩
  · split
    · exact ⟨h, rfl⟩
    · exact onSub_lasting h fun _ => BPath.sequence_holding

theorem primitive_lasting (ty : PTy) {p : MPath} (h : p.Lasting R) :
    (p.primitive L ty).2.Lasting R ∧ (p.primitive L ty).2.left R = p.left R := by
  unfold primitive
  split
  · exact ⟨h, rfl⟩
  · split
    · exact ⟨h, rfl⟩
    · exact onSub_lasting h fun _ => BPath.primitive_holding ty

theorem append_lasting {p q : MPath} (h : p.Lasting R) {k : Val} (hq : p.append k = .ok q) :
    q.Lasting R ∧ q.left R = p.left R := by
  unfold append at hq
  split at hq
  · split at hq
    · cases hq
      refine ⟨⟨h.dne, h.paths⟩, ?_⟩
      funext ks
      cases ks <;> rfl
    · cases hq
  · rename_i m _
    cases hq
    exact setSub_lasting h (BPath.append_holding (h.sub m) k)

theorem pop_lasting {p q : MPath} (h : p.Lasting R) (hq : p.pop = .ok q) :
    q.Lasting R ∧ q.left R = p.left R := by
  unfold pop at hq
  split at hq
  · cases hq
  · rename_i m _
    split at hq
    · cases hq
      refine ⟨⟨h.dne, h.paths⟩, ?_⟩
      funext ks
      cases ks <;> rfl
    · split at hq
      · rename_i r hr
        cases hq
        exact setSub_lasting h (BPath.pop_holding (h.sub m) hr)
      · cases hq

end MPath

namespace Path

/-- Everything cached has at most the room that is left. -/
def Lasting : Path → Prop
  | .base p => p.Lasting R
  | .mount p => p.Lasting R

/-- What is left to read after the keys. -/
def left : Path → List Val → Nat
  | .base p => room N (p.base R)
  | .mount p => p.left R

variable {R}

theorem read_lasting {α : Type} {p : Path} (hp : p.Lasting R) {fb : BPath → Except Exc α × BPath}
    {fm : MPath → Except Exc α × MPath} (hb : ∀ q : BPath, q.Lasting R → BPath.Holding (R := R) q (fb q).2)
    (hm : ∀ q : MPath, q.Lasting R → (fm q).2.Lasting R ∧ (fm q).2.left R = q.left R) :
    (p.read fb fm).2.Lasting R ∧ (p.read fb fm).2.left R = p.left R := by
  cases p with
  | base p =>
    have := hb p hp
    exact ⟨this.1, congrArg (room N) this.2⟩
  | mount p => exact hm p hp

theorem join_lasting {p q : Path} (hp : p.Lasting R) (hq : (ops L).joinPath p = some (.ok q)) :
    q.Lasting R ∧ q.left R ((ops L).keys q) = p.left R ((ops L).keys p) := by
  cases p with
  | base p =>
    simp only [ops] at hq
    split at hq
    · cases hq
    · rename_i r hr
      cases hq
      obtain ⟨h1, h2⟩ := BPath.join_holding hp hr
      refine ⟨h1.1, ?_⟩
      show room N (r.base R) r.keys = room N (p.base R) p.keys
      rw [h1.2, room_congr h2]
    · cases hq
  | mount p =>
    simp only [ops] at hq
    split at hq
    · cases hq
    · rename_i m hm
      split at hq
      · cases hq
      · rename_i r hr
        cases hq
        obtain ⟨h1, h2⟩ := BPath.join_holding (hp.sub m) hr
        refine ⟨h1.1, ?_⟩
        have hk : (ops L).keys (.mount p) = m :: (p.sub m).keys := by
          show p.keys = _
          unfold MPath.keys; rw [hm]
        rw [hk]
        show room N (r.base R) r.keys = room N ((p.sub m).base R) (p.sub m).keys
        rw [h1.2, room_congr h2]
      · cases hq

variable (R)

/-- The built-in paths, with what is left to read as part of what nothing changes. -/
def roomy : LawfulPath (ops L) :=
  (lawful L).also (Lasting R) (left R)
    (append := by
      intro p k q _ hp hq
      cases p with
      | base p =>
        cases hq
        have := BPath.append_holding (R := R) hp k
        exact ⟨this.1, congrArg (room N) this.2⟩
      | mount p =>
        simp only [ops] at hq
        split at hq
        · rename_i r hr; cases hq; exact MPath.append_lasting hp hr
        · cases hq)
    (pop := by
      intro p q _ hp hq
      cases p with
      | base p =>
        simp only [ops] at hq
        split at hq
        · rename_i r hr
          cases hq
          have := BPath.pop_holding (R := R) hp hr
          exact ⟨this.1, congrArg (room N) this.2⟩
        · cases hq
      | mount p =>
        simp only [ops] at hq
        split at hq
        · rename_i r hr; cases hq; exact MPath.pop_lasting hp hr
        · cases hq)
    (value := fun _ hp => read_lasting hp (fun _ => BPath.value_holding) (fun _ => MPath.value_lasting))
    (exists_ := fun _ hp => read_lasting hp (fun _ => BPath.exists_holding) (fun _ => MPath.exists_lasting))
    (isNull := fun _ hp => read_lasting hp (fun _ => BPath.isNull_holding) (fun _ => MPath.isNull_lasting))
    (mapping := fun {p} _ hp => by
      show (someKeys _).2.Lasting R ∧ (someKeys _).2.left R = p.left R
      rw [someKeys_snd]
      exact read_lasting hp (fun _ => BPath.mapping_holding) (fun _ => MPath.mapping_lasting))
    (sequence := fun _ hp => read_lasting hp (fun _ => BPath.sequence_holding) (fun _ => MPath.sequence_lasting))
    (primitive := fun {_ ty} _ hp =>
      read_lasting hp (fun _ => BPath.primitive_holding ty) (fun _ => MPath.primitive_lasting ty))
    (join := fun _ hp hq => (join_lasting hp hq).1)
    (native := fun v al => SPath.native_lasting R v al)

/-- What is left to read below a path. -/
def size (p : Path) : Nat := p.left R ((ops L).keys p)

theorem native_size {v : Val} (h : v.box = true) (al : Option (List (Val × Val))) :
    size R ((ops L).native v al) = R.of v := by
  show R.of v + _ = R.of v
  have : v.isStr = false := by cases v <;> first | rfl | cases h
  simp [this]

/-- Names take room on every built-in path. -/
def sized : Sized (roomy R) (named N) where
  size := size R
  same := by
    intro p q _ h
    have h1 : q.left R = p.left R := congrArg Prod.snd h.shape
    unfold size
    rw [h1, h.keys]
  append := by
    intro p k q hp hq
    have h1 : q.left R = p.left R := congrArg Prod.snd ((roomy R).append_shape hp hq)
    have h2 := ((roomy R).append_keys hp hq).1
    unfold size
    rw [h1, h2]
    generalize (ops L).keys p = ks
    cases p with
    | base p =>
      show room N _ _ ≤ max (room N _ _) 1
      rw [room_snoc]
      exact nextRoom_le _
    | mount p =>
      cases ks with
      | nil =>
        show (p.sub k).base R ≤ max (1 + most (p.bases R)) 1
        have := MPath.sub_base (R := R) p k
        omega
      | cons k' ks =>
        show room N _ (ks ++ [k]) ≤ max (room N _ ks) 1
        rw [room_snoc]
        exact nextRoom_le _
  name := by
    intro p k q hp hk hq
    have h1 : q.left R = p.left R := congrArg Prod.snd ((roomy R).append_shape hp hq)
    have h2 := ((roomy R).append_keys hp hq).1
    unfold size
    rw [h1, h2]
    generalize (ops L).keys p = ks
    cases p with
    | base p =>
      show room N _ _ ≤ room N _ _ - 1
      rw [room_snoc, nextRoom_named hk]
      exact Nat.le_refl _
    | mount p =>
      cases ks with
      | nil =>
        show (p.sub k).base R ≤ 1 + most (p.bases R) - 1
        have := MPath.sub_base (R := R) p k
        omega
      | cons k' ks =>
        show room N _ (ks ++ [k]) ≤ room N _ ks - 1
        rw [room_snoc, nextRoom_named hk]
        exact Nat.le_refl _
  blank := by
    intro p hp hz he
    exfalso
    cases p with
    | base p =>
      have := BPath.exists_room (R := R) hp.2 he
      have hz : room N (p.base R) p.keys = 0 := hz
      omega
    | mount p =>
      have hz : p.left R p.keys = 0 := hz
      have he : (p.exists_ L).1 = .ok true := he
      have hl : p.Lasting R := hp.2
      unfold MPath.keys at hz
      unfold MPath.exists_ at he
      cases hm : p.part with
      | none =>
        rw [hm] at hz
        simp only [MPath.left] at hz
        omega
      | some m =>
        rw [hm] at hz he
        have := BPath.exists_room (R := R) (hl.sub m) he
        have hz : room N ((p.sub m).base R) (p.sub m).keys = 0 := hz
        omega
  value := by
    intro p v al hp hb hv
    rw [native_size R hb]
    cases p with
    | base p =>
      have := BPath.value_room (R := R) hp.2 hb hv
      show _ ≤ max (room N (p.base R) p.keys) 1
      omega
    | mount p =>
      have hl : p.Lasting R := hp.2
      have hv : (p.value L).1 = .ok v := hv
      show _ ≤ max (p.left R p.keys) 1
      unfold MPath.value at hv
      unfold MPath.keys
      cases hm : p.part with
      | none =>
        rw [hm] at hv
        cases hv
        cases hb
      | some m =>
        rw [hm] at hv
        have := BPath.value_room (R := R) (hl.sub m) hb hv
        show _ ≤ max (room N ((p.sub m).base R) (p.sub m).keys) 1
        omega
  join := by
    intro p q hp hq
    exact Nat.le_of_eq (join_lasting hp.2 hq).2
  empty := by
    rw [native_size R rfl]
    exact R.empty

end Path
end Pilo
