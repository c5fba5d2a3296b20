import Verif.Source.Room

/-!
# The room of union paths

A union has as much room as the child with the most.
-/

namespace Pilo

variable {L : Lib} {N : String → Bool} (R : Rank L N)

/-- The largest of the numbers. -/
def most (bs : List Nat) : Nat := bs.foldr max 0

theorem le_most {b : Nat} : ∀ {bs : List Nat}, b ∈ bs → b ≤ most bs := by
  intro bs
  induction bs with
  | nil => intro h; cases h
  | cons c bs ih =>
    intro h
    show b ≤ max c (most bs)
    rcases List.mem_cons.1 h with rfl | h
    · omega
    · have := ih h; omega

/-- The children of a union path: each has its room, has no aliases and is at the same names. -/
structure KidsIn (bs : List Nat) (ks : List Val) (kids : List SPath) : Prop where
  bases : kids.map (SPath.base R) = bs
  each : ∀ c ∈ kids, c.Lasting R ∧ c.Unaliased ∧ c.keys.map (named N) = ks.map (named N)

/-- A read that leaves the child where it is. -/
def Stays {α : Type} (f : SPath → Except Exc α × SPath) : Prop :=
  ∀ p : SPath, p.Lasting R → p.Unaliased →
    (f p).2.Lasting R ∧ (f p).2.Unaliased ∧ (f p).2.base R = p.base R ∧ (f p).2.keys = p.keys

theorem stays_withValue {α : Type} (a : DefaultCfg → List Val → Val → Except Exc α) (b : Bool → Val → Except Exc α)
    (c : ConfigCfg → List Val → CfgVal → Except Exc α) : Stays R (fun p => p.withValue L a b c) := by
  intro p hp hu
  have := SPath.withValue_lasting R hp a b c
  exact ⟨this.1, SPath.withValue_unaliased hu a b c, this.2.1, SPath.withValue_keys L p a b c⟩

namespace KidsIn
variable {R} {bs : List Nat} {ks : List Val} {kids : List SPath}

theorem room_le {c : SPath} (h : KidsIn R bs ks kids) (hc : c ∈ kids) :
    room N (c.base R) c.keys ≤ room N (most bs) ks := by
  rw [room_congr (h.each c hc).2.2]
  refine room_mono N ks (le_most ?_)
  rw [← h.bases]
  exact List.mem_map_of_mem hc

theorem set {c c' : SPath} {i : Nat} (h : KidsIn R bs ks kids) (hi : kids[i]? = some c) (h1 : c'.Lasting R)
    (h2 : c'.Unaliased) (h3 : c'.base R = c.base R) (h4 : c'.keys.map (named N) = c.keys.map (named N)) :
    KidsIn R bs ks (kids.set i c') := by
  have hm : c ∈ kids := List.mem_of_getElem? hi
  refine ⟨?_, ?_⟩
  · rw [List.map_set, h3, ← h.bases]
    apply List.ext_getElem?
    intro j
    by_cases hj : i = j
    · subst hj
      rw [List.getElem?_set]
      have hl : i < kids.length := by
        rcases Nat.lt_or_ge i kids.length with h | h
        · exact h
        · rw [List.getElem?_eq_none h] at hi; cases hi
      simp [hl]
      rw [List.getElem?_eq_getElem hl] at hi
      cases hi
      rfl
    · simp [hj]
  · intro x hx
    rcases List.mem_or_eq_of_mem_set hx with hx | rfl
    · exact h.each x hx
    · exact ⟨h1, h2, h4.trans (h.each c hm).2.2⟩

theorem onChild {α : Type} {f : SPath → Except Exc α × SPath} (h : KidsIn R bs ks kids) (hf : Stays R f) (i : Nat) :
    KidsIn R bs ks (onChild kids i f).2 ∧
    ∀ x, (onChild kids i f).1 = .ok x → ∃ c ∈ kids, (f c).1 = .ok x := by
  unfold Pilo.onChild
  cases hi : kids[i]? with
  | none => exact ⟨h, by intro x hx; cases hx⟩
  | some c =>
    have hm : c ∈ kids := List.mem_of_getElem? hi
    obtain ⟨h1, h2, h3, h4⟩ := hf c (h.each c hm).1 (h.each c hm).2.1
    exact ⟨h.set hi h1 h2 h3 (by rw [h4]), fun x hx => ⟨c, hm, hx⟩⟩

/-- Every key that is listed leads somewhere. -/
def Listed (z : Nat) (ms : List (Nat × List Val)) : Prop := ∀ m ∈ ms, ∀ k ∈ m.2, 2 ≤ z

theorem listed_snoc {z : Nat} {ms : List (Nat × List Val)} {m : Nat × List Val} (h : Listed z ms)
    (hm : ∀ k ∈ m.2, 2 ≤ z) : Listed z (ms ++ [m]) := by
  intro x hx
  rcases List.mem_append.1 hx with hx | hx
  · exact h x hx
  · rw [List.mem_singleton.1 hx]; exact hm

theorem mappingLoop {m : Merge} (cs : List Nat) : ∀ (acc : List (Nat × List Val)) {kids : List SPath},
    KidsIn R bs ks kids → Listed (room N (most bs) ks) acc →
    KidsIn R bs ks (mappingLoop L m cs acc kids).2 ∧
    ∀ ms, (Pilo.mappingLoop L m cs acc kids).1 = .ok ms → Listed (room N (most bs) ks) ms := by
  induction cs with
  | nil =>
    intro acc kids h ha
    exact ⟨h, by intro ms hms; cases hms; exact ha⟩
  | cons i cs ih =>
    intro acc kids h ha
    have h1 := (h.onChild (f := SPath.exists_ L) (stays_withValue R _ _ _) i).1
    have bad : ∀ {e : Exc} {kids' : List SPath}, KidsIn R bs ks kids' →
        KidsIn R bs ks ((.error e, kids') : Except Exc (List (Nat × List Val)) × List SPath).2 ∧
        ∀ ms, ((.error e, kids') : Except Exc (List (Nat × List Val)) × List SPath).1 = .ok ms →
          Listed (room N (most bs) ks) ms := fun h => ⟨h, by intro ms hms; cases hms⟩
    unfold Pilo.mappingLoop
    split
    · rename_i heq; rw [heq] at h1; exact bad h1
    · rename_i heq; rw [heq] at h1; exact ih _ h1 ha
    · rename_i kids' heq; rw [heq] at h1
      have h2 := (KidsIn.onChild (f := SPath.isNull L) h1 (stays_withValue R _ _ _) i).1
      split
      · rename_i heq; rw [heq] at h2; exact bad h2
      · rename_i b kids2 heq; rw [heq] at h2
        obtain ⟨h3, h4⟩ := KidsIn.onChild (f := SPath.mapping L) h2 (stays_withValue R _ _ _) i
        have hl : ∀ kv, (Pilo.onChild kids2 i (SPath.mapping L)).1 = .ok kv → ∀ k ∈ kv.ks, 2 ≤ room N (most bs) ks := by
          intro kv hkv k hk
          obtain ⟨c, hc, hv⟩ := h4 kv hkv
          have := SPath.mapping_room R (h2.each c hc).1 (h2.each c hc).2.1 hv hk
          have := h2.room_le hc
          omega
        split
        · split
          · exact ⟨h2, by intro ms hms; cases hms; exact ha⟩
          · split
            · rename_i heq; rw [heq] at h3; exact bad h3
            · rename_i kv _ heq; rw [heq] at h3 hl
              exact ⟨h3, by intro ms hms; cases hms; exact listed_snoc ha (hl kv rfl)⟩
        · split
          · exact ih _ h2 ha
          · split
            · rename_i heq; rw [heq] at h3; exact bad h3
            · rename_i kv _ heq; rw [heq] at h3 hl
              have h5 := listed_snoc (m := (i, kv.ks)) ha (hl kv rfl)
              split
              · exact ih _ h3 h5
              · split
                · exact ih _ h3 h5
                · split
                  · exact ih _ h3 (by
                      intro x hx; rw [List.mem_singleton.1 hx]; exact hl kv rfl)
                  · exact ih _ h3 ha

theorem mkMapping (h : KidsIn R bs ks kids) (cfg : UnionCfg) (m : Option Merge) (cs : List Nat) :
    KidsIn R bs ks (mkMapping L cfg m cs kids).2 ∧
    ∀ ms, (Pilo.mkMapping L cfg m cs kids).1 = .ok ms → Listed (room N (most bs) ks) ms := by
  unfold Pilo.mkMapping
  simp only
  split
  · exact ⟨h, by intro ms hms; cases hms⟩
  · exact mappingLoop cs [] h (by intro x hx; cases hx)

theorem sequenceLoop (cfg : UnionCfg) (cs : List Nat) : ∀ (m : Option Merge) (acc : List (Nat × Nat))
    {kids : List SPath}, KidsIn R bs ks kids → KidsIn R bs ks (sequenceLoop L cfg cs m acc kids).2 := by
  induction cs with
  | nil => intro m acc kids h; exact h
  | cons i cs ih =>
    intro m acc kids h
    have h1 := (h.onChild (f := SPath.exists_ L) (stays_withValue R _ _ _) i).1
    unfold Pilo.sequenceLoop
    split
    · rename_i heq; rw [heq] at h1; exact h1
    · rename_i heq; rw [heq] at h1; exact ih _ _ h1
    · rename_i kids' heq; rw [heq] at h1
      have h2 := (KidsIn.onChild (f := SPath.isNull L) h1 (stays_withValue R _ _ _) i).1
      split
      · rename_i heq; rw [heq] at h2; exact h2
      · rename_i heq; rw [heq] at h2; exact ih _ _ h2
      · rename_i kids2 heq; rw [heq] at h2
        have h3 := (KidsIn.onChild (f := SPath.sequence L) h2 (stays_withValue R _ _ _) i).1
        split
        · rename_i heq; rw [heq] at h3; exact h3
        · rename_i heq; rw [heq] at h3
          split
          · exact ih _ _ h3
          · dsimp only
            split
            · exact ih _ _ h3
            · exact ih _ _ h3
            · exact ih _ _ h3
            · exact h3

end KidsIn

namespace UPath

/-- What is left to read at the root of the union. -/
def bases (p : UPath) : List Nat := p.kids.map (SPath.base R)

/-- A container met while resolving has at most the room that is left. -/
def okU (b : Nat) (ks : List Val) : UVal → Prop
  | .join _ => 1 ≤ room N b ks
  | .mapping ms => 1 ≤ room N b ks ∧ KidsIn.Listed (room N b ks) ms
  | .seq _ => 1 ≤ room N b ks
  | .val v => v.isNONE = true ∨ R.of v ≤ room N b ks

/-- Everything cached has at most the room that is left. -/
structure Lasting (p : UPath) : Prop where
  some : p.kids ≠ []
  kids : KidsIn R (p.bases R) p.keys p.kids
  st : PathSt.Lasts (okU R (most (p.bases R))) p.st

theorem uval_steps (bs : List Nat) (ks : List Val) :
    PathSt.Steps (okU R (most bs)) (KidsIn R bs ks) (fun _ kids c k => resolveUnion c k kids) where
  state := by
    intro keys kids c k h
    have hg : KidsIn R bs ks (unionGet c k kids).2 := by
      unfold unionGet
      split
      · exact h
      · unfold seqGet
        split
        · exact h
        · split
          · exact h
          · split
            · exact h
            · rename_i p hp
              have hm := List.mem_of_getElem? hp
              obtain ⟨h1, h2, h3⟩ := SPath.shiftLast_lasting R (h.each p hm).1 _
              split
              · refine h.set hp h1 ?_ h2 h3
                have := (h.each p hm).2.1
                cases p with
                | dflt cfg st => exact this
                | json s l st => trivial
                | config cfg st => trivial
              · exact h
      · exact h
      · split <;> exact h
    unfold resolveUnion
    split <;> (rename_i heq; rw [heq] at hg; exact hg)
  value := by
    intro keys pre post kids c k w hk _ hc hw
    unfold resolveUnion at hw
    cases hg : unionGet c k kids with
    | mk r kids' =>
    rw [hg] at hw
    cases r with
    | error e => cases hw; exact .inl rfl
    | ok v =>
      cases hw
      have hroom := fun b => room_snoc N b pre k
      cases c with
      | join cs => cases hg
      | mapping ms =>
        simp only [unionGet, mappingGet, Prod.mk.injEq] at hg
        obtain ⟨hg, -⟩ := hg
        have hj : ∃ cs, w = .join cs ∧ ∃ m ∈ ms, k.inList m.2 = true := by
          cases hf : ms.filter (fun m => k.inList m.2) with
          | nil => rw [hf] at hg; cases hg
          | cons m rest =>
            rw [hf] at hg
            cases hg
            have : m ∈ ms.filter (fun m => k.inList m.2) := by rw [hf]; simp
            exact ⟨_, rfl, m, (List.mem_filter.1 this).1, (List.mem_filter.1 this).2⟩
        obtain ⟨cs, rfl, m, hm, hin⟩ := hj
        have hne : ∃ k', k' ∈ m.2 := by
          cases h2 : m.2 with
          | nil => rw [h2] at hin; cases hin
          | cons x xs => exact ⟨x, by simp⟩
        obtain ⟨k', hk'⟩ := hne
        have h2 := hc.2 m hm k' hk'
        show 1 ≤ room N _ (pre ++ [k])
        rw [hroom]
        unfold nextRoom
        split <;> omega
      | seq ss =>
        have hn : named N k = false := by
          cases k with
          | str s => cases hg
          | _ => rfl
        have hj : ∃ cs, w = .join cs := by
          simp only [unionGet, seqGet] at hg
          repeat' split at hg
          all_goals first | (cases hg; exact ⟨_, rfl⟩) | cases hg
        obtain ⟨cs, rfl⟩ := hj
        show 1 ≤ room N _ (pre ++ [k])
        rw [hroom, nextRoom_other hn]
        omega
      | val v =>
        have hj : ∃ x, w = .val x ∧ getItem v k = .ok x := by
          simp only [unionGet] at hg
          split at hg
          · rename_i heq; cases hg; exact ⟨_, rfl, heq⟩
          · cases hg
        obtain ⟨x, rfl, hx⟩ := hj
        show x.isNONE = true ∨ R.of x ≤ room N _ (pre ++ [k])
        cases hxn : x.isNONE with
        | true => exact .inl rfl
        | false =>
          right
          rw [hroom]
          have h1 := R.getItem_le hx hxn
          have hp := R.pos x
          have hv : R.of v ≤ max 1 (room N (most bs) pre) := by
            rcases hc with h | h
            · have := SPath.none_le R h; omega
            · omega
          cases hnm : named N k with
          | false => rw [nextRoom_other hnm]; omega
          | true =>
            rw [nextRoom_named hnm]
            cases k with
            | str s => have := R.getItem_name hx hxn; omega
            | _ => cases hnm

/-- The same children as far as room goes, and the same keys. -/
structure Steady (p q : UPath) : Prop where
  lasting : q.Lasting R
  bases : q.bases R = p.bases R
  keys : q.keys = p.keys

variable {R}

theorem uvalue_lasting {p : UPath} (h : p.Lasting R) :
    Steady R p p.uvalue.2 ∧ ∀ v, p.uvalue.1 = .ok v → v.isNONE = false → okU R (most (p.bases R)) p.keys v := by
  obtain ⟨h1, h2, h3, h4⟩ := PathSt.value_lasts (isN := UVal.isNONE) (uval_steps R (p.bases R) p.keys) h.kids h.st
  have hk : p.uvalue.2.keys = p.keys := uvalue_keys p
  have hb : p.uvalue.2.bases R = p.bases R := h1.bases
  refine ⟨⟨⟨?_, ?_, ?_⟩, hb, hk⟩, h4⟩
  · intro h0
    have : p.uvalue.2.bases R = [] := by unfold bases; rw [h0]; rfl
    rw [hb] at this
    exact h.some (List.map_eq_nil_iff.1 this)
  · rw [hb, hk]; exact h1
  · rw [hb]; exact h2

theorem Steady.kids {p q : UPath} (h : Steady R p q) {kids : List SPath}
    (hk : KidsIn R (q.bases R) q.keys kids) : Steady R p { q with kids := kids } := by
  have hb : ({ q with kids := kids } : UPath).bases R = q.bases R := hk.bases
  refine ⟨⟨?_, ?_, ?_⟩, hb.trans h.bases, h.keys⟩
  · intro h0
    have h0 : kids = [] := h0
    have := hk.bases
    rw [h0] at this
    exact h.lasting.some (List.map_eq_nil_iff.1 this.symm)
  · rw [hb]; exact hk
  · rw [hb]; exact h.lasting.st

theorem Steady.setv {p q : UPath} (h : Steady R p q) {v : UVal} (hv : okU R (most (q.bases R)) q.keys v) :
    Steady R p { q with st := q.st.setValue v } := by
  have hkeys : ({ q with st := q.st.setValue v } : UPath).keys = q.keys := PathSt.setValue_keys ..
  refine ⟨⟨h.lasting.some, ?_, h.lasting.st.setValue hv⟩, h.bases, hkeys.trans h.keys⟩
  rw [hkeys]; exact h.lasting.kids

theorem Steady.setKids {p q : UPath} (h : Steady R p q) {v : UVal} {kids : List SPath}
    (hv : okU R (most (q.bases R)) q.keys v)
    (hk : KidsIn R (q.bases R) q.keys kids) : Steady R p { q with st := q.st.setValue v, kids := kids } := by
  have h1 := h.kids hk
  have hb : ({ q with kids := kids } : UPath).bases R = q.bases R := hk.bases
  exact h1.setv (v := v) (by rw [hb]; exact hv)

theorem value_lasting {p : UPath} (h : p.Lasting R) : Steady R p p.value.2 := by
  have := (uvalue_lasting h).1
  unfold value
  split <;> (rename_i heq; rw [heq] at this; exact this)

theorem exists_lasting {p : UPath} (h : p.Lasting R) : Steady R p p.exists_.2 := by
  have := (uvalue_lasting h).1
  unfold exists_
  split <;> (rename_i heq; rw [heq] at this; exact this)

theorem isNull_lasting {p : UPath} (h : p.Lasting R) : Steady R p p.isNull.2 := by
  have := (uvalue_lasting h).1
  unfold isNull
  split <;> (rename_i heq; rw [heq] at this; exact this)

theorem mapping_lasting {p : UPath} (h : p.Lasting R) : Steady R p (p.mapping L).2 := by
  have hu := uvalue_lasting h
  unfold mapping
  split
  · rename_i heq; rw [heq] at hu; exact hu.1
  · rename_i cs q heq; rw [heq] at hu
    have hv := hu.2 _ rfl rfl
    obtain ⟨hm, hl⟩ := KidsIn.mkMapping (L := L) hu.1.lasting.kids q.cfg none cs
    split
    · rename_i heq; rw [heq] at hm; exact hu.1.kids hm
    · rename_i ms _ heq; rw [heq] at hm hl
      refine hu.1.setKids ⟨?_, hl ms rfl⟩ hm
      rw [hu.1.bases, hu.1.keys]; exact hv
  · rename_i heq; rw [heq] at hu; exact hu.1
  · rename_i heq; rw [heq] at hu; exact hu.1

theorem sequence_lasting {p : UPath} (h : p.Lasting R) : Steady R p (p.sequence L).2 := by
  have hu := uvalue_lasting h
  unfold sequence
  split
  · rename_i heq; rw [heq] at hu; exact hu.1
  · rename_i cs q heq; rw [heq] at hu
    have hv := hu.2 _ rfl rfl
    have hm := KidsIn.sequenceLoop (L := L) q.cfg cs none [] hu.1.lasting.kids
    split
    · rename_i heq; rw [heq] at hm; exact hu.1.kids hm
    · rename_i heq; rw [heq] at hm
      refine hu.1.setKids ?_ hm
      show 1 ≤ _
      rw [hu.1.bases, hu.1.keys]; exact hv
  · rename_i heq; rw [heq] at hu; exact hu.1
  · rename_i heq; rw [heq] at hu; exact hu.1

theorem primitive_lasting (ty : PTy) {p : UPath} (h : p.Lasting R) : Steady R p (p.primitive L ty).2 := by
  have hu := uvalue_lasting h
  unfold primitive
  split
  · rename_i heq; rw [heq] at hu; exact hu.1
  · rename_i cs q heq; rw [heq] at hu
    have hv := hu.2 _ rfl rfl
    split
    · exact hu.1.setv (.inl rfl)
    · rename_i c _
      have hin := hu.1.lasting.kids
      obtain ⟨hm, hl⟩ := hin.onChild (f := SPath.primitive L ty) (stays_withValue R _ _ _) c
      split
      · rename_i heq; rw [heq] at hm; exact hu.1.kids hm
      · rename_i v _ heq; rw [heq] at hm hl
        refine hu.1.setKids ?_ hm
        obtain ⟨x, hx, hxv⟩ := hl v rfl
        have h1 : _ ≤ room N (most (q.bases R)) q.keys := hin.room_le hx
        have hv' : 1 ≤ room N (most (q.bases R)) q.keys := by rw [hu.1.bases, hu.1.keys]; exact hv
        rcases SPath.primitive_room R (hin.each x hx).1 hxv with h | h
        · exact .inl h
        · right
          show R.of v ≤ room N (most (q.bases R)) q.keys
          omega
  · rename_i heq; rw [heq] at hu; exact hu.1

theorem append_lasting {p : UPath} (h : p.Lasting R) (k : Val) :
    (p.append k).Lasting R ∧ (p.append k).bases R = p.bases R := by
  have hb : (p.append k).bases R = p.bases R := by
    unfold bases append
    rw [List.map_map]
    exact List.map_congr_left fun c hc => (SPath.append_lasting R (h.kids.each c hc).1 k).2
  refine ⟨⟨?_, ?_, ?_⟩, hb⟩
  · intro h0
    exact h.some (List.map_eq_nil_iff.1 h0)
  · refine ⟨rfl, ?_⟩
    intro c hc
    simp only [append, List.mem_map] at hc
    obtain ⟨c', hc', rfl⟩ := hc
    obtain ⟨h1, h2, h3⟩ := h.kids.each c' hc'
    refine ⟨(SPath.append_lasting R h1 k).1, ?_, ?_⟩
    · cases c' with
      | dflt cfg st => exact h2
      | json s l st => trivial
      | config cfg st => trivial
    · rw [SPath.keys_append, append_keys]
      simp [h3]
  · rw [hb]; exact h.st.append k

theorem popAll_lasting {ks : List Val} {k : Val} : ∀ {kids kids' : List SPath},
    (∀ c ∈ kids, c.Lasting R ∧ c.Unaliased ∧ c.keys.map (named N) = (ks ++ [k]).map (named N)) →
    popAll kids = .ok kids' →
    kids'.map (SPath.base R) = kids.map (SPath.base R) ∧
    ∀ c ∈ kids', c.Lasting R ∧ c.Unaliased ∧ c.keys.map (named N) = ks.map (named N) := by
  intro kids
  induction kids with
  | nil => intro kids' _ h; cases h; exact ⟨rfl, by intro c hc; cases hc⟩
  | cons c cs ih =>
    intro kids' hin h
    simp only [popAll] at h
    cases hp : c.pop with
    | error e => rw [hp] at h; cases h
    | ok c' =>
      rw [hp] at h
      dsimp only at h
      cases hr : popAll cs with
      | error e => rw [hr] at h; cases h
      | ok cs' =>
        rw [hr] at h
        cases h
        obtain ⟨i1, i2⟩ := ih (fun x hx => hin x (List.mem_cons_of_mem _ hx)) hr
        obtain ⟨j1, j2, j3⟩ := hin c (by simp)
        obtain ⟨l1, l2⟩ := SPath.pop_lasting R j1 hp
        refine ⟨by simp [i1, l2], ?_⟩
        intro x hx
        rcases List.mem_cons.1 hx with rfl | hx
        · refine ⟨l1, ?_, ?_⟩
          · cases c with
            | dflt cfg st =>
              simp only [SPath.pop] at hp
              cases hs : st.pop with
              | error e => rw [hs] at hp; cases hp
              | ok st' => rw [hs] at hp; cases hp; exact j2
            | json s l st =>
              simp only [SPath.pop] at hp
              cases hs : st.pop with
              | error e => rw [hs] at hp; cases hp
              | ok st' => rw [hs] at hp; cases hp; trivial
            | config cfg st =>
              simp only [SPath.pop] at hp
              cases hs : st.pop with
              | error e => rw [hs] at hp; cases hp
              | ok st' => rw [hs] at hp; cases hp; trivial
          · have hne : c.keys ≠ [] := by
              intro h0; rw [h0] at j3; simp at j3
            have hc : c.keys = c.keys.dropLast ++ [c.keys.getLast hne] := (List.dropLast_concat_getLast hne).symm
            obtain ⟨q, hq, hk, _⟩ := SPath.pop_keys (p := c) hc
            rw [hp] at hq
            cases hq
            rw [hk]
            rw [hc] at j3
            simp only [List.map_append, List.map_cons, List.map_nil] at j3
            exact (List.append_inj' j3 rfl).1
        · exact i2 x hx

theorem pop_lasting {p q : UPath} (h : p.Lasting R) (hq : p.pop = .ok q) :
    q.Lasting R ∧ q.bases R = p.bases R := by
  unfold pop at hq
  cases hs : p.st.pop with
  | error e => rw [hs] at hq; cases hq
  | ok st' =>
    rw [hs] at hq
    dsimp only at hq
    cases hr : popAll p.kids with
    | error e => rw [hr] at hq; cases hq
    | ok kids' =>
      rw [hr] at hq
      cases hq
      obtain ⟨h1, h2⟩ := PathSt.Lasts.pop h.st hs
      have hne : p.keys ≠ [] := by
        intro h0
        unfold keys PathSt.keys at h0
        have h0 := List.map_eq_nil_iff.1 h0
        unfold PathSt.pop at hs
        rw [h0] at hs
        cases hs
      have hk : p.keys = p.keys.dropLast ++ [p.keys.getLast hne] := (List.dropLast_concat_getLast hne).symm
      obtain ⟨st2, g1, g2, -⟩ := PathSt.pop_keys (p := p.st) hk
      rw [hs] at g1
      cases g1
      have heach := h.kids.each
      rw [hk] at heach
      obtain ⟨i1, i2⟩ := popAll_lasting (R := R) heach hr
      have hb : ({ p with st := st', kids := kids' } : UPath).bases R = p.bases R := i1
      refine ⟨⟨?_, ?_, ?_⟩, hb⟩
      · intro h0
        have h0 : kids' = [] := h0
        rw [h0] at i1
        exact h.some (List.map_eq_nil_iff.1 i1.symm)
      · refine ⟨rfl, ?_⟩
        show ∀ c ∈ kids', _ ∧ _ ∧ _ = st'.keys.map (named N)
        rw [g2]
        exact i2
      · rw [hb]; exact h1

theorem most_pos {p : UPath} (h : p.kids ≠ []) : 1 ≤ most (p.bases R) := by
  cases hk : p.kids with
  | nil => exact absurd hk h
  | cons c cs =>
    refine Nat.le_trans (SPath.base_pos R c) (le_most ?_)
    unfold bases
    rw [hk]
    simp

theorem joinPath_lasting {p q : UPath} (h : p.Lasting R) (hq : p.joinPath L = some (.ok q)) :
    q.Lasting R ∧ q.bases R = p.bases R ∧ q.keys.map (named N) = p.keys.map (named N) := by
  have hu := uvalue_lasting h
  unfold joinPath at hq
  split at hq
  · rename_i cs r heq; rw [heq] at hu
    have hv := hu.2 _ rfl rfl
    obtain ⟨hm, hl⟩ := KidsIn.mkMapping (L := L) hu.1.lasting.kids r.cfg none cs
    split at hq
    · simp at hq
    · rename_i ms kids heq2; rw [heq2] at hm hl
      simp only [Option.some.injEq] at hq
      split at hq
      · simp at hq
      · rename_i hne
        simp only [Except.ok.injEq] at hq
        have hk : (PathSt.setValue { root := UVal.mapping ms, parts := (prefixKeys cs kids).map Part.ofKey }
            (UVal.join cs)).keys = prefixKeys cs kids := by
          rw [PathSt.setValue_keys]
          simp [PathSt.keys, Part.ofKey, Function.comp_def]
        have hpre : (prefixKeys cs kids).map (named N) = r.keys.map (named N) := by
          unfold prefixKeys at hne ⊢
          split
          · simp at hne
          · split
            · rename_i hp; exact (hm.each _ (List.mem_of_getElem? hp)).2.2
            · rename_i hp; simp [hp] at hne
        have hb : q.bases R = r.bases R := by rw [← hq]; exact hm.bases
        have hqk : q.keys.map (named N) = r.keys.map (named N) := by
          rw [← hq]
          exact (congrArg (List.map (named N)) hk).trans hpre
        have hpos := most_pos (R := R) hu.1.lasting.some
        refine ⟨⟨?_, ?_, ?_⟩, hb.trans hu.1.bases, hqk.trans (congrArg _ hu.1.keys)⟩
        · intro h0
          have : q.bases R = [] := by unfold bases; rw [h0]; rfl
          rw [hb] at this
          exact hu.1.lasting.some (List.map_eq_nil_iff.1 this)
        · rw [hb]
          subst hq
          exact ⟨hm.bases, fun c hc => ⟨(hm.each c hc).1, (hm.each c hc).2.1, (hm.each c hc).2.2.trans hqk.symm⟩⟩
        · rw [hb]
          subst hq
          have h1 : KidsIn.Listed (room N (most (r.bases R)) []) ms := by
            intro m hm' k hk
            have h2 : 2 ≤ room N (most (r.bases R)) r.keys := hl ms rfl m hm' k hk
            have h3 := room_le N r.keys (most (r.bases R))
            show 2 ≤ most (r.bases R)
            omega
          have h2 : PathSt.Caches (okU R (most (r.bases R))) ((prefixKeys cs kids).map (Part.ofKey (C := UVal))) := by
            intro pre y post w he hc
            have : y ∈ (prefixKeys cs kids).map (Part.ofKey (C := UVal)) := by rw [he]; simp
            obtain ⟨z, -, rfl⟩ := List.mem_map.1 this
            cases hc
          have h3 : PathSt.keys { root := UVal.mapping ms, parts := (prefixKeys cs kids).map Part.ofKey } = prefixKeys cs kids := by
            simp [PathSt.keys, Part.ofKey, Function.comp_def]
          have h4 : okU R (most (r.bases R)) r.keys (.join cs) := by
            have e1 : r.keys = p.keys := hu.1.keys
            have e2 : r.bases R = p.bases R := hu.1.bases
            rw [e1, e2]; exact hv
          refine PathSt.Lasts.setValue (p := { root := UVal.mapping ms, parts := (prefixKeys cs kids).map Part.ofKey })
            ⟨⟨hpos, h1⟩, h2⟩ ?_
          rw [h3]
          show 1 ≤ room N (most (r.bases R)) (prefixKeys cs kids)
          rw [room_congr hpre]
          exact h4
  · simp at hq

end UPath
end Pilo
