import Verif.Source.RoomPath

/-!
# The height of data

The height of a value is a `Rank`: what is in a container is less high than the container.
-/

namespace Pilo

mutual
/-- The number of containers inside each other; functions and objects have the height given. -/
def Val.height (fn ob : Nat → Nat) : Val → Nat
  | .list xs => 1 + Val.heightAll fn ob xs
  | .tuple xs => 1 + Val.heightAll fn ob xs
  | .dict kvs => 1 + Val.heightVals fn ob kvs
  | .func i => 1 + fn i
  | .obj i => 1 + ob i
  | _ => 1
def Val.heightAll (fn ob : Nat → Nat) : List Val → Nat
  | [] => 0
  | v :: vs => max (Val.height fn ob v) (Val.heightAll fn ob vs)
def Val.heightVals (fn ob : Nat → Nat) : List (Val × Val) → Nat
  | [] => 0
  | (_, v) :: kvs => max (Val.height fn ob v) (Val.heightVals fn ob kvs)
end

section
variable {fn ob : Nat → Nat}

theorem Val.height_pos (v : Val) : 1 ≤ v.height fn ob := by cases v <;> simp [Val.height]

theorem Val.height_mem {v : Val} : ∀ {xs : List Val}, v ∈ xs → v.height fn ob ≤ Val.heightAll fn ob xs := by
  intro xs
  induction xs with
  | nil => intro h; cases h
  | cons x xs ih =>
    intro h
    simp only [Val.heightAll]
    rcases List.mem_cons.1 h with rfl | h
    · omega
    · have := ih h; omega

theorem Val.height_val {p : Val × Val} : ∀ {kvs : List (Val × Val)}, p ∈ kvs →
    p.2.height fn ob ≤ Val.heightVals fn ob kvs := by
  intro kvs
  induction kvs with
  | nil => intro h; cases h
  | cons x kvs ih =>
    intro h
    obtain ⟨k, v⟩ := x
    simp only [Val.heightVals]
    rcases List.mem_cons.1 h with rfl | h
    · dsimp only; omega
    · have := ih h; omega

theorem Val.heightVals_texts : ∀ {kvs : List (Val × Val)}, (∀ p ∈ kvs, p.2.isStr = true) →
    Val.heightVals fn ob kvs ≤ 1 := by
  intro kvs
  induction kvs with
  | nil => intro _; simp [Val.heightVals]
  | cons x kvs ih =>
    intro h
    obtain ⟨k, v⟩ := x
    have h1 := ih fun p hp => h p (by simp [hp])
    have h2 : v.isStr = true := h (k, v) (by simp)
    have h3 : v.height fn ob = 1 := by cases v <;> first | rfl | cases h2
    simp only [Val.heightVals]
    omega

end

/-- Heights of functions and objects under which the runtime gives nothing higher: what an attribute of a value is, and
what a function returns, is no higher than the value or function, and an attribute that is a name is lower. -/
structure Heights (L : Lib) (N : String → Bool) where
  fn : Nat → Nat
  ob : Nat → Nat
  /-- the containers of `pilo/source` that are no data -/
  inner : ∀ i, i ≤ 2 → ob i = 0
  /-- the sentinels have an attribute `name` (`pilo/__init__.py:22-26`) -/
  name : N "name" = false
  attr : ∀ {v s w}, L.attrs v s = some w → w.isNONE = false → w.height fn ob ≤ v.height fn ob
  attrN : ∀ {v s w}, N s = true → L.attrs v s = some w → w.isNONE = false → w.height fn ob < v.height fn ob
  call : ∀ {i w}, L.call i = .ok w → w.isNONE = false → w.height fn ob ≤ 1 + fn i

variable {L : Lib} {N : String → Bool} (H : Heights L N)

/-- The height of a value. -/
def Heights.rank : Rank L N where
  of := Val.height H.fn H.ob
  pos := Val.height_pos
  none := Nat.le_refl _
  str _ := Nat.le_refl _
  int _ := Nat.le_refl _
  float _ := Nat.le_refl _
  bool _ := Nat.le_refl _
  inner i hi := by simp [Val.height, H.inner i hi]
  full := by
    intro kvs h
    cases kvs with
    | nil => exact absurd rfl h
    | cons x kvs =>
      obtain ⟨k, v⟩ := x
      simp only [Val.height, Val.heightVals]
      have := Val.height_pos (fn := H.fn) (ob := H.ob) v
      omega
  texts := by
    intro kvs h
    have := Val.heightVals_texts (fn := H.fn) (ob := H.ob) h
    simp only [Val.height]
    omega
  empty := Nat.le_refl _
  item := by
    intro c k w h _ hc
    cases c with
    | dict kvs =>
      simp only [getItem] at h
      split at h
      · cases hd : dictGet? kvs k with
        | none => rw [hd] at h; cases h
        | some v =>
          rw [hd] at h
          cases h
          unfold dictGet? at hd
          cases hf : kvs.find? (fun p => k.pyEq p.1) with
          | none => rw [hf] at hd; cases hd
          | some p =>
            rw [hf] at hd
            cases hd
            have := Val.height_val (fn := H.fn) (ob := H.ob) (List.mem_of_find?_eq_some hf)
            simp only [Val.height]
            omega
      · cases h
    | list xs =>
      simp only [getItem] at h
      cases hi : k.index? with
      | none => rw [hi] at h; cases h
      | some i =>
        rw [hi] at h
        dsimp only at h
        cases hx : seqGet? xs i with
        | none => rw [hx] at h; cases h
        | some x =>
          rw [hx] at h
          cases h
          have : w ∈ xs := by
            unfold seqGet? at hx
            split at hx
            · exact List.mem_of_getElem? hx
            · split at hx
              · exact List.mem_of_getElem? hx
              · cases hx
          have := Val.height_mem (fn := H.fn) (ob := H.ob) this
          simp only [Val.height]
          omega
    | tuple xs =>
      simp only [getItem] at h
      cases hi : k.index? with
      | none => rw [hi] at h; cases h
      | some i =>
        rw [hi] at h
        dsimp only at h
        cases hx : seqGet? xs i with
        | none => rw [hx] at h; cases h
        | some x =>
          rw [hx] at h
          cases h
          have : w ∈ xs := by
            unfold seqGet? at hx
            split at hx
            · exact List.mem_of_getElem? hx
            · split at hx
              · exact List.mem_of_getElem? hx
              · cases hx
          have := Val.height_mem (fn := H.fn) (ob := H.ob) this
          simp only [Val.height]
          omega
    | str s => cases hc
    | _ => cases h
  attr := by
    intro c s w h hw
    unfold pyGetAttr at h
    split at h
    · split at h
      · cases h; exact Nat.le_refl _
      · exact H.attr h hw
    · exact H.attr h hw
  attrN := by
    intro c s w hs h hw
    unfold pyGetAttr at h
    split at h
    · split at h
      · rename_i he
        rw [he, H.name] at hs
        cases hs
      · exact H.attrN hs h hw
    · exact H.attrN hs h hw
  call := by
    intro i w h hw
    exact H.call h hw

end Pilo
