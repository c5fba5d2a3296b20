import Verif.Lone
import Verif.LexEval
import Verif.View

/-!
# Fields without sub forms do not depend on the classes, nor on how deep recursion may go
-/

namespace Pilo
variable {P : Type} {I : PathOps P} {L : Lib} {C C' : Classes} {rec rec' : Rec P}

/-- A hook-free field without sub forms and key filters, nested at most `n` deep. -/
def Level : Nat → Field → Prop
  | 0, _ => False
  | n + 1, f => HookFree f ∧ match f.kind with
    | .subform .. => False
    | .poly .. => False
    | .tuple fs => ∀ g ∈ fs, Level n g
    | .list g _ _ _ => Level n g
    | .dict kf vf kfl _ _ => kfl = none ∧ Level n kf ∧ Level n vf
    | .group fs => ∀ x ∈ fs, Level n x.2
    | _ => True

namespace Level

theorem all {n : Nat} : ∀ {f : Field}, Level n f → f.All fun g => HookFree g ∧ Lone.formless g.kind := by
  induction n with
  | zero => intro f h; exact h.elim
  | succ n ih =>
    intro f h
    obtain ⟨c, k⟩ := f
    obtain ⟨hf, hk⟩ := h
    cases k with
    | subform => exact hk.elim
    | poly => exact hk.elim
    | tuple fs => exact .mk ⟨hf, trivial⟩ (.tuple fun g hg => ih (hk g hg))
    | list g => exact .mk ⟨hf, trivial⟩ (.list (ih hk))
    | dict kf vf kfl r m => exact .mk ⟨hf, hk.1⟩ (.dict (ih hk.2.1) (ih hk.2.2))
    | group fs => exact .mk ⟨hf, trivial⟩ (.group fun x hx => ih (hk x hx))
    | base => exact .mk ⟨hf, trivial⟩ .base
    | string => exact .mk ⟨hf, trivial⟩ .string
    | integer => exact .mk ⟨hf, trivial⟩ .integer
    | float => exact .mk ⟨hf, trivial⟩ .float
    | decimal => exact .mk ⟨hf, trivial⟩ .decimal
    | boolean => exact .mk ⟨hf, trivial⟩ .boolean
    | date => exact .mk ⟨hf, trivial⟩ .date
    | time => exact .mk ⟨hf, trivial⟩ .time
    | datetime => exact .mk ⟨hf, trivial⟩ .datetime
    | code => exact .mk ⟨hf, trivial⟩ .code
    | uuid => exact .mk ⟨hf, trivial⟩ .uuid

theorem mono {n m : Nat} : ∀ {f : Field}, Level n f → n ≤ m → Level m f := by
  induction n generalizing m with
  | zero => intro f h; exact h.elim
  | succ n ih =>
    intro f h hm
    obtain ⟨m, rfl⟩ : ∃ m', m = m' + 1 := ⟨m - 1, by omega⟩
    have hm : n ≤ m := by omega
    obtain ⟨c, k⟩ := f
    obtain ⟨hf, hk⟩ := h
    refine ⟨hf, ?_⟩
    cases k with
    | tuple fs => exact fun g hg => ih (hk g hg) hm
    | list g => exact ih (m := m) hk hm
    | dict kf vf kfl r m => exact ⟨hk.1, ih hk.2.1 hm, ih hk.2.2 hm⟩
    | group fs => exact fun g hg => ih (hk g hg) hm
    | _ => exact hk

theorem default_congr {f : Field} (hf : HookFree f) : fieldDefault I L C rec f = fieldDefault I L C' rec' f := by
  unfold fieldDefault
  rcases hf.default with h | ⟨v, h⟩ <;> rw [h]
  cases v with
  | const c => cases c <;> rfl
  | _ => rfl

theorem check_congr {f : Field} (hf : HookFree f) (v : Val) : fieldCheck I L C rec f v = fieldCheck I L C' rec' f v := by
  unfold fieldCheck mungeStep filterStep validateStep
  rw [hf.munge, hf.filter, hf.validate, default_congr (C' := C') (rec' := rec') hf]

theorem tupleLoop_congr (fs : List Field) (h : ∀ g ∈ fs, rec g = rec' g) : ∀ i, tupleLoop I rec i fs = tupleLoop I rec' i fs := by
  induction fs with
  | nil => intro i; rfl
  | cons f fs ih =>
    intro i
    unfold tupleLoop
    rw [h f (by simp), ih (fun g hg => h g (by simp [hg])) (i + 1)]

theorem listLoop_congr {g : Field} (h : rec g = rec' g) (n : Nat) : ∀ i, listLoop I rec g i n = listLoop I rec' g i n := by
  induction n with
  | zero => intro i; rfl
  | succ n ih =>
    intro i
    unfold listLoop
    rw [h, ih]

theorem dictLoop_congr {kf vf : Field} (hk : rec kf = rec' kf) (hv : rec vf = rec' vf) (ks : List Val) :
    ∀ acc, dictLoop I L C rec kf vf none ks acc = dictLoop I L C' rec' kf vf none ks acc := by
  induction ks with
  | nil => intro acc; rfl
  | cons k ks ih =>
    intro acc
    unfold dictLoop keepKey
    dsimp only
    rw [hk, hv]
    simp only [ih]

theorem groupLoop_congr {fs : List (GSrc × Field)} (h : ∀ x ∈ fs, rec x.2 = rec' x.2) (ks : List Val) :
    ∀ b acc, groupLoop I rec fs ks b acc = groupLoop I rec' fs ks b acc := by
  induction ks with
  | nil => intro b acc; rfl
  | cons k ks ih =>
    intro b acc
    unfold groupLoop
    simp only [ih]
    cases hg : groupMatch fs k with
    | error e => rfl
    | ok r =>
      rcases r with _ | ⟨f, cap⟩
      · rfl
      · obtain ⟨g, hm⟩ := groupMatch_mem hg
        have := h _ hm
        dsimp only at this
        funext s
        show (M.ofExcept (.ok (some (f, cap))) >>= _) s = (M.ofExcept (.ok (some (f, cap))) >>= _) s
        rw [M.bind_ok (show (M.ofExcept (.ok (some (f, cap))) : M P _) s = (.ok (some (f, cap)), s) from rfl),
          M.bind_ok (show (M.ofExcept (.ok (some (f, cap))) : M P _) s = (.ok (some (f, cap)), s) from rfl)]
        dsimp only
        rw [this]

theorem parse_congr {n : Nat} {f : Field} (h : Level (n + 1) f) (hr : ∀ g, Level n g → rec g = rec' g) :
    kindParse I L C rec f = kindParse I L C' rec' f := by
  have hd := default_congr (I := I) (L := L) (C := C) (C' := C') (rec := rec) (rec' := rec') h.1
  obtain ⟨hf, hk⟩ := h
  unfold kindParse
  generalize hkind : f.kind = k at hk
  cases k with
  | subform => exact hk.elim
  | poly => exact hk.elim
  | tuple fs =>
    dsimp only
    unfold tupleParse
    rw [tupleLoop_congr fs fun g hg => hr g (hk g hg)]
  | list g lo hi a =>
    dsimp only
    unfold listParse
    rw [hr g hk]
    simp only [listLoop_congr (I := I) (hr g hk)]
  | dict kf vf kfl r m =>
    obtain ⟨rfl, h1, h2⟩ := hk
    dsimp only
    unfold dictParse
    rw [hd]
    simp only [dictLoop_congr (I := I) (L := L) (C := C) (C' := C') (hr kf h1) (hr vf h2)]
  | group fs =>
    dsimp only
    unfold groupParse
    rw [hd]
    simp only [groupLoop_congr (I := I) fun x hx => hr x.2 (hk x hx)]
  | _ => rfl

theorem start_congr {n : Nat} {f : Field} (h : Level (n + 1) f) (hr : ∀ g, Level n g → rec g = rec' g) :
    fieldStart I L C rec f = fieldStart I L C' rec' f := by
  have hd := default_congr (I := I) (L := L) (C := C) (C' := C') (rec := rec) (rec' := rec') h.1
  have hp := parse_congr (I := I) (L := L) (C := C) (C' := C') h hr
  have hc : ∀ v, fieldCheck I L C rec f v = fieldCheck I L C' rec' f v := fun v => check_congr h.1 v
  unfold fieldStart computeStep
  rw [h.1.compute]
  dsimp only
  unfold fieldCompute fieldParse
  rw [h.1.parse]
  dsimp only
  rw [hp, hd]
  simp only [hc]
  rcases h.1.default with h | ⟨v, h⟩ <;> rw [h]

theorem map_congr {n : Nat} {f : Field} (h : Level (n + 1) f) (hr : ∀ g, Level n g → rec g = rec' g) :
    mapFieldF I L C rec f = mapFieldF I L C' rec' f := by
  funext v
  unfold mapFieldF fieldMapInner withResolve
  rw [h.1.resolve, start_congr (C' := C') h hr, check_congr (C' := C') (rec' := rec') h.1]

/-- Which classes there are does not matter, nor how much deeper than the field itself recursion may go. -/
theorem mapField {k : Nat} : ∀ {f : Field}, Level k f → ∀ {n m : Nat}, k ≤ n → k ≤ m →
    Pilo.mapField I L C n f = Pilo.mapField I L C' m f := by
  induction k with
  | zero => intro f h; exact h.elim
  | succ k ih =>
    intro f h n m hn hm
    obtain ⟨n, rfl⟩ : ∃ n', n = n' + 1 := ⟨n - 1, by omega⟩
    obtain ⟨m, rfl⟩ : ∃ m', m = m' + 1 := ⟨m - 1, by omega⟩
    exact map_congr h fun g hg => ih hg (by omega) (by omega)

end Level
end Pilo
