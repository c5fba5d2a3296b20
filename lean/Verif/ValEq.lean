import Verif.Value

/-!
# Decidable (Lean) equality of values

Used only to evaluate concrete examples.
-/

namespace Pilo

mutual
/-- Structural equality test. -/
def Val.same : Val → Val → Bool
  | .none, .none => true
  | .bool a, .bool b => a == b
  | .int a, .int b => a == b
  | .float a, .float b => decide (a = b)
  | .decimal a, .decimal b => decide (a = b)
  | .str a, .str b => a == b
  | .list a, .list b => Val.sameList a b
  | .tuple a, .tuple b => Val.sameList a b
  | .dict a, .dict b => Val.samePairs a b
  | .const a, .const b => decide (a = b)
  | .ext s a, .ext t b => decide (s = t) && a == b
  | .func a, .func b => a == b
  | .obj a, .obj b => a == b
  | .form a, .form b => a == b
  | _, _ => false
/-- Structural equality test on lists. -/
def Val.sameList : List Val → List Val → Bool
  | [], [] => true
  | x :: xs, y :: ys => Val.same x y && Val.sameList xs ys
  | _, _ => false
/-- Structural equality test on lists of pairs. -/
def Val.samePairs : List (Val × Val) → List (Val × Val) → Bool
  | [], [] => true
  | (k, v) :: xs, (l, w) :: ys => Val.same k l && Val.same v w && Val.samePairs xs ys
  | _, _ => false
end

mutual
theorem Val.same_iff : ∀ a b : Val, a.same b = true ↔ a = b
  | .list a, b => by
    cases b <;> simp [Val.same]
    exact Val.sameList_iff a _
  | .tuple a, b => by
    cases b <;> simp [Val.same]
    exact Val.sameList_iff a _
  | .dict a, b => by
    cases b <;> simp [Val.same]
    exact Val.samePairs_iff a _
  | .none, b => by cases b <;> simp [Val.same]
  | .bool _, b => by cases b <;> simp [Val.same]
  | .int _, b => by cases b <;> simp [Val.same]
  | .float _, b => by cases b <;> simp [Val.same]
  | .decimal _, b => by cases b <;> simp [Val.same]
  | .str _, b => by cases b <;> simp [Val.same]
  | .const _, b => by cases b <;> simp [Val.same]
  | .ext _ _, b => by cases b <;> simp [Val.same]
  | .func _, b => by cases b <;> simp [Val.same]
  | .obj _, b => by cases b <;> simp [Val.same]
  | .form _, b => by cases b <;> simp [Val.same]
theorem Val.sameList_iff : ∀ a b : List Val, Val.sameList a b = true ↔ a = b
  | [], b => by cases b <;> simp [Val.sameList]
  | x :: xs, b => by
    cases b with
    | nil => simp [Val.sameList]
    | cons y ys => simp [Val.sameList, Val.same_iff x y, Val.sameList_iff xs ys]
theorem Val.samePairs_iff : ∀ a b : List (Val × Val), Val.samePairs a b = true ↔ a = b
  | [], b => by cases b <;> simp [Val.samePairs]
  | (k, v) :: xs, b => by
    cases b with
    | nil => simp [Val.samePairs]
    | cons y ys =>
      obtain ⟨l, w⟩ := y
      simp [Val.samePairs, Val.same_iff k l, Val.same_iff v w, Val.samePairs_iff xs ys]
end

instance : DecidableEq Val := fun a b => decidable_of_iff (a.same b = true) (Val.same_iff a b)

/-- Equality of results of computations. -/
instance {ε α : Type} [DecidableEq ε] [DecidableEq α] : DecidableEq (Except ε α) := fun a b =>
  match a, b with
  | .ok x, .ok y => if h : x = y then isTrue (by rw [h]) else isFalse (by simp [h])
  | .error x, .error y => if h : x = y then isTrue (by rw [h]) else isFalse (by simp [h])
  | .ok _, .error _ => isFalse (by simp)
  | .error _, .ok _ => isFalse (by simp)

end Pilo
