import Verif.Value

/-!
# Dotted texts

`str.split('.')` said without splitting: the parts have no dots in them, and joined with dots they are the text.
-/

namespace Pilo

/-- `x` is the dotted name with the parts `ns`. -/
structure Dotted (x : String) (ns : List String) : Prop where
  text : x = String.intercalate "." ns
  nonempty : ns ≠ []
  parts : ∀ n ∈ ns, '.' ∉ n.toList

theorem splitDots_ne_nil (cs : List Char) : splitDots cs ≠ [] := by
  cases cs with
  | nil => simp [splitDots]
  | cons c cs =>
    unfold splitDots
    split
    · simp
    · split <;> simp

theorem splitDots_cons_ne {c : Char} (hc : c ≠ '.') {cs w : List Char} {ws : List (List Char)}
    (h : splitDots cs = w :: ws) : splitDots (c :: cs) = (c :: w) :: ws := by
  rw [splitDots, if_neg hc, h]

theorem splitDots_dot (cs : List Char) : splitDots ('.' :: cs) = [] :: splitDots cs := by
  rw [splitDots, if_pos rfl]

theorem dotSplit_dotted (x : String) : Dotted x (dotSplit x) := by
  have hp : ∀ cs : List Char, (∀ w ∈ splitDots cs, '.' ∉ w) ∧
      String.ofList cs = String.intercalate "." ((splitDots cs).map String.ofList) := by
    intro cs
    induction cs with
    | nil => exact ⟨by simp [splitDots], by simp [splitDots]⟩
    | cons c cs ih =>
      obtain ⟨w, ws, hw⟩ := List.exists_cons_of_ne_nil (splitDots_ne_nil cs)
      rw [hw] at ih
      by_cases hc : c = '.'
      · subst hc
        rw [splitDots_dot, hw]
        refine ⟨?_, ?_⟩
        · intro v hv
          rcases List.mem_cons.1 hv with rfl | hv
          · simp
          · exact ih.1 v hv
        · rw [List.map_cons, List.map_cons, String.intercalate_cons_cons, ← List.map_cons (f := String.ofList), ← ih.2]
          apply String.toList_inj.1
          simp
      · rw [splitDots_cons_ne hc hw]
        refine ⟨?_, ?_⟩
        · intro v hv
          rcases List.mem_cons.1 hv with rfl | hv
          · intro h
            rcases List.mem_cons.1 h with h | h
            · exact hc h.symm
            · exact ih.1 w List.mem_cons_self h
          · exact ih.1 v (List.mem_cons_of_mem _ hv)
        · have h2 := congrArg String.toList ih.2
          apply String.toList_inj.1
          cases ws with
          | nil => simpa using h2
          | cons v vs =>
            rw [List.map_cons, List.map_cons, String.intercalate_cons_cons] at h2 ⊢
            simp only [String.toList_append, String.toList_ofList, List.cons_append] at h2 ⊢
            rw [h2]
  refine ⟨?_, ?_, ?_⟩
  · rw [dotSplit, ← (hp x.toList).2, String.ofList_toList]
  · intro h
    exact splitDots_ne_nil _ (List.map_eq_nil_iff.1 h)
  · intro n hn
    obtain ⟨w, hw, rfl⟩ := List.mem_map.1 hn
    rw [String.toList_ofList]
    exact (hp x.toList).1 w hw

theorem splitDots_append {n rest : List Char} (hn : '.' ∉ n) : splitDots (n ++ '.' :: rest) = n :: splitDots rest := by
  induction n with
  | nil => exact splitDots_dot rest
  | cons c cs ih =>
    have hc : c ≠ '.' := by rintro rfl; exact hn List.mem_cons_self
    exact splitDots_cons_ne hc (ih fun h => hn (List.mem_cons_of_mem _ h))

theorem splitDots_whole {n : List Char} (hn : '.' ∉ n) : splitDots n = [n] := by
  induction n with
  | nil => rfl
  | cons c cs ih =>
    have hc : c ≠ '.' := by rintro rfl; exact hn List.mem_cons_self
    exact splitDots_cons_ne hc (ih fun h => hn (List.mem_cons_of_mem _ h))

/-- `x.split('.')` gives exactly the parts of the dotted text. -/
theorem dotSplit_iff {x : String} {ns : List String} : dotSplit x = ns ↔ Dotted x ns := by
  constructor
  · rintro rfl; exact dotSplit_dotted x
  · intro h
    rw [h.text]
    have h0 := h.nonempty
    have hp := h.parts
    clear h
    induction ns with
    | nil => exact absurd rfl h0
    | cons n ns ih =>
      have hn := hp n List.mem_cons_self
      cases ns with
      | nil => rw [String.intercalate_singleton, dotSplit, splitDots_whole hn]; simp
      | cons m ms =>
        have e : (String.intercalate "." (n :: m :: ms)).toList =
            n.toList ++ '.' :: (String.intercalate "." (m :: ms)).toList := by
          rw [String.intercalate_cons_cons, String.toList_append, String.toList_append, List.append_assoc]; rfl
        rw [dotSplit, e, splitDots_append hn, List.map_cons, String.ofList_toList]
        congr 1
        exact ih (by simp) fun k hk => hp k (List.mem_cons_of_mem _ hk)

example : Dotted "a.b..c" ["a", "b", "", "c"] := ⟨by decide +kernel, by simp, by decide⟩

end Pilo
