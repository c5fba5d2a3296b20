import Verif.Props.Types
import Verif.Run
import Verif.Props.ModesDemo

/-!
# Polymorphic fields and the class hierarchy (C32)
-/

namespace Pilo
variable {P : Type} {I : PathOps P} {L : Lib} {C : Classes} {W : LawfulPath I}

/-- The table of a type field as the evaluator uses it. -/
def Meta.entries (tbl : Meta.Table) : List (Val × Nat) := tbl.map fun p => (.str p.1, p.2)

/-- A subform that parses has the class asked for. -/
theorem subParse_cls {rec : Rec P} (hr : RecKeeps W rec) {cls : Nat} {reset : Bool} {u : Unmapped}
    {s s' : St P} (hs : Inv W s) {v : Val} (h : subParse I C rec cls reset u s = (.ok v, s')) :
    v = .ERROR ∨ ∃ i o, v = .form i ∧ s'.forms[i]? = some o ∧ o.cls = cls := by
  unfold subParse at h
  obtain ⟨id, s1, h1, h2⟩ := bindOk h
  obtain ⟨e, s2, h3, h4⟩ := bindOk h2
  obtain ⟨es, s3, h5, h6⟩ := bindOk h4
  have hnew : ∃ o, s1.forms[id]? = some o ∧ o.cls = cls := by
    unfold newForm at h1
    cases h1
    exact ⟨_, List.getElem?_concat_length, rfl⟩
  obtain ⟨o, ho, hc⟩ := hnew
  have hs1 : Inv W s1 := by
    have := ((Keeps.newForm (W := W) cls).run s hs).inv hs
    rw [h1] at this; exact this
  have e1 := (Keeps.formMap (W := W) (C := C) hr id (src := .none) (by trivial) [] reset u false).run
    s1 hs1
  rw [h3] at e1
  obtain ⟨o', ho', hc'⟩ := e1.forms id o ho
  have hs3 : s3 = s2 := by unfold errItems at h5; cases h5; rfl
  cases h6
  subst hs3
  split
  · exact Or.inr ⟨id, o', rfl, ho', hc'.trans hc⟩
  · exact Or.inl rfl

/-- The class a polymorphic field settles on is the table's for the identity probed. -/
theorem polyType_some {rec : Rec P} {tf : Field} {pc : Nat} {types : List (Val × Nat)} {s s' : St P}
    {c : Nat} (h : polyType I L C rec tf pc types s = (.ok (some (some c)), s')) :
    ∃ src s1 v s2 k, probeSrc I s = (.ok src, s1) ∧ probe I C rec tf pc src s1 = (.ok v, s2) ∧
      (k, c) ∈ types ∧ v.pyEq k = true := by
  unfold polyType at h
  obtain ⟨x, s1, h1, h2⟩ := bindOk h
  cases x with
  | none => cases h2
  | some v =>
    have hv : ∃ src s1' s2, probeSrc I s = (.ok src, s1') ∧
        probe I C rec tf pc src s1' = (.ok v, s2) := by
      unfold M.tryCatch at h1
      split at h1
      · rename_i hb
        cases h1
        obtain ⟨src, t1, k1, k2⟩ := bindOk hb
        obtain ⟨v', t2, k3, k4⟩ := bindOk k2
        cases k4
        exact ⟨src, t1, _, k1, k3⟩
      · dsimp only at h1
        split at h1
        · obtain ⟨_, t1, _, k2⟩ := bindOk h1
          cases k2
        · cases h1
    obtain ⟨src, t1, t2, k1, k2⟩ := hv
    have h3 : ∃ k, (k, c) ∈ types ∧ v.pyEq k = true := by
      have key : ((if !v.hashable then M.raise (.typeError "unhashable type")
          else match types.find? (fun p => v.pyEq p.1) with
            | some p => M.pure (some (some p.2))
            | none => do
              invalid I ("invalid identity " ++ L.fmt v)
              M.pure (some none)) : M P _) s1 = (.ok (some (some c)), s') →
          ∃ k, (k, c) ∈ types ∧ v.pyEq k = true := by
        intro h2
        split at h2
        · cases h2
        · cases hp : types.find? (fun p => v.pyEq p.1) with
          | some p =>
            rw [hp] at h2
            cases h2
            exact ⟨p.1, List.mem_of_find?_eq_some hp,
              List.find?_some (p := fun p : Val × Nat => v.pyEq p.1) hp⟩
          | none =>
            rw [hp] at h2
            obtain ⟨_, t1, _, k2⟩ := bindOk h2
            cases k2
      cases v <;> first | (cases h2) | exact key h2
    obtain ⟨k, hk, he⟩ := h3
    exact ⟨src, t1, v, t2, k, k1, k2, hk, he⟩

/-- **C32.** A `PolymorphicSubForm` that yields a form probed an identity `v`, and the form's class
is the type field's class or below it and has a type field listing `v`. -/
theorem C32_poly {w : Meta.World} (hw : w.Reach) {t : Nat} {tbl : Meta.Table}
    (ht : (w.obj t).types = some tbl) (n : Nat) {f tf : Field} {pc : Nat} {reset : Bool}
    {u : Unmapped} (hk : f.kind = .poly tf pc (Meta.entries tbl) reset u) {s s' : St P}
    (hs : Inv W s) {i : Nat} (h : kindParse I L C (mapField I L C n) f s = (.ok (.form i), s')) :
    ∃ src s1 v s2 o p nm str, probeSrc I s = (.ok src, s1) ∧
      probe I C (mapField I L C n) tf pc src s1 = (.ok v, s2) ∧
      s'.forms[i]? = some o ∧
      (w.obj t).parent = some (.cls p) ∧ (w.obj t).name = some nm ∧
      w.Below p o.cls ∧ w.Names o.cls nm str ∧ v.pyEq (.str str) = true := by
  unfold kindParse at h
  rw [hk] at h
  dsimp only at h
  unfold polyParse at h
  obtain ⟨r, s1, h1, h2⟩ := bindOk h
  have hr : RecKeeps W (mapField I L C n) := Keeps.mapField n
  match r, h1, h2 with
  | none, _, h2 => cases h2
  | some none, _, h2 => cases h2
  | some (some c), h1, h2 =>
    obtain ⟨src, t1, v, t2, k, k1, k2, k3, k4⟩ := polyType_some h1
    have hs1 : Inv W s1 := by
      have := ((Keeps.polyType (W := W) (L := L) (C := C) hr tf pc (Meta.entries tbl)).run s hs).inv hs
      rw [h1] at this; exact this
    rcases subParse_cls hr hs1 h2 with h3 | ⟨j, o, h3, h4, h5⟩
    · cases h3
    · cases h3
      obtain ⟨⟨str, x⟩, hm, he⟩ := List.mem_map.1 k3
      cases he
      obtain ⟨p, nm, q1, q2, q3, q4⟩ := hw.right t tbl str x ht hm
      exact ⟨src, t1, v, t2, o, p, nm, str, k1, k2, h4, q1, q2, by rw [h5]; exact q3,
        by rw [h5]; exact q4, k4⟩

/-- **C32.** A source whose identity no class below lists does not become a form. -/
theorem C32_poly_rejects {w : Meta.World} (hw : w.Reach) {t p : Nat} {nm : String}
    {tbl : Meta.Table} (ht : (w.obj t).types = some tbl)
    (hp : (w.obj t).parent = some (.cls p)) (hn : (w.obj t).name = some nm)
    (n : Nat) {f tf : Field} {pc : Nat} {reset : Bool}
    {u : Unmapped} (hk : f.kind = .poly tf pc (Meta.entries tbl) reset u) {s : St P}
    (hs : Inv W s)
    (hv : ∀ src s1 v s2, probeSrc I s = (.ok src, s1) →
      probe I C (mapField I L C n) tf pc src s1 = (.ok v, s2) →
      ∀ c str, w.Below p c → w.Names c nm str → v.pyEq (.str str) = false) (i : Nat) (s' : St P) :
    kindParse I L C (mapField I L C n) f s ≠ (.ok (.form i), s') := by
  intro h
  obtain ⟨src, s1, v, s2, o, p', nm', str, h1, h2, _, h3, h4, h5, h6, h7⟩ := C32_poly hw ht n hk hs h
  rw [hp] at h3
  cases h3
  rw [hn] at h4
  cases h4
  rw [hv src s1 v s2 h1 h2 _ str h5 h6] at h7
  cases h7

namespace Demo
open Meta.World.Ex

/-- The table `Animal.kind` holds once a dog was cast. -/
def zooTable : Meta.Table := [("cat", 2), ("dog", 3)]

example : (Meta.World.Ex.run (zoo' ++ [Meta.World.Op.cast 0 (.str "dog")]) Meta.World.init).map (fun w => (w.obj 0).types) =
    some (some zooTable) := by decide +kernel

/-- `TypeProbe`'s copy of `Animal.kind`. -/
def kindField : Field := .mk { name := some "kind", src := .str "kind" } (.string {})

/-- Class 1 is `Animal`, 2 `Cat`, 3 `Dog`, 4 `TypeProbe` and 5 `class Owner(Form): pet =
PolymorphicSubForm(Animal.kind)`. -/
def zooClasses : Classes
  | 5 => { fields := [.mk { name := some "pet", src := .str "pet" }
      (.poly kindField 4 (Meta.entries zooTable) false (.str .ignore))] }
  | _ => { fields := [kindField] }

/-- The classes of all forms after mapping a document onto an owner. -/
def zooRun (kind : String) : List Nat :=
  (Form.map (Path.ops lib) lib zooClasses 12 0
    (.data (.dict [(.str "pet", .dict [(.str "kind", .str kind)])])) [] false (.str .ignore) false
    (holding 5 [])).2.forms.map FormObj.cls

/-- The owner, the probe and the pet, if there is one. -/
example : zooRun "dog" = [5, 4, 3] ∧ zooRun "cat" = [5, 4, 2] ∧ zooRun "cow" = [5, 4] := by
  decide +kernel

end Demo

end Pilo
