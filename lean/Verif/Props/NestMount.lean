import Verif.Props.NestSame

/-!
# C101: all the paths of `Mount.lean` are nested paths
-/

namespace Pilo
variable {L : Lib}

/-- A mountable path, two levels deep. -/
def BPath.toOver : BPath → Over SPath
  | .simple p => .leaf p
  | .union p => .union p.toOf

/-- A `MountPath` over such paths. -/
def MPath.toOf (p : MPath) : MountOf (Over SPath) :=
  ⟨p.part, p.dne.toOver, p.paths.map fun q => (q.1, q.2.toOver)⟩

/-- Any built-in path as a nested path. -/
def Path.toNest : Path → Nest 2
  | .base p => Over.leaf p.toOver
  | .mount p => Over.mount p.toOf

/-- The interface two levels deep. -/
abbrev overChild (L : Lib) : Child (Over SPath) := Over.child L (SPath.child L)

/-- A result and the path after it, with the path translated. -/
def moved {α P Q : Type} (f : P → Q) (r : Except Exc α × P) : Except Exc α × Q := (r.1, f r.2)

namespace BPath

theorem keys_same (p : BPath) : (overChild L).keys p.toOver = p.keys := by cases p <;> rfl

theorem app_same (p : BPath) (k : Val) : (overChild L).app p.toOver k = (p.append k).toOver := by
  cases p with
  | simple p => rfl
  | union p => exact congrArg Over.union ((UPath.C101_union_same (L := L) p).1 k)

theorem render_same (p : BPath) : (overChild L).render p.toOver = p.render L := by cases p <;> rfl

theorem pop_same (p : BPath) : (overChild L).pop p.toOver = p.pop.map toOver := by
  cases p with
  | simple p =>
    show Over.change (.leaf p) SPath.pop (UnionOf.pop (SPath.child L)) (MountOf.pop (SPath.child L)) = _
    simp only [Over.change, pop]
    cases p.pop <;> rfl
  | union p =>
    show Over.change (.union p.toOf) SPath.pop (UnionOf.pop (SPath.child L)) (MountOf.pop (SPath.child L)) = _
    simp only [Over.change, pop, (UPath.C101_union_same (L := L) p).2.1]
    cases p.pop <;> rfl

theorem value_same (p : BPath) : (overChild L).value p.toOver = moved toOver (p.value L) := by
  cases p with
  | simple p => rfl
  | union p =>
    show Over.read (.union p.toOf) (SPath.child L).value (UnionOf.value (SPath.child L)) (MountOf.value (SPath.child L)) = _
    simp only [Over.read, (UPath.C101_union_same (L := L) p).2.2.1]
    rfl

theorem isNull_same (p : BPath) : (overChild L).isNull p.toOver = moved toOver (p.isNull L) := by
  cases p with
  | simple p => rfl
  | union p =>
    show Over.read (.union p.toOf) (SPath.child L).isNull (UnionOf.isNull (SPath.child L)) (MountOf.isNull (SPath.child L)) = _
    simp only [Over.read, (UPath.C101_union_same (L := L) p).2.2.2.2.1]
    rfl

theorem exists_same (p : BPath) : (overChild L).exists_ p.toOver = moved toOver (p.exists_ L) := by
  cases p with
  | simple p => rfl
  | union p =>
    show Over.read (.union p.toOf) (SPath.child L).exists_ (UnionOf.exists_ (SPath.child L)) (MountOf.exists_ (SPath.child L)) = _
    simp only [Over.read, (UPath.C101_union_same (L := L) p).2.2.2.1]
    rfl

theorem mapping_same (p : BPath) : (overChild L).mapping p.toOver = moved toOver (p.mapping L) := by
  cases p with
  | simple p => rfl
  | union p =>
    show Over.read (.union p.toOf) (SPath.child L).mapping (UnionOf.mapping (SPath.child L)) (MountOf.mapping (SPath.child L)) = _
    simp only [Over.read, (UPath.C101_union_same (L := L) p).2.2.2.2.2.1]
    rfl

theorem sequence_same (p : BPath) : (overChild L).sequence p.toOver = moved toOver (p.sequence L) := by
  cases p with
  | simple p => rfl
  | union p =>
    show Over.read (.union p.toOf) (SPath.child L).sequence (UnionOf.sequence (SPath.child L)) (MountOf.sequence (SPath.child L)) = _
    simp only [Over.read, (UPath.C101_union_same (L := L) p).2.2.2.2.2.2.1]
    rfl

theorem primitive_same (ty : PTy) (p : BPath) :
    (overChild L).primitive ty p.toOver = moved toOver (p.primitive L ty) := by
  cases p with
  | simple p => rfl
  | union p =>
    show Over.read (.union p.toOf) ((SPath.child L).primitive ty) (UnionOf.primitive (SPath.child L) ty)
      (MountOf.primitive (SPath.child L) ty) = _
    simp only [Over.read, (UPath.C101_union_same (L := L) p).2.2.2.2.2.2.2.1 ty]
    rfl

theorem joinPath_same (p : BPath) :
    (overChild L).joinPath p.toOver = (p.joinPath L).map (·.map toOver) := by
  cases p with
  | simple p => rfl
  | union p =>
    simp only [overChild, Over.child, toOver]
    rw [(UPath.C101_union_same (L := L) p).2.2.2.2.2.2.2.2.1]
    simp only [joinPath]
    rcases p.joinPath L with _ | _ | _ <;> rfl

/-- `exists` is `value is not NONE` for every mountable path. -/
theorem exists_value (p : BPath) : p.exists_ L = match p.value L with
    | (.ok v, p) => (.ok (!v.isNONE), p)
    | (.error e, p) => (.error e, p) := by
  cases p with
  | simple p =>
    cases p with
    | dflt cfg st =>
      simp only [exists_, value, read, SPath.exists_, SPath.value, SPath.withValue]
      rcases SPath.valueDflt L cfg st with ⟨_ | _, _⟩ <;> rfl
    | json a b st =>
      simp only [exists_, value, read, SPath.exists_, SPath.value, SPath.withValue]
      rcases SPath.valueJson st with ⟨_ | _, _⟩ <;> rfl
    | config cfg st =>
      simp only [exists_, value, read, SPath.exists_, SPath.value, SPath.withValue]
      rcases SPath.valueCfg L cfg st with ⟨_ | v, _⟩
      · rfl
      · cases v <;> rfl
  | union p =>
    simp only [exists_, value, read, UPath.exists_, UPath.value]
    rcases p.uvalue with ⟨_ | v, _⟩
    · rfl
    · cases v <;> rfl

end BPath

namespace MPath

theorem find_same (p : MPath) (k : Val) : p.toOf.find k = p.find k := by
  simp only [MountOf.find, find, toOf, List.findIdx?_map, Function.comp_def]

theorem sub_same (p : MPath) (k : Val) : p.toOf.sub k = (p.sub k).toOver := by
  unfold MountOf.sub sub
  rw [find_same]
  cases p.find k with
  | none => rfl
  | some i =>
    simp only [toOf, List.getElem?_map]
    cases p.paths[i]? <;> rfl

theorem setSub_same (p : MPath) (k : Val) (q : BPath) : p.toOf.setSub k q.toOver = (p.setSub k q).toOf := by
  unfold MountOf.setSub setSub
  rw [find_same]
  cases p.find k with
  | none => rfl
  | some i =>
    simp only [toOf, MountOf.mk.injEq, true_and]
    apply List.ext_getElem?
    intro j
    simp only [List.getElem?_modify, List.getElem?_map]
    by_cases hj : i = j
    · subst hj
      cases p.paths[i]? <;> simp
    · cases p.paths[j]? <;> simp [hj]

theorem onSub_same {α : Type} (p : MPath) (m : Val) {f : Over SPath → Except Exc α × Over SPath}
    {g : BPath → Except Exc α × BPath} (h : ∀ b, f b.toOver = moved BPath.toOver (g b)) :
    p.toOf.onSub m f = moved toOf (p.onSub m g) := by
  simp only [MountOf.onSub, onSub, sub_same, h, moved, setSub_same]

theorem app_same (p : MPath) {k : Val} (hk : k.isKey = true) :
    ∃ q, p.append k = .ok q ∧ p.toOf.app (overChild L) k = q.toOf := by
  have hk' : (k.isIntLike || k.isStr) = true := hk
  unfold append MountOf.app
  simp only [show p.toOf.part = p.part from rfl]
  cases hm : p.part with
  | none => exact ⟨_, if_pos hk', rfl⟩
  | some m =>
    refine ⟨_, rfl, ?_⟩
    dsimp only
    rw [sub_same, BPath.app_same, setSub_same]

theorem pop_same (p : MPath) : p.toOf.pop (overChild L) = p.pop.map toOf := by
  unfold pop MountOf.pop
  simp only [show p.toOf.part = p.part from rfl]
  cases hm : p.part with
  | none => rfl
  | some m =>
    dsimp only
    rw [sub_same, BPath.keys_same, BPath.pop_same]
    by_cases he : (p.sub m).keys.isEmpty = true
    · rw [if_pos he, if_pos he]
      rfl
    · rw [if_neg he, if_neg he]
      cases (p.sub m).pop with
      | error e => rfl
      | ok q => exact congrArg Except.ok (setSub_same p m q)

end MPath

theorem Nest.ops_mapping {n : Nat} (p : Nest n) : (Nest.ops L n).mapping p
    = (((Nest.child L n).mapping p).1.map some, ((Nest.child L n).mapping p).2) := by
  simp only [Nest.ops]
  rcases (Nest.child L n).mapping p with ⟨_ | _, _⟩ <;> rfl

namespace Path

/-- C101: the paths of plain sources, of unions of them, and of mounts of both, which is what `Mount.lean` covers, are
nested paths that move and answer alike. -/
theorem C101_flat (p : Path) :
    (Nest.ops L 2).keys p.toNest = (ops L).keys p ∧
    (Nest.ops L 2).render p.toNest = (ops L).render p ∧
    (∀ k, k.isKey = true → (Nest.ops L 2).append p.toNest k = ((ops L).append p k).map toNest) ∧
    (Nest.ops L 2).pop p.toNest = ((ops L).pop p).map toNest ∧
    (Nest.ops L 2).value p.toNest = moved toNest ((ops L).value p) ∧
    (Nest.ops L 2).exists_ p.toNest = moved toNest ((ops L).exists_ p) ∧
    (Nest.ops L 2).isNull p.toNest = moved toNest ((ops L).isNull p) ∧
    (Nest.ops L 2).mapping p.toNest = moved toNest ((ops L).mapping p) ∧
    (Nest.ops L 2).sequence p.toNest = moved toNest ((ops L).sequence p) ∧
    (∀ ty, (Nest.ops L 2).primitive ty p.toNest = moved toNest ((ops L).primitive ty p)) ∧
    (Nest.ops L 2).hasSrc p.toNest = (ops L).hasSrc p ∧
    (Nest.ops L 2).joinPath p.toNest = ((ops L).joinPath p).map (·.map toNest) ∧
    ∀ v al, (Nest.ops L 2).native v al = toNest ((ops L).native v al) := by
  cases p with
  | base p =>
    refine ⟨p.keys_same, p.render_same, ?_, ?_, ?_, ?_, ?_, ?_, ?_, ?_, ?_, ?_, fun _ _ => rfl⟩
    · intro k hk
      refine (if_pos hk).trans ?_
      exact congrArg (fun q : Over SPath => (Except.ok (Over.leaf q) : Except Exc (Nest 2))) (p.app_same k)
    · show Over.change (.leaf p.toOver) (overChild L).pop (UnionOf.pop (overChild L)) (MountOf.pop (overChild L)) = _
      simp only [Over.change, p.pop_same, ops]
      cases p.pop <;> rfl
    · show Over.read (.leaf p.toOver) (overChild L).value (UnionOf.value (overChild L)) (MountOf.value (overChild L)) = _
      simp only [Over.read, p.value_same]; rfl
    · show Over.read (.leaf p.toOver) (overChild L).exists_ (UnionOf.exists_ (overChild L)) (MountOf.exists_ (overChild L)) = _
      simp only [Over.read, p.exists_same]; rfl
    · show Over.read (.leaf p.toOver) (overChild L).isNull (UnionOf.isNull (overChild L)) (MountOf.isNull (overChild L)) = _
      simp only [Over.read, p.isNull_same]; rfl
    · rw [Nest.ops_mapping]
      show ((Over.read (.leaf p.toOver) (overChild L).mapping (UnionOf.mapping (overChild L))
        (MountOf.mapping (overChild L))).1.map some, (Over.read (.leaf p.toOver) (overChild L).mapping
        (UnionOf.mapping (overChild L)) (MountOf.mapping (overChild L))).2) = _
      simp only [Over.read, p.mapping_same, ops, read]
      rcases p.mapping L with ⟨_ | _, _⟩ <;> rfl
    · show Over.read (.leaf p.toOver) (overChild L).sequence (UnionOf.sequence (overChild L)) (MountOf.sequence (overChild L)) = _
      simp only [Over.read, p.sequence_same]; rfl
    · intro ty
      show Over.read (.leaf p.toOver) ((overChild L).primitive ty) (UnionOf.primitive (overChild L) ty)
        (MountOf.primitive (overChild L) ty) = _
      simp only [Over.read, p.primitive_same]; rfl
    · cases p <;> rfl
    · show (Over.child L (overChild L)).joinPath (.leaf p.toOver) = _
      unfold Over.child
      dsimp only
      rw [p.joinPath_same]
      simp only [ops]
      rcases p.joinPath L with _ | _ | _ <;> rfl
  | mount p =>
    have hpart : p.toOf.part = p.part := rfl
    refine ⟨?_, ?_, ?_, ?_, ?_, ?_, ?_, ?_, ?_, ?_, rfl, ?_, fun _ _ => rfl⟩
    · show p.toOf.keys (overChild L) = p.keys
      simp only [MountOf.keys, MPath.keys, hpart, p.sub_same]
      cases p.part with
      | none => rfl
      | some m => exact congrArg _ (BPath.keys_same _)
    · show p.toOf.render (overChild L) L = p.render L
      simp only [MountOf.render, MPath.render, hpart, p.sub_same]
      cases p.part with
      | none => rfl
      | some m =>
        dsimp only
        rw [BPath.keys_same, BPath.render_same]
        split
        · rfl
        · cases (p.sub m).render L <;> rfl
    · intro k hk
      refine (if_pos hk).trans ?_
      obtain ⟨q, h1, h2⟩ := p.app_same (L := L) hk
      refine (congrArg (fun q : MountOf (Over SPath) => (Except.ok (Over.mount q) : Except Exc (Nest 2))) h2).trans ?_
      simp only [ops, h1]
      rfl
    · show Over.change (.mount p.toOf) (overChild L).pop (UnionOf.pop (overChild L)) (MountOf.pop (overChild L)) = _
      simp only [Over.change, p.pop_same, ops]
      cases p.pop <;> rfl
    · show Over.read (.mount p.toOf) (overChild L).value (UnionOf.value (overChild L)) (MountOf.value (overChild L)) = _
      simp only [Over.read, MountOf.value, MPath.value, hpart, ops, read]
      cases p.part with
      | none => rfl
      | some m => dsimp only; rw [p.onSub_same m BPath.value_same]; rfl
    · show Over.read (.mount p.toOf) (overChild L).exists_ (UnionOf.exists_ (overChild L)) (MountOf.exists_ (overChild L)) = _
      simp only [Over.read, MountOf.exists_, MPath.exists_, hpart, ops, read]
      cases p.part with
      | none => rfl
      | some m =>
        dsimp only
        rw [p.onSub_same m BPath.value_same]
        simp only [MPath.onSub, BPath.exists_value]
        rcases (p.sub m).value L with ⟨_ | _, _⟩ <;> rfl
    · show Over.read (.mount p.toOf) (overChild L).isNull (UnionOf.isNull (overChild L)) (MountOf.isNull (overChild L)) = _
      simp only [Over.read, MountOf.isNull, MPath.isNull, hpart, ops, read]
      cases p.part with
      | none => rfl
      | some m =>
        dsimp only
        rw [p.onSub_same m BPath.value_same]
        rcases p.onSub m (BPath.value L) with ⟨_ | _, _⟩ <;> rfl
    · rw [Nest.ops_mapping]
      show ((Over.read (.mount p.toOf) (overChild L).mapping (UnionOf.mapping (overChild L))
        (MountOf.mapping (overChild L))).1.map some, (Over.read (.mount p.toOf) (overChild L).mapping
        (UnionOf.mapping (overChild L)) (MountOf.mapping (overChild L))).2) = _
      simp only [Over.read, MountOf.mapping, MPath.mapping, hpart, ops, read]
      cases p.part with
      | none =>
        dsimp only
        simp only [MPath.toOf, List.map_map, Function.comp_def]
        rfl
      | some m =>
        dsimp only
        rw [p.onSub_same m BPath.mapping_same]
        rcases p.onSub m (BPath.mapping L) with ⟨_ | _, _⟩ <;> rfl
    · show Over.read (.mount p.toOf) (overChild L).sequence (UnionOf.sequence (overChild L)) (MountOf.sequence (overChild L)) = _
      simp only [Over.read, MountOf.sequence, MPath.sequence, hpart, p.find_same, ops, read]
      cases p.part with
      | none => rfl
      | some m =>
        dsimp only
        cases p.find m with
        | none => rfl
        | some i => dsimp only; rw [p.onSub_same m BPath.sequence_same]; rfl
    · intro ty
      show Over.read (.mount p.toOf) ((overChild L).primitive ty) (UnionOf.primitive (overChild L) ty)
        (MountOf.primitive (overChild L) ty) = _
      simp only [Over.read, MountOf.primitive, MPath.primitive, hpart, p.find_same, ops, read]
      cases p.part with
      | none => rfl
      | some m =>
        dsimp only
        cases p.find m with
        | none => rfl
        | some i => dsimp only; rw [p.onSub_same m (BPath.primitive_same ty)]; rfl
    · show (Over.child L (overChild L)).joinPath (.mount p.toOf) = _
      unfold Over.child
      dsimp only
      simp only [MountOf.joinPath, hpart, p.sub_same, ops]
      cases p.part with
      | none => rfl
      | some m =>
        dsimp only
        rw [BPath.joinPath_same]
        rcases (p.sub m).joinPath L with _ | _ | _ <;> rfl

/-- C101: and mounting makes the same path. -/
theorem C101_flat_make (paths : List (String × BPath)) :
    MountOf.make (overChild L) L (paths.map fun q => (q.1, q.2.toOver)) = (MPath.mk' L paths).map MPath.toOf := by
  unfold MountOf.make MPath.mk'
  split <;> rfl

/-- A dict mounted at `u`, with `u.a` selected; it is read as `2` in both models. -/
def Demo.mounted : Path := .mount ⟨some (.str "u"), .simple (SPath.native (.dict []) none),
  [("u", .simple ((SPath.native (.dict [(.str "a", .int 2)]) none).append (.str "a")))]⟩

example : ((ops Demo.lib).primitive .int Demo.mounted).1 = .ok (.int 2) := by decide +kernel
example : ((Nest.ops Demo.lib 2).primitive .int Demo.mounted.toNest).1 = .ok (.int 2) :=
  (congrArg Prod.fst ((C101_flat (L := Demo.lib) Demo.mounted).2.2.2.2.2.2.2.2.2.1 .int)).trans (by decide +kernel)

end Path
end Pilo
