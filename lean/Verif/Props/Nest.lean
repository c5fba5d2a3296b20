import Verif.Source.NestLaws
import Verif.Props.Context
import Verif.Props.Locus
import Verif.Props.Mount
import Mathlib.Data.List.Forall2

/-!
# C101–C103: sources inside sources
-/

namespace Pilo
variable {L : Lib}

/-- A source built from sources: a plain one (by the path it opens), `UnionSource([..])` or
`MountSource({..})`. -/
inductive Tree where
  | plain (s : SPath)
  | union (cfg : UnionCfg) (ts : List Tree)
  | mount (ts : List (String × Tree))

/-- `p` is what `source.path()` gives: plain sources open at their root; a union opens its sources and
makes a `UnionPath` of them (`union.py:96-97`), a mount a `MountPath` (`mount.py:138-142`). The names of a
mount are the keys of a dict, hence distinct. -/
def Opens (L : Lib) : (n : Nat) → Tree → Nest n → Prop
  | 0, t, p => t = .plain p ∧ SPath.keys p = []
  | n + 1, t, .leaf p => Opens L n t p
  | n + 1, t, .union u => ∃ cfg ts kids, t = .union cfg ts ∧
      List.Forall₂ (Opens L n) ts kids ∧ UnionOf.make (Nest.child L n) cfg kids = .ok u
  | n + 1, t, .mount m => ∃ ts paths, t = .mount ts ∧ (ts.map Prod.fst).Nodup ∧
      List.Forall₂ (fun a b => a.1 = b.1 ∧ Opens L n a.2 b.2) ts paths ∧
      MountOf.make (Nest.child L n) L paths = .ok m

theorem forall₂_right {α β : Type} {R : α → β → Prop} {as : List α} {bs : List β} (h : List.Forall₂ R as bs) :
    ∀ b ∈ bs, ∃ a ∈ as, R a b := by
  induction h with
  | nil => intro b hb; cases hb
  | cons h1 _ ih =>
    intro b hb
    rcases List.mem_cons.1 hb with rfl | hb
    · exact ⟨_, List.mem_cons_self, h1⟩
    · obtain ⟨a, ha, hr⟩ := ih b hb
      exact ⟨a, List.mem_cons_of_mem _ ha, hr⟩

theorem Opens.wf : (n : Nat) → ∀ {t : Tree} {p : Nest n}, Opens L n t p →
    (Nest.laws L n).WF p ∧ (Nest.child L n).keys p = []
  | 0, t, p, h => by
    obtain ⟨-, h2⟩ := h
    refine ⟨⟨?_, ?_⟩, h2⟩
    · cases p with
      | dflt cfg st => exact fun q hq => by rw [show st.parts = [] from List.map_eq_nil_iff.1 h2] at hq; cases hq
      | json a b st => exact fun q hq => by rw [show st.parts = [] from List.map_eq_nil_iff.1 h2] at hq; cases hq
      | config cfg st => exact fun q hq => by rw [show st.parts = [] from List.map_eq_nil_iff.1 h2] at hq; cases hq
    · intro k hk
      rw [h2] at hk
      cases hk
  | n + 1, t, .leaf p, h => Opens.wf n (p := p) h
  | n + 1, t, .union u, h => by
    obtain ⟨cfg, ts, kids, -, h2, h3⟩ := h
    refine UnionOf.make_wf (V := Nest.laws L n) (fun c hc => ?_) h3
    obtain ⟨a, -, ha⟩ := forall₂_right h2 c hc
    have := Opens.wf n ha
    exact ⟨this.1, by rw [this.2]; rfl⟩
  | n + 1, t, .mount m, h => by
    obtain ⟨ts, paths, -, -, h2, h3⟩ := h
    refine MountOf.make_wf (V := Nest.laws L n) (fun x hx => ?_) h3
    obtain ⟨a, -, -, ha⟩ := forall₂_right h2 x hx
    exact Opens.wf n ha

/-! ## C101 -/

/-- C101. Whatever sources are put into unions and mounts, and however deep, a call into the API leaves the
context as it was. -/
theorem C101_context_restored {n : Nat} {C : Classes} {s : St (Nest n)}
    (h : Reach (Nest.ops L n) L C (fun p => ∃ t, Opens L n t p) s) (k : Nat) (c : Call (Nest n))
    (hc : c.SrcIs fun p => ∃ t, Opens L n t p) :
    Undisturbed (Nest.ops L n) s (c.run (Nest.ops L n) L C k s).2 := by
  have hw : ∀ p, (∃ t, Opens L n t p) → (Nest.lawful L n).WF p := fun p hp => (hp.choose_spec.wf n).1
  refine C01_context_restored (Nest.lawful L n) (h.mono hw) k c ?_
  unfold Call.SrcIs at hc ⊢
  split <;> first | exact hw _ hc | trivial

/-- C101: no call removes, reorders or changes errors already collected. -/
theorem C101_errors_append_only {n : Nat} {C : Classes} {s : St (Nest n)}
    (h : Reach (Nest.ops L n) L C (fun p => ∃ t, Opens L n t p) s) (k : Nat) (c : Call (Nest n))
    (hc : c.SrcIs fun p => ∃ t, Opens L n t p) : Appended s (c.run (Nest.ops L n) L C k s).2 := by
  have hw : ∀ p, (∃ t, Opens L n t p) → (Nest.lawful L n).WF p := fun p hp => (hp.choose_spec.wf n).1
  refine C05_errors_append_only (Nest.lawful L n) (h.mono hw) k c ?_
  unfold Call.SrcIs at hc ⊢
  split <;> first | exact hw _ hc | trivial

/-! ## Histories -/

/-- The effect of one operation on a path; an operation that fails leaves what it leaves. -/
def Child.act {P : Type} (K : Child P) (p : P) : PathOp → P
  | .append k => if k.isKey then K.app p k else p
  | .pop => match K.pop p with
    | .ok q => q
    | .error _ => p
  | .value => (K.value p).2
  | .exists_ => (K.exists_ p).2
  | .isNull => (K.isNull p).2
  | .mapping => (K.mapping p).2
  | .sequence => (K.sequence p).2
  | .primitive ty => (K.primitive ty p).2

/-- Where a path stands after an operation: only integers and strings are keys. -/
def nestKeys (ks : List Val) : PathOp → List Val
  | .append k => if k.isKey then ks ++ [k] else ks
  | .pop => ks.dropLast
  | _ => ks

/-- What an operation on a mount path that stands at `ks` does to the source mounted at `name`: nothing, unless `ks`
begins with `name`; the operations that move in and out of the mount point do not concern it either.  (`exists` and
`is_null` of a mount path are decided by a read of the value.) -/
def mountOp (name : String) (ks : List Val) (op : PathOp) : List PathOp :=
  match ks with
  | [] => []
  | h :: t =>
    if h = .str name then
      match op with
      | .pop => if t = [] then [] else [.pop]
      | .isNull => [.value]
      | .exists_ => [.value]
      | op => [op]
    else []

/-- The part of a history that concerns the source mounted at `name`. -/
def mountOps (name : String) : List Val → List PathOp → List PathOp
  | _, [] => []
  | ks, op :: ops => mountOp name ks op ++ mountOps name (nestKeys ks op) ops

/-- The part of a history that concerns the source mounted at `names`, one mount inside the other. -/
def mountsOps : List String → List PathOp → List PathOp
  | [], ops => ops
  | name :: names, ops => mountsOps names (mountOps name [] ops)

namespace MountOf
variable {P : Type} {K : Child P} {V : ChildLaws K}

/-- One operation on a mount path. -/
def act (K : Child P) (p : MountOf P) : PathOp → MountOf P
  | .append k => if k.isKey then p.app K k else p
  | .pop => match p.pop K with
    | .ok q => q
    | .error _ => p
  | .value => (p.value K).2
  | .exists_ => (p.exists_ K).2
  | .isNull => (p.isNull K).2
  | .mapping => (p.mapping K).2
  | .sequence => (p.sequence K).2
  | .primitive ty => (p.primitive K ty).2

theorem part_of_keys {p : MountOf P} (h : p.keys K = []) : p.part = none := by
  unfold keys at h
  split at h
  · assumption
  · cases h

theorem act_wf {p : MountOf P} (h : p.WF V) (op : PathOp) :
    (p.act K op).WF V ∧ (p.act K op).keys K = nestKeys (p.keys K) op := by
  cases op with
  | append k =>
    simp only [act, nestKeys]
    by_cases hk : k.isKey = true
    · rw [if_pos hk, if_pos hk]
      exact ⟨(app_keys h hk).2.1, (app_keys h hk).1⟩
    · rw [if_neg hk, if_neg hk]
      exact ⟨h, rfl⟩
  | pop =>
    simp only [act]
    rcases List.eq_nil_or_concat (p.keys K) with h0 | ⟨ks, k, h0⟩
    · simp only [pop, part_of_keys h0, nestKeys, h0]
      exact ⟨h, rfl⟩
    · obtain ⟨q, h1, h2, h3, -⟩ := pop_keys h (ks := ks) (k := k) (by rw [h0]; simp)
      rw [h1]
      refine ⟨h3, ?_⟩
      simp [nestKeys, h0, h2]
  | value => exact ⟨(value_keeps h).wf, (value_keeps h).keys⟩
  | exists_ => exact ⟨(exists_keeps h).wf, (exists_keeps h).keys⟩
  | isNull => exact ⟨(isNull_keeps h).wf, (isNull_keeps h).keys⟩
  | mapping => exact ⟨(mapping_keeps h).wf, (mapping_keeps h).keys⟩
  | sequence => exact ⟨(sequence_keeps h).wf, (sequence_keeps h).keys⟩
  | primitive ty => exact ⟨(primitive_keeps ty h).wf, (primitive_keeps ty h).keys⟩

theorem find_some {p : MountOf P} {k : Val} {i : Nat} (h : p.find k = some i) : ∃ x, p.paths[i]? = some x ∧ k = .str x.1 := by
  unfold find at h
  obtain ⟨hi, h1, -⟩ := List.findIdx?_eq_some_iff_getElem.1 h
  exact ⟨_, List.getElem?_eq_getElem hi, UPath.pyEq_str h1⟩

theorem find_none {p : MountOf P} {k : Val} (h : p.find k = none) : ∀ x ∈ p.paths, k ≠ .str x.1 := by
  unfold find at h
  intro x hx hk
  have := List.findIdx?_eq_none_iff.1 h x hx
  subst hk
  simp [Val.pyEq] at this

theorem sub_some {p : MountOf P} {k : Val} {i : Nat} {x : String × P} (h : p.find k = some i) (hx : p.paths[i]? = some x) :
    p.sub k = x.2 := by
  unfold sub
  rw [h]
  dsimp only
  rw [hx]

/-- One operation, as seen by the mounted sources. -/
theorem act_paths {p : MountOf P} (hn : (p.paths.map Prod.fst).Nodup) (op : PathOp) :
    (p.act K op).paths = p.paths.map fun x => (x.1, (mountOp x.1 (p.keys K) op).foldl (K.act) x.2) := by
  have same : (∀ x ∈ p.paths, mountOp x.1 (p.keys K) op = []) →
      p.paths = p.paths.map fun x => (x.1, (mountOp x.1 (p.keys K) op).foldl (K.act) x.2) := by
    intro hs
    have : p.paths.map (fun x => (x.1, (mountOp x.1 (p.keys K) op).foldl (K.act) x.2)) = p.paths.map id :=
      List.map_congr_left fun x hx => by rw [hs x hx]; rfl
    rw [this, List.map_id]
  cases hp : p.part with
  | none =>
    have hk : p.keys K = [] := by simp [keys, hp]
    have hs : ∀ x ∈ p.paths, mountOp x.1 (p.keys K) op = [] := fun x _ => by rw [hk]; rfl
    rw [← same hs]
    cases op with
    | append k =>
      simp only [act, app, hp]
      by_cases hc : (k.isKey) = true
      · rw [if_pos hc]
      · rw [if_neg hc]
    | pop => simp only [act, pop, hp]
    | value => simp only [act, value, hp]
    | exists_ => simp only [act, exists_, hp]
    | isNull => simp only [act, isNull, hp]
    | mapping => simp only [act, mapping, hp]
    | sequence => simp only [act, sequence, hp]
    | primitive ty => simp only [act, primitive, hp]
  | some m =>
    have hk : p.keys K = m :: K.keys (p.sub m) := by simp [keys, hp]
    cases hf : p.find m with
    | none =>
      have hs : ∀ x ∈ p.paths, mountOp x.1 (p.keys K) op = [] := fun x hx => by
        rw [hk]; simp only [mountOp]; rw [if_neg (find_none hf x hx)]
      rw [← same hs]
      cases op with
      | append k =>
        simp only [act, app, hp, setSub, hf]
        by_cases hc : k.isKey = true
        · rw [if_pos hc]
        · rw [if_neg hc]
      | pop =>
        simp only [act, pop, hp]
        by_cases hc : (K.keys (p.sub m)).isEmpty = true
        · rw [if_pos hc]
        · rw [if_neg hc]
          cases K.pop (p.sub m) <;> simp [setSub, hf]
      | value => simp only [act, value, hp, onSub, setSub, hf]
      | exists_ =>
        simp only [act, exists_, hp, onSub, setSub, hf]
        cases (K.value (p.sub m)).1 <;> rfl
      | isNull =>
        simp only [act, isNull, hp, onSub, setSub, hf]
        cases (K.value (p.sub m)).1 <;> rfl
      | mapping => simp only [act, mapping, hp, onSub, setSub, hf]
      | sequence => simp only [act, sequence, hp, hf]
      | primitive ty => simp only [act, primitive, hp, hf]
    | some i =>
      obtain ⟨x, hx, hmx⟩ := find_some hf
      have hsub := sub_some hf hx
      -- the operation changes the selected path as routed
      have key : (p.act K op).paths = p.paths.modify i fun r =>
          (r.1, (mountOp x.1 (p.keys K) op).foldl (K.act) (p.sub m)) := by
        rw [hk]
        simp only [mountOp]
        rw [if_pos hmx]
        have hid : p.paths.modify i (fun r => (r.1, p.sub m)) = p.paths := by
          apply List.ext_getElem?
          intro j
          rw [List.getElem?_modify]
          by_cases hj : i = j
          · subst hj
            simp [hx, hsub]
          · simp [hj]
        cases op with
        | append k =>
          simp only [act, app, hp, setSub, hf, List.foldl_cons, List.foldl_nil, Child.act]
          by_cases hc : k.isKey = true
          · rw [if_pos hc, if_pos hc]
          · rw [if_neg hc, if_neg hc]
            exact hid.symm
        | pop =>
          simp only [act, pop, hp]
          by_cases hc : K.keys (p.sub m) = []
          · rw [if_pos (by simp [hc])]
            simp only [hc, if_true, List.foldl_nil]
            exact hid.symm
          · rw [if_neg (by simpa using hc)]
            simp only [hc, if_false, List.foldl_cons, List.foldl_nil, Child.act]
            cases K.pop (p.sub m) with
            | error e => exact hid.symm
            | ok q => simp only [setSub, hf]
        | value => simp only [act, value, hp, onSub, setSub, hf, List.foldl_cons, List.foldl_nil, Child.act]
        | exists_ =>
          simp only [act, exists_, hp, onSub, setSub, hf, List.foldl_cons, List.foldl_nil, Child.act]
          cases (K.value (p.sub m)).1 <;> rfl
        | isNull =>
          simp only [act, isNull, hp, onSub, setSub, hf, List.foldl_cons, List.foldl_nil, Child.act]
          cases (K.value (p.sub m)).1 <;> rfl
        | mapping => simp only [act, mapping, hp, onSub, setSub, hf, List.foldl_cons, List.foldl_nil, Child.act]
        | sequence => simp only [act, sequence, hp, onSub, setSub, hf, List.foldl_cons, List.foldl_nil, Child.act]
        | primitive ty => simp only [act, primitive, hp, onSub, setSub, hf, List.foldl_cons, List.foldl_nil, Child.act]
      rw [key]
      apply List.ext_getElem?
      intro j
      rw [List.getElem?_modify, List.getElem?_map]
      by_cases hj : i = j
      · subst hj
        simp [hx, hsub]
      · simp only [hj, if_false]
        cases hy : p.paths[j]? with
        | none => rfl
        | some y =>
          have hne : m ≠ .str y.1 := by
            rintro rfl
            simp only [Val.str.injEq] at hmx
            obtain ⟨hi', hix⟩ := List.getElem?_eq_some_iff.1 hx
            obtain ⟨hj', hjy⟩ := List.getElem?_eq_some_iff.1 hy
            apply hj
            refine (List.getElem_inj (xs := p.paths.map Prod.fst) (h₀ := by simpa using hi') (h₁ := by simpa using hj') hn).1 ?_
            simp only [List.getElem_map, hix, hjy]
            exact hmx.symm
          have : mountOp y.1 (p.keys K) op = [] := by
            rw [hk]; simp only [mountOp]; rw [if_neg hne]
          simp [this]

theorem act_names {p : MountOf P} (hn : (p.paths.map Prod.fst).Nodup) (op : PathOp) :
    (p.act K op).paths.map Prod.fst = p.paths.map Prod.fst := by
  rw [act_paths hn, List.map_map]
  rfl

/-- A whole history, as seen by the mounted sources. -/
theorem hist_paths (ops : List PathOp) : ∀ {p : MountOf P}, p.WF V → (p.paths.map Prod.fst).Nodup →
    (ops.foldl (act K) p).WF V ∧ (ops.foldl (act K) p).keys K = ops.foldl nestKeys (p.keys K) ∧
    (ops.foldl (act K) p).paths = p.paths.map fun x => (x.1, (mountOps x.1 (p.keys K) ops).foldl (K.act) x.2) := by
  induction ops with
  | nil => intro p h _; exact ⟨h, rfl, by simp [mountOps]⟩
  | cons op ops ih =>
    intro p h hn
    have h1 := act_wf h op
    obtain ⟨h2, h3, h4⟩ := ih (p := p.act K op) h1.1 (by rw [act_names hn]; exact hn)
    refine ⟨h2, ?_, ?_⟩
    · rw [List.foldl_cons, h3, h1.2]; rfl
    · rw [List.foldl_cons, h4, h1.2, act_paths hn, List.map_map]
      apply List.map_congr_left
      intro x _
      simp [mountOps, List.foldl_append]

/-- After any history from the root, the path mounted where the mount path stands has seen its part of it. -/
theorem selected {p0 : MountOf P} (hw : p0.WF V) (h0 : p0.keys K = []) (hn : (p0.paths.map Prod.fst).Nodup)
    (ops : List PathOp) {name : String} {q0 : P} (hm : (name, q0) ∈ p0.paths) {ks : List Val}
    (hk : (ops.foldl (act K) p0).keys K = .str name :: ks) :
    (ops.foldl (act K) p0).part = some (.str name) ∧ (∃ i, (ops.foldl (act K) p0).find (.str name) = some i) ∧
      (ops.foldl (act K) p0).sub (.str name) = (mountOps name [] ops).foldl K.act q0 ∧
      K.keys ((mountOps name [] ops).foldl K.act q0) = ks := by
  obtain ⟨-, -, h3⟩ := hist_paths (K := K) ops hw hn
  rw [h0] at h3
  generalize ops.foldl (act K) p0 = p at *
  have hp : p.part = some (.str name) ∧ K.keys (p.sub (.str name)) = ks := by
    unfold keys at hk
    split at hk
    · cases hk
    · rename_i m hm'
      rw [List.cons.injEq] at hk
      obtain ⟨rfl, hk⟩ := hk
      exact ⟨hm', hk⟩
  have hx : (name, (mountOps name [] ops).foldl K.act q0) ∈ p.paths := by
    rw [h3]
    exact List.mem_map.2 ⟨_, hm, rfl⟩
  cases hf : p.find (.str name) with
  | none => exact (find_none hf _ hx rfl).elim
  | some i =>
    obtain ⟨x, hx1, hx2⟩ := find_some hf
    have hx3 : x ∈ p.paths := List.mem_of_getElem? hx1
    rw [h3] at hx3
    obtain ⟨y, hy, rfl⟩ := List.mem_map.1 hx3
    obtain ⟨yn, yq⟩ := y
    simp only [Val.str.injEq] at hx2
    subst hx2
    have hq : yq = q0 := by
      obtain ⟨a, ha1, ha2⟩ := List.getElem_of_mem hy
      obtain ⟨b, hb1, hb2⟩ := List.getElem_of_mem hm
      have hab : a = b := by
        refine (List.getElem_inj (xs := p0.paths.map Prod.fst) (h₀ := by simpa using ha1) (h₁ := by simpa using hb1) hn).1 ?_
        simp only [List.getElem_map, ha2, hb2]
      subst hab
      rw [ha2] at hb2
      exact congrArg Prod.snd hb2
    subst hq
    have hs := sub_some hf hx1
    exact ⟨hp.1, ⟨i, rfl⟩, hs, (congrArg K.keys hs).symm.trans hp.2⟩

end MountOf

namespace Over
variable {P : Type} {K : Child P}

theorem act_leaf (p : P) (op : PathOp) : (child L K).act (.leaf p) op = .leaf (K.act p op) := by
  cases op with
  | append k =>
    simp only [Child.act, child]
    by_cases hk : k.isKey = true
    · rw [if_pos hk, if_pos hk]
    · rw [if_neg hk, if_neg hk]
  | pop =>
    simp only [Child.act, child, change]
    cases K.pop p <;> rfl
  | _ => rfl

theorem act_mount (p : MountOf P) (op : PathOp) : (child L K).act (.mount p) op = .mount (p.act K op) := by
  cases op with
  | append k =>
    simp only [Child.act, child, MountOf.act]
    by_cases hk : k.isKey = true
    · rw [if_pos hk, if_pos hk]
    · rw [if_neg hk, if_neg hk]
  | pop =>
    simp only [Child.act, child, change, MountOf.act]
    cases p.pop K <;> rfl
  | _ => rfl

theorem hist_leaf (ops : List PathOp) : ∀ p : P,
    ops.foldl (child L K).act (.leaf p) = .leaf (ops.foldl K.act p) := by
  induction ops with
  | nil => exact fun _ => rfl
  | cons op ops ih => intro p; rw [List.foldl_cons, List.foldl_cons, act_leaf, ih]

theorem hist_mount (ops : List PathOp) : ∀ p : MountOf P,
    ops.foldl (child L K).act (.mount p) = .mount (ops.foldl (MountOf.act K) p) := by
  induction ops with
  | nil => exact fun _ => rfl
  | cons op ops ih => intro p; rw [List.foldl_cons, List.foldl_cons, act_mount, ih]

end Over

/-! ## C102 -/

/-- The source `u` is mounted in `t` at the names `names`: mounts inside mounts. -/
inductive Mounted : Tree → List String → Tree → Prop
  | here (t : Tree) : Mounted t [] t
  | step {ts : List (String × Tree)} {name : String} {t u : Tree} {names : List String} (h : (name, t) ∈ ts)
      (ht : Mounted t names u) : Mounted (.mount ts) (name :: names) u

/-- The two paths give the same `value`, `mapping`, `sequence` and `primitive`. -/
structure ReadsAs {P Q : Type} (K : Child P) (p : P) (K' : Child Q) (q : Q) : Prop where
  value : (K.value p).1 = (K'.value q).1
  mapping : (K.mapping p).1 = (K'.mapping q).1
  sequence : (K.sequence p).1 = (K'.sequence q).1
  primitive : ∀ ty, (K.primitive ty p).1 = (K'.primitive ty q).1

theorem ReadsAs.leaf {P Q : Type} {K : Child P} {p : P} {K' : Child Q} {q : Q} (h : ReadsAs K p K' q) :
    ReadsAs (Over.child L K) (.leaf p) K' q := ⟨h.value, h.mapping, h.sequence, h.primitive⟩

theorem ReadsAs.trans {P Q R : Type} {K : Child P} {p : P} {K' : Child Q} {q : Q} {K'' : Child R} {r : R}
    (h : ReadsAs K p K' q) (h' : ReadsAs K' q K'' r) : ReadsAs K p K'' r :=
  ⟨h.value.trans h'.value, h.mapping.trans h'.mapping, h.sequence.trans h'.sequence,
    fun ty => (h.primitive ty).trans (h'.primitive ty)⟩

theorem forall₂_left {α β : Type} {R : α → β → Prop} {as : List α} {bs : List β} (h : List.Forall₂ R as bs) :
    ∀ a ∈ as, ∃ b ∈ bs, R a b := by
  induction h with
  | nil => intro b hb; cases hb
  | cons h1 _ ih =>
    intro b hb
    rcases List.mem_cons.1 hb with rfl | hb
    · exact ⟨_, List.mem_cons_self, h1⟩
    · obtain ⟨a, ha, hr⟩ := ih b hb
      exact ⟨a, List.mem_cons_of_mem _ ha, hr⟩

theorem forall₂_names {α β : Type} {R : String × α → String × β → Prop} {as : List (String × α)}
    {bs : List (String × β)} (hR : ∀ a b, R a b → a.1 = b.1) (h : List.Forall₂ R as bs) :
    as.map Prod.fst = bs.map Prod.fst := by
  induction h with
  | nil => rfl
  | cons h1 _ ih => rw [List.map_cons, List.map_cons, hR _ _ h1, ih]

/-- C102. A path, after any history of moves and reads, that stands at `names` (mount points, one inside the
other) and then `ks`, reads exactly as a path of the source mounted there, after the part of the history that concerns
this source; and that path stands at `ks`.  (`exists` and `is_null` ask for its value.) -/
theorem C102_route_partial : (n : Nat) → ∀ {t u : Tree} {p0 : Nest n} {names : List String} (ops : List PathOp)
    {ks : List Val}, Opens L n t p0 → Mounted t names u →
    (Nest.child L n).keys (ops.foldl (Nest.child L n).act p0) = names.map Val.str ++ ks →
    ∃ (m : Nat) (q0 : Nest m), Opens L m u q0 ∧
      (Nest.child L m).keys ((mountsOps names ops).foldl (Nest.child L m).act q0) = ks ∧
      ReadsAs (Nest.child L n) (ops.foldl (Nest.child L n).act p0)
        (Nest.child L m) ((mountsOps names ops).foldl (Nest.child L m).act q0) ∧
      (names ≠ [] →
        ((Nest.child L n).exists_ (ops.foldl (Nest.child L n).act p0)).1 =
          ((Nest.child L m).value ((mountsOps names ops).foldl (Nest.child L m).act q0)).1.map (!·.isNONE) ∧
        ((Nest.child L n).isNull (ops.foldl (Nest.child L n).act p0)).1 =
          ((Nest.child L m).value ((mountsOps names ops).foldl (Nest.child L m).act q0)).1.map Val.isNull)
  | n, t, u, p0, [], ops, ks, ho, hm, hk => by
    cases hm
    exact ⟨n, p0, ho, hk, ⟨rfl, rfl, rfl, fun _ => rfl⟩, fun h => (h rfl).elim⟩
  | 0, t, u, p0, name :: names, ops, ks, ho, hm, hk => by
    obtain ⟨rfl, -⟩ := ho
    cases hm
  | n + 1, t, u, .leaf p0, name :: names, ops, ks, ho, hm, hk => by
    have e : ops.foldl (Nest.child L (n + 1)).act (.leaf p0) = .leaf (ops.foldl (Nest.child L n).act p0) :=
      Over.hist_leaf ops p0
    rw [e] at hk ⊢
    obtain ⟨m, q0, h1, h2, h3, h4⟩ := C102_route_partial n (p0 := p0) ops ho hm hk
    exact ⟨m, q0, h1, h2, h3.leaf, h4⟩
  | n + 1, t, u, .union p0, name :: names, ops, ks, ho, hm, hk => by
    obtain ⟨cfg, ts, kids, rfl, -⟩ := ho
    cases hm
  | n + 1, t, u, .mount p0, name :: names, ops, ks, ho, hm, hk => by
    have hw := ho.wf (n + 1)
    obtain ⟨ts, paths, rfl, hn, h2, h3⟩ := ho
    have hp : p0.paths = paths := by
      unfold MountOf.make at h3
      split at h3 <;> cases h3
      rfl
    have hnn : (p0.paths.map Prod.fst).Nodup := by
      rw [hp, ← forall₂_names (fun _ _ h => h.1) h2]; exact hn
    have e : ops.foldl (Nest.child L (n + 1)).act (.mount p0) = .mount (ops.foldl (MountOf.act (Nest.child L n)) p0) :=
      Over.hist_mount ops p0
    rw [e] at hk ⊢
    cases hm with
    | step hmem hroute =>
      rename_i t'
      obtain ⟨b, hb, hb1, hb2⟩ := forall₂_left h2 _ hmem
      obtain ⟨bn, q0⟩ := b
      simp only at hb1 hb2
      subst hb1
      obtain ⟨s1, ⟨i, s2⟩, s3, s4⟩ := MountOf.selected (K := Nest.child L n) (V := Nest.laws L n) hw.1 hw.2 hnn ops
        (hp ▸ hb) (ks := names.map Val.str ++ ks) hk
      obtain ⟨m, r0, g1, g2, g3, g4⟩ := C102_route_partial n (mountOps name [] ops) hb2 hroute s4
      refine ⟨m, r0, g1, g2, ReadsAs.trans ⟨?_, ?_, ?_, fun ty => ?_⟩ g3, fun _ => ?_⟩
      · show ((MountOf.value _ _)).1 = _
        simp only [MountOf.value, s1, MountOf.onSub, s3]
      · show ((MountOf.mapping _ _)).1 = _
        simp only [MountOf.mapping, s1, MountOf.onSub, s3]
      · show ((MountOf.sequence _ _)).1 = _
        simp only [MountOf.sequence, s1, s2, MountOf.onSub, s3]
      · show ((MountOf.primitive _ ty _)).1 = _
        simp only [MountOf.primitive, s1, s2, MountOf.onSub, s3]
      · rw [mountsOps, ← g3.value]
        constructor
        · show ((MountOf.exists_ _ _)).1 = _
          simp only [MountOf.exists_, s1, MountOf.onSub, s3]
          cases ((Nest.child L n).value (List.foldl (Nest.child L n).act q0 (mountOps name [] ops))).1 <;> rfl
        · show ((MountOf.isNull _ _)).1 = _
          simp only [MountOf.isNull, s1, MountOf.onSub, s3]
          cases ((Nest.child L n).value (List.foldl (Nest.child L n).act q0 (mountOps name [] ops))).1 <;> rfl

theorem CfgVal.isNONE_toVal (c : CfgVal) : c.toVal.isNONE = c.isNONE := by cases c <;> rfl

theorem SPath.exists_value (p : SPath) : (p.exists_ L).1 = (p.value L).1.map (!·.isNONE) := by
  simp only [exists_, value, withValue]
  repeat' split
  all_goals first
    | rfl
    | simp only [Except.map, CfgVal.isNONE_toVal]

theorem SPath.isNull_value (p : SPath) : (p.isNull L).1 = (p.value L).1.map Val.isNull := by
  simp only [isNull, value, withValue]
  repeat' split
  all_goals rfl

theorem Opens.plain : (m : Nat) → ∀ {s : SPath} {q0 : Nest m}, Opens L m (.plain s) q0 → ∀ ops : List PathOp,
    ReadsAs (Nest.child L m) (ops.foldl (Nest.child L m).act q0) (SPath.child L) (ops.foldl (SPath.child L).act s) ∧
    (Nest.child L m).keys (ops.foldl (Nest.child L m).act q0) = SPath.keys (ops.foldl (SPath.child L).act s)
  | 0, s, q0, h, ops => by
    obtain ⟨h1, -⟩ := h
    cases h1
    exact ⟨⟨rfl, rfl, rfl, fun _ => rfl⟩, rfl⟩
  | m + 1, s, .leaf q0, h, ops => by
    have e : ops.foldl (Nest.child L (m + 1)).act (.leaf q0) = .leaf (ops.foldl (Nest.child L m).act q0) :=
      Over.hist_leaf ops q0
    rw [e]
    obtain ⟨h1, h2⟩ := Opens.plain m (q0 := q0) h ops
    exact ⟨h1.leaf, h2⟩
  | m + 1, s, .union q0, h, ops => by obtain ⟨_, _, _, h, -⟩ := h; cases h
  | m + 1, s, .mount q0, h, ops => by obtain ⟨_, _, h, -⟩ := h; cases h

/-- C102 for a plain source mounted at `names`: the path answers every question as a path of that source alone. -/
theorem C102_plain {n : Nat} {t : Tree} {s : SPath} {p0 : Nest n} {name : String} {names : List String}
    (ops : List PathOp) {ks : List Val} (ho : Opens L n t p0) (hm : Mounted t (name :: names) (.plain s))
    (hk : (Nest.ops L n).keys (ops.foldl (Nest.child L n).act p0) = (name :: names).map Val.str ++ ks) :
    let p := ops.foldl (Nest.child L n).act p0
    let q := (mountsOps (name :: names) ops).foldl (SPath.child L).act s
    q.keys = ks ∧ ((Nest.ops L n).value p).1 = (q.value L).1 ∧ ((Nest.ops L n).exists_ p).1 = (q.exists_ L).1 ∧
    ((Nest.ops L n).isNull p).1 = (q.isNull L).1 ∧
    ((Nest.ops L n).mapping p).1 = (q.mapping L).1.map some ∧ ((Nest.ops L n).sequence p).1 = (q.sequence L).1 ∧
    ∀ ty, ((Nest.ops L n).primitive ty p).1 = (q.primitive L ty).1 := by
  intro p q
  obtain ⟨m, q0, h1, h2, h3, h4⟩ := C102_route_partial n ops ho hm hk
  obtain ⟨g1, g2⟩ := h1.plain m (mountsOps (name :: names) ops)
  have g3 := h3.trans g1
  obtain ⟨h5, h6⟩ := h4 (by simp)
  rw [g1.value] at h5 h6
  refine ⟨g2.symm.trans h2, g3.value, h5.trans (SPath.exists_value q).symm, h6.trans (SPath.isNull_value q).symm, ?_,
    g3.sequence, g3.primitive⟩
  have := g3.mapping
  simp only [Nest.ops]
  generalize (Nest.child L n).mapping p = r at *
  obtain ⟨r, p'⟩ := r
  have this : r = (q.mapping L).1 := this
  rw [← this]
  cases r <;> rfl

namespace Demo

/-- `MountSource({"in": MountSource({"a": DefaultSource(doc)})})` -/
def tree : Tree := .mount [("in", .mount [("a", .plain (SPath.native doc none))])]

/-- Python 2: `iteritems` exists. -/
def libPy2 : Lib := { lib with py3 := false }

/-- What the inner mount opens. -/
def innerPath : Nest 1 := .mount { part := none, dne := SPath.native (.dict []) none, paths := [("a", SPath.native doc none)] }

/-- What the outer mount opens. -/
def outerPath : Nest 2 := .mount { part := none, dne := .leaf (SPath.native (.dict []) none), paths := [("in", innerPath)] }

theorem outer_opens : Opens libPy2 2 tree outerPath :=
  ⟨_, [("in", innerPath)], rfl, by simp, .cons ⟨rfl, _, [("a", SPath.native doc none)], rfl, by simp,
    .cons ⟨rfl, rfl, rfl⟩ .nil, rfl⟩ .nil, rfl⟩

/-- A history that goes into `in`, out, and in again down to `xs[1]`. -/
def hist : List PathOp := [.append (.str "in"), .append (.str "b"), .value, .pop, .append (.str "a"),
  .append (.str "xs"), .exists_, .append (.int 1)]

example : ((Nest.ops libPy2 2).value (hist.foldl (Nest.child libPy2 2).act outerPath)).1 = .ok (.str "2") := by
  have h := (C102_plain (L := libPy2) (n := 2) (t := tree) (p0 := outerPath) (ks := [.str "xs", .int 1]) hist
    outer_opens (.step (List.mem_singleton.2 rfl) (.step (List.mem_singleton.2 rfl) (.here _))) rfl).2.1
  rw [h]
  rfl

/-- C102 fails for `exists` of a mounted mount: it can be mapped, but at its mount point it "does not exist", though
by itself it exists. -/
theorem C102_counterexample :
    ((Nest.ops libPy2 2).exists_ ([PathOp.append (.str "in")].foldl (Nest.child libPy2 2).act outerPath)).1 = .ok false ∧
    ((Nest.ops libPy2 1).exists_ innerPath).1 = .ok true ∧
    ∃ kv, ((Nest.ops libPy2 2).mapping ([PathOp.append (.str "in")].foldl (Nest.child libPy2 2).act outerPath)).1 =
      .ok (some kv) ∧ kv.ks = [.str "a"] := ⟨rfl, rfl, _, rfl, rfl⟩

/-- C101 there: in a block with the nested mount as source, mapping a form from it. -/
example : Undisturbed (Nest.ops libPy2 2) (pushSource (.ok outerPath) {} (St.init : St (Nest 2))).2
    ((Call.formMap 0 (.source (.ok outerPath)) [] false (.str .ignore) true).run (Nest.ops libPy2 2) libPy2 classes 5
      (pushSource (.ok outerPath) {} St.init).2).2 :=
  C101_context_restored (.source _ ⟨tree, outer_opens⟩ _ .init) 5 _ ⟨tree, outer_opens⟩

end Demo

end Pilo
