import Verif.Props.Union

/-!
# C43: mount points route to their source
-/

namespace Pilo
variable {L : Lib}

/-- The effect of one operation on a path that can be mounted. -/
def BPath.act (L : Lib) (p : BPath) : PathOp → BPath
  | .append k => p.append k
  | .pop => match p.pop with
    | .ok q => q
    | .error _ => p
  | .value => (p.value L).2
  | .exists_ => (p.exists_ L).2
  | .isNull => (p.isNull L).2
  | .mapping => (p.mapping L).2
  | .sequence => (p.sequence L).2
  | .primitive ty => (p.primitive L ty).2

/-- The effect of one operation on a mount path; an operation that fails leaves what it leaves. -/
def MPath.act (L : Lib) (p : MPath) : PathOp → MPath
  | .append k => match p.append k with
    | .ok q => q
    | .error _ => p
  | .pop => match p.pop with
    | .ok q => q
    | .error _ => p
  | .value => (p.value L).2
  | .exists_ => (p.exists_ L).2
  | .isNull => (p.isNull L).2
  | .mapping => (p.mapping L).2
  | .sequence => (p.sequence L).2
  | .primitive ty => (p.primitive L ty).2

/-! ## The part of a history that concerns one mount point -/

/-- Where a mount path stands after an operation: only integers and strings name a mount point. -/
def mountKeys (ks : List Val) : PathOp → List Val
  | .append k => if ks = [] ∧ (k.isIntLike || k.isStr) = false then [] else ks ++ [k]
  | .pop => ks.dropLast
  | _ => ks

/-- What an operation on a mount path that stands at `ks` does to the source mounted at `name`: nothing, unless `ks`
begins with `name`; the operations that move in and out of the mount point do not concern it either.  (`is_null` of
a mount path is decided by a read of the value.) -/
def routeOp (name : String) (ks : List Val) (op : PathOp) : List PathOp :=
  match ks with
  | [] => []
  | h :: t =>
    if h = .str name then
      match op with
      | .pop => if t = [] then [] else [.pop]
      | .isNull => [.value]
      | op => [op]
    else []

/-- The part of a history that concerns the source mounted at `name`. -/
def route (name : String) : List Val → List PathOp → List PathOp
  | _, [] => []
  | ks, op :: ops => routeOp name ks op ++ route name (mountKeys ks op) ops

namespace MPath

theorem act_wf {p : MPath} (h : p.WF) (op : PathOp) :
    (p.act L op).WF ∧ (p.act L op).keys = mountKeys p.keys op := by
  cases op with
  | append k =>
    simp only [act]
    split
    · rename_i q hq
      have h1 := append_keys h hq
      refine ⟨h1.2.1, ?_⟩
      rw [h1.1]
      simp only [mountKeys]
      split
      · rename_i hc
        exfalso
        have hp : p.part = none := by
          have := hc.1
          unfold keys at this
          split at this
          · assumption
          · cases this
        simp only [append, hp] at hq
        rw [if_neg (by rw [hc.2]; simp)] at hq
        cases hq
      · rfl
    · rename_i e hq
      refine ⟨h, ?_⟩
      unfold append at hq
      split at hq
      · rename_i hp
        split at hq
        · cases hq
        · rename_i hk
          have : p.keys = [] := by simp [keys, hp]
          simp only [mountKeys, this, true_and]
          rw [if_pos (by simpa using hk)]
      · cases hq
  | pop =>
    simp only [act]
    rcases List.eq_nil_or_concat p.keys with h0 | ⟨ks, k, h0⟩
    · have hp : p.part = none := by
        unfold keys at h0
        split at h0
        · assumption
        · cases h0
      simp only [pop, hp, mountKeys, h0]
      exact ⟨h, rfl⟩
    · obtain ⟨q, h1, h2, h3, -⟩ := pop_keys h (ks := ks) (k := k) (by rw [h0]; simp)
      rw [h1]
      refine ⟨h3, ?_⟩
      simp [mountKeys, h0, h2]
  | value => exact ⟨(value_keeps L h).wf, (value_keeps L h).keys⟩
  | exists_ => exact ⟨(exists_keeps L h).wf, (exists_keeps L h).keys⟩
  | isNull => exact ⟨(isNull_keeps L h).wf, (isNull_keeps L h).keys⟩
  | mapping => exact ⟨(mapping_keeps L h).wf, (mapping_keeps L h).keys⟩
  | sequence => exact ⟨(sequence_keeps L h).wf, (sequence_keeps L h).keys⟩
  | primitive ty => exact ⟨(primitive_keeps L ty h).wf, (primitive_keeps L ty h).keys⟩

theorem find_some {p : MPath} {k : Val} {i : Nat} (h : p.find k = some i) : ∃ x, p.paths[i]? = some x ∧ k = .str x.1 := by
  unfold find at h
  obtain ⟨hi, h1, -⟩ := List.findIdx?_eq_some_iff_getElem.1 h
  exact ⟨_, List.getElem?_eq_getElem hi, UPath.pyEq_str h1⟩

theorem find_none {p : MPath} {k : Val} (h : p.find k = none) : ∀ x ∈ p.paths, k ≠ .str x.1 := by
  unfold find at h
  intro x hx hk
  have := List.findIdx?_eq_none_iff.1 h x hx
  subst hk
  simp [Val.pyEq] at this

theorem sub_some {p : MPath} {k : Val} {i : Nat} {x : String × BPath} (h : p.find k = some i) (hx : p.paths[i]? = some x) :
    p.sub k = x.2 := by
  unfold sub
  rw [h]
  dsimp only
  rw [hx]

/-- One operation, as seen by the mounted sources. -/
theorem act_paths {p : MPath} (hn : (p.paths.map Prod.fst).Nodup) (op : PathOp) :
    (p.act L op).paths = p.paths.map fun x => (x.1, (routeOp x.1 p.keys op).foldl (BPath.act L) x.2) := by
  have same : (∀ x ∈ p.paths, routeOp x.1 p.keys op = []) →
      p.paths = p.paths.map fun x => (x.1, (routeOp x.1 p.keys op).foldl (BPath.act L) x.2) := by
    intro hs
    have : p.paths.map (fun x => (x.1, (routeOp x.1 p.keys op).foldl (BPath.act L) x.2)) = p.paths.map id :=
      List.map_congr_left fun x hx => by rw [hs x hx]; rfl
    rw [this, List.map_id]
  cases hp : p.part with
  | none =>
    have hk : p.keys = [] := by simp [keys, hp]
    have hs : ∀ x ∈ p.paths, routeOp x.1 p.keys op = [] := fun x _ => by rw [hk]; rfl
    rw [← same hs]
    cases op with
    | append k =>
      simp only [act, append, hp]
      by_cases hc : (k.isIntLike || k.isStr) = true
      · rw [if_pos hc]
      · rw [if_neg hc]
    | pop => simp only [act, pop, hp]
    | value => simp only [act, value, hp]
    | exists_ => simp only [act, exists_, hp]
    | isNull => simp only [act, isNull, hp]
    | mapping => simp only [act, mapping, hp]
    | sequence => simp only [act, sequence, hp]
    | primitive ty => simp only [act, primitive, hp]
  | some m =>
    have hk : p.keys = m :: (p.sub m).keys := by simp [keys, hp]
    cases hf : p.find m with
    | none =>
      have hs : ∀ x ∈ p.paths, routeOp x.1 p.keys op = [] := fun x hx => by
        rw [hk]; simp only [routeOp]; rw [if_neg (find_none hf x hx)]
      rw [← same hs]
      cases op with
      | append k => simp only [act, append, hp, setSub, hf]
      | pop =>
        simp only [act, pop, hp]
        by_cases hc : (p.sub m).keys.isEmpty = true
        · rw [if_pos hc]
        · rw [if_neg hc]
          cases (p.sub m).pop <;> simp [setSub, hf]
      | value => simp only [act, value, hp, onSub, setSub, hf]
      | exists_ => simp only [act, exists_, hp, onSub, setSub, hf]
      | isNull =>
        simp only [act, isNull, hp, onSub, setSub, hf]
        cases ((p.sub m).value L).1 <;> rfl
      | mapping => simp only [act, mapping, hp, onSub, setSub, hf]
      | sequence => simp only [act, sequence, hp, hf]
      | primitive ty => simp only [act, primitive, hp, hf]
    | some i =>
      obtain ⟨x, hx, hmx⟩ := find_some hf
      have hsub := sub_some hf hx
      -- the operation changes the selected path as routed
      have key : (p.act L op).paths = p.paths.modify i fun r =>
          (r.1, (routeOp x.1 p.keys op).foldl (BPath.act L) (p.sub m)) := by
        rw [hk]
        simp only [routeOp]
        rw [if_pos hmx]
        have hid : p.paths.modify i (fun r => (r.1, p.sub m)) = p.paths := by
          apply List.ext_getElem?
          intro j
          rw [List.getElem?_modify]
          by_cases hj : i = j
          · subst hj
            simp [hx, hsub]
          · simp [hj]
        cases op with
        | append k => simp only [act, append, hp, setSub, hf, List.foldl_cons, List.foldl_nil, BPath.act]
        | pop =>
          simp only [act, pop, hp]
          by_cases hc : (p.sub m).keys = []
          · rw [if_pos (by simp [hc])]
            simp only [hc, if_true, List.foldl_nil]
            exact hid.symm
          · rw [if_neg (by simpa using hc)]
            simp only [hc, if_false, List.foldl_cons, List.foldl_nil, BPath.act]
            cases (p.sub m).pop with
            | error e => exact hid.symm
            | ok q => simp only [setSub, hf]
        | value => simp only [act, value, hp, onSub, setSub, hf, List.foldl_cons, List.foldl_nil, BPath.act]
        | exists_ => simp only [act, exists_, hp, onSub, setSub, hf, List.foldl_cons, List.foldl_nil, BPath.act]
        | isNull =>
          simp only [act, isNull, hp, onSub, setSub, hf, List.foldl_cons, List.foldl_nil, BPath.act]
          cases ((p.sub m).value L).1 <;> rfl
        | mapping => simp only [act, mapping, hp, onSub, setSub, hf, List.foldl_cons, List.foldl_nil, BPath.act]
        | sequence => simp only [act, sequence, hp, onSub, setSub, hf, List.foldl_cons, List.foldl_nil, BPath.act]
        | primitive ty => simp only [act, primitive, hp, onSub, setSub, hf, List.foldl_cons, List.foldl_nil, BPath.act]
      rw [key]
      apply List.ext_getElem?
      intro j
      rw [List.getElem?_modify, List.getElem?_map]
      by_cases hj : i = j
      · subst hj
        simp [hx, hsub]
      · simp only [hj, if_false]
        cases hy : p.paths[j]? with
        | none => rfl
        | some y =>
          have hne : m ≠ .str y.1 := by
            rintro rfl
            simp only [Val.str.injEq] at hmx
            obtain ⟨hi', hix⟩ := List.getElem?_eq_some_iff.1 hx
            obtain ⟨hj', hjy⟩ := List.getElem?_eq_some_iff.1 hy
            apply hj
            refine (List.getElem_inj (xs := p.paths.map Prod.fst) (h₀ := by simpa using hi') (h₁ := by simpa using hj') hn).1 ?_
            simp only [List.getElem_map, hix, hjy]
            exact hmx.symm
          have : routeOp y.1 p.keys op = [] := by
            rw [hk]; simp only [routeOp]; rw [if_neg hne]
          simp [this]

theorem act_names {p : MPath} (hn : (p.paths.map Prod.fst).Nodup) (op : PathOp) :
    (p.act L op).paths.map Prod.fst = p.paths.map Prod.fst := by
  rw [act_paths hn, List.map_map]
  rfl

/-- A whole history, as seen by the mounted sources. -/
theorem hist_paths (ops : List PathOp) : ∀ {p : MPath}, p.WF → (p.paths.map Prod.fst).Nodup →
    (ops.foldl (MPath.act L) p).WF ∧ (ops.foldl (MPath.act L) p).keys = ops.foldl mountKeys p.keys ∧
    (ops.foldl (MPath.act L) p).paths = p.paths.map fun x => (x.1, (route x.1 p.keys ops).foldl (BPath.act L) x.2) := by
  induction ops with
  | nil => intro p h _; exact ⟨h, rfl, by simp [route]⟩
  | cons op ops ih =>
    intro p h hn
    have h1 := act_wf (L := L) h op
    obtain ⟨h2, h3, h4⟩ := ih (p := p.act L op) h1.1 (by rw [act_names hn]; exact hn)
    refine ⟨h2, ?_, ?_⟩
    · rw [List.foldl_cons, h3, h1.2]; rfl
    · rw [List.foldl_cons, h4, h1.2, act_paths hn, List.map_map]
      apply List.map_congr_left
      intro x _
      simp [route, List.foldl_append]

/-- A mount source of the sources at the root paths `mounts`, after a history. -/
def Of (L : Lib) (mounts : List (String × BPath)) (ops : List PathOp) (p : MPath) : Prop :=
  (∀ x ∈ mounts, x.2.WF ∧ x.2.keys = []) ∧ (mounts.map Prod.fst).Nodup ∧
  ∃ p0, mk' L mounts = .ok p0 ∧ p = ops.foldl (MPath.act L) p0

theorem Of.spec {mounts : List (String × BPath)} {ops : List PathOp} {p : MPath} (h : Of L mounts ops p) :
    p.WF ∧ p.keys = ops.foldl mountKeys [] ∧
    p.paths = mounts.map fun x => (x.1, (route x.1 [] ops).foldl (BPath.act L) x.2) := by
  obtain ⟨hw, hn, p0, h0, rfl⟩ := h
  obtain ⟨h1, h2⟩ := mk'_wf hw h0
  have hp : p0.paths = mounts := by
    unfold mk' at h0
    split at h0
    · cases h0
    · cases h0; rfl
  have := hist_paths (L := L) ops h1 (by rw [hp]; exact hn)
  rw [h2, hp] at this
  exact this

/-- C43, where a mount path stands: the appended keys less the popped ones. -/
theorem C43_keys {mounts : List (String × BPath)} {ops : List PathOp} {p : MPath} (h : Of L mounts ops p) :
    p.keys = ops.foldl mountKeys [] := h.spec.2.1

theorem selected {mounts : List (String × BPath)} {ops : List PathOp} {p : MPath} (h : Of L mounts ops p)
    {name : String} {q0 : BPath} (hm : (name, q0) ∈ mounts) {ks : List Val}
    (hk : p.keys = .str name :: ks) :
    p.part = some (.str name) ∧ (∃ i, p.find (.str name) = some i) ∧
      p.sub (.str name) = (route name [] ops).foldl (BPath.act L) q0 ∧
      ((route name [] ops).foldl (BPath.act L) q0).keys = ks := by
  obtain ⟨h1, h2, h3⟩ := h.spec
  have hp : p.part = some (.str name) ∧ (p.sub (.str name)).keys = ks := by
    unfold keys at hk
    split at hk
    · cases hk
    · rename_i m hm'
      rw [List.cons.injEq] at hk
      obtain ⟨rfl, hk⟩ := hk
      exact ⟨hm', hk⟩
  have hx : (name, (route name [] ops).foldl (BPath.act L) q0) ∈ p.paths := by
    rw [h3]
    exact List.mem_map.2 ⟨_, hm, rfl⟩
  cases hf : p.find (.str name) with
  | none => exact (find_none hf _ hx rfl).elim
  | some i =>
    obtain ⟨x, hx1, hx2⟩ := find_some hf
    have hx3 : x ∈ p.paths := List.mem_of_getElem? hx1
    rw [h3] at hx3
    obtain ⟨y, hy, rfl⟩ := List.mem_map.1 hx3
    obtain ⟨yn, yq⟩ := y
    simp only [Val.str.injEq] at hx2
    subst hx2
    have hyq : yq = q0 := by
      have hn := h.2.1
      obtain ⟨i1, hi1, e1⟩ := List.mem_iff_getElem.1 hy
      obtain ⟨i2, hi2, e2⟩ := List.mem_iff_getElem.1 hm
      have : i1 = i2 := by
        refine (List.getElem_inj (xs := mounts.map Prod.fst) (h₀ := by simpa using hi1) (h₁ := by simpa using hi2) hn).1 ?_
        simp only [List.getElem_map, e1, e2]
      subst this
      rw [e1] at e2
      exact (Prod.mk.inj e2).2
    subst hyq
    have hs := sub_some hf hx1
    exact ⟨hp.1, ⟨i, rfl⟩, hs, (congrArg BPath.keys hs).symm.trans hp.2⟩

/-- C43. A mount path, after any history of moves and reads, that stands at the mount point `name` answers exactly
as a path of the source mounted there, after the part of the history that concerns this source; and that path stands
at the remaining keys.  (`is_null` asks whether its value is null.) -/
theorem C43_route_partial {mounts : List (String × BPath)} {ops : List PathOp} {p : MPath} (h : Of L mounts ops p)
    {name : String} {q0 : BPath} (hm : (name, q0) ∈ mounts) {ks : List Val}
    (hk : p.keys = .str name :: ks) :
    let q := (route name [] ops).foldl (BPath.act L) q0
    q.keys = ks ∧ (p.value L).1 = (q.value L).1 ∧ (p.exists_ L).1 = (q.exists_ L).1 ∧
    (p.isNull L).1 = (q.value L).1.map Val.isNull ∧ (p.mapping L).1 = (q.mapping L).1 ∧
    (p.sequence L).1 = (q.sequence L).1 ∧ ∀ ty, (p.primitive L ty).1 = (q.primitive L ty).1 := by
  intro q
  obtain ⟨h1, ⟨i, h2⟩, h3, h4⟩ := selected h hm hk
  change p.sub (.str name) = q at h3
  refine ⟨h4, ?_, ?_, ?_, ?_, ?_, fun ty => ?_⟩
  · simp only [value, h1, onSub, h3]
  · simp only [exists_, h1, onSub, h3]
  · simp only [isNull, h1, onSub, h3]
    cases (q.value L).1 <;> rfl
  · simp only [mapping, h1, onSub, h3]
  · simp only [sequence, h1, h2, onSub, h3]
  · simp only [primitive, h1, h2, onSub, h3]

theorem act_simple (s : SPath) (op : PathOp) : BPath.act L (.simple s) op = .simple (s.act L op) := by
  cases op with
  | pop =>
    simp only [BPath.act, BPath.pop, SPath.act]
    cases s.pop <;> rfl
  | _ => rfl

theorem hist_simple (ops : List PathOp) : ∀ s : SPath,
    ops.foldl (BPath.act L) (.simple s) = .simple (ops.foldl (SPath.act L) s) := by
  induction ops with
  | nil => exact fun _ => rfl
  | cons op ops ih => intro s; rw [List.foldl_cons, List.foldl_cons, act_simple, ih]

/-- C43: for a mounted default, JSON or config source also `is_null` is that of the source alone. -/
theorem C43_null {mounts : List (String × BPath)} {ops : List PathOp} {p : MPath} (h : Of L mounts ops p)
    {name : String} {q0 : SPath} (hm : (name, .simple q0) ∈ mounts) {ks : List Val}
    (hk : p.keys = .str name :: ks) : (p.isNull L).1 = (((route name [] ops).foldl (SPath.act L) q0).isNull L).1 := by
  have := (C43_route_partial h hm hk).2.2.2.1
  rw [this, hist_simple]
  simp only [BPath.value, BPath.read, SPath.value, SPath.isNull, SPath.withValue]
  repeat' split
  all_goals rfl

/-- C43, at the root: a mount path exists, is not null, and lists the mount points. -/
theorem C43_root {mounts : List (String × BPath)} {ops : List PathOp} {p : MPath} (h : Of L mounts ops p)
    (hk : p.keys = []) : (p.exists_ L).1 = .ok true ∧ (p.isNull L).1 = .ok false ∧
    ∃ kv, (p.mapping L).1 = .ok kv ∧ kv.ks = mounts.map fun x => .str x.1 := by
  have hp : p.part = none := by
    unfold keys at hk
    split at hk
    · assumption
    · cases hk
  have h3 := h.spec.2.2
  refine ⟨by simp [exists_, hp], by simp [isNull, hp], { ks := p.paths.map fun q => .str q.1 }, by simp only [mapping, hp], ?_⟩
  simp [h3, List.map_map]

/-- C43, an unknown mount point: it cannot be read as a primitive or a sequence (a `KeyError`). -/
theorem C43_unknown_partial {mounts : List (String × BPath)} {ops : List PathOp} {p : MPath} (h : Of L mounts ops p)
    {m : Val} (hm : ∀ x ∈ mounts, m ≠ .str x.1) {ks : List Val} (hk : p.keys = m :: ks) (ty : PTy) :
    (p.primitive L ty).1 = .error (.keyError "") ∧ (p.sequence L).1 = .error (.keyError "") := by
  have h3 := h.spec.2.2
  have hp : p.part = some m := by
    unfold keys at hk
    split at hk
    · cases hk
    · rename_i m' hm'
      rw [List.cons.injEq] at hk
      obtain ⟨rfl, hk⟩ := hk
      exact hm'
  have hf : p.find m = none := by
    cases hf : p.find m with
    | none => rfl
    | some i =>
      obtain ⟨x, hx1, hx2⟩ := find_some hf
      have := List.mem_of_getElem? hx1
      rw [h3] at this
      obtain ⟨y, hy, rfl⟩ := List.mem_map.1 this
      exact (hm y hy hx2).elim
  constructor
  · simp only [primitive, hp, hf]
  · simp only [sequence, hp, hf]

/-! ## Examples and counterexamples -/

namespace Ex

/-- Python 2. -/
def lib : Lib := { Demo.lib with py3 := false }

/-- `MountSource(env={'a': 1}, file=JsonSource('{"a": {"b": 2}}'))`. -/
def mounts : List (String × BPath) :=
  [("env", .simple (SPath.native (.dict [(.str "a", .int 1)]) none)),
   ("file", .simple (.json true none { root := .dict [(.str "a", .dict [(.str "b", .int 2)])], parts := [] }))]

/-- The mount path after a history. -/
def after (ops : List PathOp) : MPath :=
  ops.foldl (MPath.act lib) { part := none, dne := .simple (SPath.native (.dict []) none), paths := mounts }

theorem after_of (ops : List PathOp) : Of lib mounts ops (after ops) := by
  refine ⟨?_, by simp [mounts], _, rfl, rfl⟩
  intro x hx
  simp only [mounts, List.mem_cons, List.not_mem_nil, or_false] at hx
  rcases hx with rfl | rfl
  · exact ⟨SPath.native_tidy (.dict [(.str "a", .int 1)]) none, rfl⟩
  · exact ⟨SPath.native_tidy (.dict [(.str "a", .dict [(.str "b", .int 2)])]) none, rfl⟩

/-- In and out of `env`, then down `file`. -/
def trip : List PathOp := [.append (.str "env"), .append (.str "a"), .value, .pop, .pop, .append (.str "file"),
  .mapping, .append (.str "a"), .append (.str "b")]

example : route "file" [] trip = [.mapping, .append (.str "a"), .append (.str "b")] := by rfl
example : route "env" [] trip = [.append (.str "a"), .value, .pop] := by rfl
example : (after trip).keys = [.str "file", .str "a", .str "b"] := by decide +kernel
example : ((after trip).primitive lib .int).1 = .ok (.int 2) := by decide +kernel
example : ((after trip).primitive lib .int).1 = ((route "file" [] trip).foldl (BPath.act lib)
    (.simple (.json true none { root := .dict [(.str "a", .dict [(.str "b", .int 2)])], parts := [] })) |>.primitive lib .int).1 :=
  (C43_route_partial (after_of trip) (by simp [mounts]) (ks := [.str "a", .str "b"]) (by decide +kernel)).2.2.2.2.2.2 .int

/-- C43 is false as to unknown mount points: they exist, as an empty mapping, and reading a primitive or a sequence
raises a `KeyError` rather than finding nothing. -/
theorem C43_unknown_counterexample :
    ((after [.append (.str "nope")]).exists_ lib).1 = .ok true ∧
    ((after [.append (.str "nope")]).isNull lib).1 = .ok false ∧
    (((after [.append (.str "nope")]).mapping lib).1.toOption.map KeysView.ks) = some [] ∧
    ((after [.append (.str "nope")]).primitive lib .int).1 = .error (.keyError "") := by
  decide +kernel

/-- C43 is false as to `is_null` of a mounted union: alone, a union path at a mapping to which no source contributes
is null; mounted, it is not. -/
theorem C43_union_null_counterexample :
    let u : Option BPath := (UPath.mk' lib {} [SPath.native (.dict [(.str "n", .none)]) none]).toOption.map BPath.union
    u.map (fun q => ([PathOp.append (.str "n"), .mapping].foldl (BPath.act lib) q |>.isNull lib).1) = some (.ok true) ∧
    u.map (fun q => ([PathOp.append (.str "u"), .append (.str "n"), .mapping].foldl (MPath.act lib)
      { part := none, dne := .simple (SPath.native (.dict []) none), paths := [("u", q)] } |>.isNull lib).1) =
      some (.ok false) := by
  decide +kernel

end Ex
end MPath
end Pilo
