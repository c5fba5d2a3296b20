import Verif.Source.Cache
import Verif.Demo
import Verif.ValEq
import Verif.Dots

/-!
# C19–C21: resolving paths
-/

namespace Pilo
variable {L : Lib}

/-! ## Histories of a path -/

/-- What can be done to a path between reads of its value. -/
inductive PathOp where
  | append (k : Val)
  | pop
  | value
  | exists_
  | isNull
  | mapping
  | sequence
  | primitive (ty : PTy)

/-- The effect of one operation on the path; a failing operation leaves what it leaves. -/
def SPath.act (L : Lib) (p : SPath) : PathOp → SPath
  | .append k => p.append k
  | .pop => match p.pop with
    | .ok q => q
    | .error _ => p
  | .value => (p.value L).2
  | .exists_ => (p.exists_ L).2
  | .isNull => (p.isNull L).2
  | .mapping => (p.mapping L).2
  | .sequence => (p.sequence L).2
  | .primitive ty => (p.primitive L ty).2

/-- The keys after one operation: `append` and `pop` act on a list, reads do nothing. -/
def PathOp.keys (ks : List Val) : PathOp → List Val
  | .append k => ks ++ [k]
  | .pop => ks.dropLast
  | _ => ks

/-- The keys an operation mentions satisfy `K`. -/
def PathOp.Uses (K : Val → Prop) : PathOp → Prop
  | .append k => K k
  | _ => True

/-- What a history does to the key list. -/
def histKeys (ops : List PathOp) : List Val := ops.foldl PathOp.keys []

/-- One value read: `follow` with `NONE`-checked keys. -/
def jsonStep (c k : Val) : Except Exc Val := .ok (resolveJson c k)

/-- A state of a path whose cache is good, with given root and keys. -/
structure PathSt.Fine {C : Type} (R : C → Val → Except Exc C) (K : Val → Prop) (root : C)
    (ks : List Val) (p : PathSt C) : Prop where
  tidy : p.Tidy
  good : PathSt.Good R p.root p.parts
  root : p.root = root
  keys : p.keys = ks
  uses : ∀ k ∈ ks, K k

namespace PathSt.Fine
variable {C : Type} {R : C → Val → Except Exc C} {K : Val → Prop} {root : C} {ks : List Val}
  {p : PathSt C}

theorem init (root : C) : Fine R K root [] { root := root, parts := [] } where
  tidy := by intro q hq; cases hq
  good := by intro pre q post v h; simp at h
  root := rfl
  keys := rfl
  uses := by simp

theorem append (h : Fine R K root ks p) {k : Val} (hk : K k) : Fine R K root (ks ++ [k]) (p.append k) where
  tidy := PathSt.append_tidy h.tidy k
  good := PathSt.Good.append h.good k
  root := h.root
  keys := by rw [PathSt.append_keys, h.keys]
  uses := by
    intro k' hk'
    rcases List.mem_append.1 hk' with h1 | h1
    · exact h.uses k' h1
    · rw [List.mem_singleton.1 h1]; exact hk

theorem pop (h : Fine R K root ks p) {q : PathSt C} (hq : p.pop = .ok q) :
    Fine R K root ks.dropLast q := by
  obtain ⟨h1, h2, x, h3⟩ := PathSt.Good.pop h.good hq
  have hk : p.keys = q.keys ++ [x.key] := by simp [PathSt.keys, h3]
  refine ⟨?_, h1, h2.trans h.root, ?_, ?_⟩
  · intro y hy; exact h.tidy y (by rw [h3]; simp [hy])
  · rw [← h.keys, hk]; simp
  · intro k hk'; exact h.uses k (List.dropLast_subset _ hk')

theorem pop_error (h : Fine R K root ks p) {e : Exc} (hq : p.pop = .error e) :
    Fine R K root ks.dropLast p := by
  have : p.parts = [] := by
    unfold PathSt.pop at hq
    cases hr : p.parts.reverse with
    | nil => simpa using hr
    | cons q rest => rw [hr] at hq; simp at hq
  have hks : ks = [] := by rw [← h.keys]; simp [PathSt.keys, this]
  subst hks
  exact h

theorem value {isN : C → Bool} (hR : PathSt.Absorbs R isN K) (h : Fine R K root ks p) :
    (PathSt.value (PathSt.plain R) isN () p).1 = PathSt.spec R root ks ∧
    Fine R K root ks (PathSt.value (PathSt.plain R) isN () p).2.2 := by
  obtain ⟨h1, h2, h3⟩ := PathSt.value_spec hR h.tidy (by rw [h.keys]; exact h.uses) h.good
  rw [h.root, h.keys] at h1
  have hsig := PathSt.value_sig (PathSt.plain R) isN () p
  exact ⟨h1, PathSt.tidy_of_sig hsig h.tidy, by rw [h3]; exact h2, h3.trans h.root,
    (PathSt.keys_of_sig hsig).trans h.keys, h.uses⟩

end PathSt.Fine

/-! ## C19 -/

theorem jsonStep_absorbs : PathSt.Absorbs jsonStep Val.isNONE (fun _ => True) := by
  intro c k hc _
  cases c <;> simp [Val.isNONE] at hc
  rename_i x
  cases x <;> simp at hc
  have hn : ∀ as, jsonAtoms (.const .NONE) as = .ok (.const .NONE) ∨ ∃ e, jsonAtoms (.const .NONE) as = .error e := by
    intro as
    cases as with
    | nil => exact .inl rfl
    | cons a as => exact .inr ⟨_, rfl⟩
  unfold jsonStep
  cases k with
  | str s =>
    cases hd : hasDot s with
    | true =>
      rcases hn (dotSplit s) with h | ⟨e, h⟩ <;> simp [resolveJson, hd, h]
    | false => simp [resolveJson, hd, getItem]
  | _ => rfl

theorem cfgStep_absorbs (cfg : ConfigCfg) :
    PathSt.Absorbs (resolveConfig L cfg) CfgVal.isNONE (fun _ => True) := by
  intro c k hc _
  cases c with
  | val v =>
    cases v <;> simp [CfgVal.isNONE, Val.isNONE] at hc
    rename_i x
    cases x <;> simp at hc
    simp [resolveConfig, cfgGet, getItem]
  | _ => simp [CfgVal.isNONE] at hc

/-- A JSON path whose cache is good. -/
def FineJson (strict : Bool) (loc : Option String) (doc : Val) (ks : List Val) (p : SPath) : Prop :=
  ∃ st, p = .json strict loc st ∧ PathSt.Fine jsonStep (fun _ => True) doc ks st

theorem FineJson.withValue {α : Type} {strict : Bool} {loc : Option String} {doc : Val} {ks : List Val}
    {p : SPath} (h : FineJson strict loc doc ks p)
    (onD : DefaultCfg → List Val → Val → Except Exc α) (onJ : Bool → Val → Except Exc α)
    (onC : ConfigCfg → List Val → CfgVal → Except Exc α) :
    (p.withValue L onD onJ onC).1 = (match PathSt.spec jsonStep doc ks with
      | .ok v => onJ strict v
      | .error e => .error e) ∧
    FineJson strict loc doc ks (p.withValue L onD onJ onC).2 := by
  obtain ⟨st, rfl, hst⟩ := h
  obtain ⟨h1, h2⟩ := hst.value jsonStep_absorbs
  have hv : SPath.valueJson st = ((PathSt.value (PathSt.plain jsonStep) Val.isNONE () st).1,
      (PathSt.value (PathSt.plain jsonStep) Val.isNONE () st).2.2) := rfl
  simp only [SPath.withValue, hv, h1]
  cases PathSt.spec jsonStep doc ks with
  | ok v => exact ⟨rfl, _, rfl, h2⟩
  | error e => exact ⟨rfl, _, rfl, h2⟩

theorem FineJson.act {strict : Bool} {loc : Option String} {doc : Val} {ks : List Val}
    {p : SPath} (h : FineJson strict loc doc ks p) (op : PathOp) :
    FineJson strict loc doc (op.keys ks) (p.act L op) := by
  cases op with
  | append k =>
    obtain ⟨st, rfl, hst⟩ := h
    exact ⟨_, rfl, hst.append trivial⟩
  | pop =>
    obtain ⟨st, rfl, hst⟩ := h
    simp only [SPath.act, SPath.pop, PathOp.keys]
    cases hp : st.pop with
    | ok st' => exact ⟨_, rfl, hst.pop hp⟩
    | error e => exact ⟨_, rfl, hst.pop_error hp⟩
  | value => exact (h.withValue _ _ _).2
  | exists_ => exact (h.withValue _ _ _).2
  | isNull => exact (h.withValue _ _ _).2
  | mapping => exact (h.withValue _ _ _).2
  | sequence => exact (h.withValue _ _ _).2
  | primitive ty => exact (h.withValue _ _ _).2

theorem FineJson.hist {strict : Bool} {loc : Option String} {doc : Val} (ops : List PathOp) :
    FineJson strict loc doc (histKeys ops)
      (ops.foldl (SPath.act L) (.json strict loc { root := doc, parts := [] })) := by
  suffices h : ∀ ks p, FineJson strict loc doc ks p →
      FineJson strict loc doc (ops.foldl PathOp.keys ks) (ops.foldl (SPath.act L) p) from
    h _ _ ⟨_, rfl, PathSt.Fine.init doc⟩
  induction ops with
  | nil => intro ks p h; exact h
  | cons op ops ih => intro ks p h; exact ih _ _ (h.act op)

/-- C19 for JSON sources: after any history, `path.value` is the plain resolution of the keys the history
leaves. -/
theorem C19_json (strict : Bool) (loc : Option String) (doc : Val) (ops : List PathOp) :
    (SPath.value L (ops.foldl (SPath.act L) (.json strict loc { root := doc, parts := [] }))).1
      = PathSt.spec jsonStep doc (histKeys ops) := by
  have := ((FineJson.hist (L := L) (strict := strict) (loc := loc) (doc := doc) ops).withValue
    (L := L) (fun _ _ v => .ok v) (fun _ v => .ok v) (fun _ _ v => .ok v.toVal)).1
  unfold SPath.value
  rw [this]
  cases PathSt.spec jsonStep doc (histKeys ops) <;> rfl

/-- A config path whose cache is good. -/
def FineCfg (L : Lib) (cfg : ConfigCfg) (ks : List Val) (p : SPath) : Prop :=
  ∃ st, p = .config cfg st ∧ PathSt.Fine (resolveConfig L cfg) (fun _ => True) cfg.rootVal ks st

theorem FineCfg.withValue {α : Type} {cfg : ConfigCfg} {ks : List Val}
    {p : SPath} (h : FineCfg L cfg ks p)
    (onD : DefaultCfg → List Val → Val → Except Exc α) (onJ : Bool → Val → Except Exc α)
    (onC : ConfigCfg → List Val → CfgVal → Except Exc α) :
    (p.withValue L onD onJ onC).1 = (match PathSt.spec (resolveConfig L cfg) cfg.rootVal ks with
      | .ok v => onC cfg ks v
      | .error e => .error e) ∧
    FineCfg L cfg ks (p.withValue L onD onJ onC).2 := by
  obtain ⟨st, rfl, hst⟩ := h
  obtain ⟨h1, h2⟩ := hst.value (cfgStep_absorbs cfg)
  have hv : SPath.valueCfg L cfg st
    = ((PathSt.value (PathSt.plain (resolveConfig L cfg)) CfgVal.isNONE () st).1,
      (PathSt.value (PathSt.plain (resolveConfig L cfg)) CfgVal.isNONE () st).2.2) := rfl
  simp only [SPath.withValue, hv, h1, hst.keys]
  cases PathSt.spec (resolveConfig L cfg) cfg.rootVal ks with
  | ok v => exact ⟨rfl, _, rfl, h2⟩
  | error e => exact ⟨rfl, _, rfl, h2⟩

theorem FineCfg.act {cfg : ConfigCfg} {ks : List Val} {p : SPath} (h : FineCfg L cfg ks p) (op : PathOp) :
    FineCfg L cfg (op.keys ks) (p.act L op) := by
  cases op with
  | append k =>
    obtain ⟨st, rfl, hst⟩ := h
    exact ⟨_, rfl, hst.append trivial⟩
  | pop =>
    obtain ⟨st, rfl, hst⟩ := h
    simp only [SPath.act, SPath.pop, PathOp.keys]
    cases hp : st.pop with
    | ok st' => exact ⟨_, rfl, hst.pop hp⟩
    | error e => exact ⟨_, rfl, hst.pop_error hp⟩
  | value => exact (h.withValue _ _ _).2
  | exists_ => exact (h.withValue _ _ _).2
  | isNull => exact (h.withValue _ _ _).2
  | mapping => exact (h.withValue _ _ _).2
  | sequence => exact (h.withValue _ _ _).2
  | primitive ty => exact (h.withValue _ _ _).2

theorem FineCfg.hist {cfg : ConfigCfg} (ops : List PathOp) :
    FineCfg L cfg (histKeys ops)
      (ops.foldl (SPath.act L) (.config cfg { root := cfg.rootVal, parts := [] })) := by
  suffices h : ∀ ks p, FineCfg L cfg ks p →
      FineCfg L cfg (ops.foldl PathOp.keys ks) (ops.foldl (SPath.act L) p) from
    h _ _ ⟨_, rfl, PathSt.Fine.init _⟩
  induction ops with
  | nil => intro ks p h; exact h
  | cons op ops ih => intro ks p h; exact ih _ _ (h.act op)

/-- C19 for config sources. -/
theorem C19_config (cfg : ConfigCfg) (ops : List PathOp) :
    (SPath.value L (ops.foldl (SPath.act L) (.config cfg { root := cfg.rootVal, parts := [] }))).1
      = match PathSt.spec (resolveConfig L cfg) cfg.rootVal (histKeys ops) with
        | .ok v => .ok v.toVal
        | .error e => .error e := by
  exact ((FineCfg.hist (L := L) (cfg := cfg) ops).withValue
    (L := L) (fun _ _ v => .ok v) (fun _ v => .ok v) (fun _ _ v => .ok v.toVal)).1

/-! ### Native sources

Without aliases and ignores a native source resolves keys independently of the rest of the path.  A key
is *dull* when it names nothing on the `NONE` constant itself (which has an attribute `name`, a class,
...). -/

/-- `DefaultPath.resolve` for a source without aliases and ignores. -/
def nativeStep (L : Lib) (loc : Option String) (c k : Val) : Except Exc Val :=
  resolveDefault L { location := loc } [] c k

/-- The key resolves to nothing on the constant `NONE`. -/
def DullKey (L : Lib) (k : Val) : Prop := resolveDefault L {} [] .NONE k = .ok .NONE

theorem resolveAtom_keys (loc : Option String) (ks : List Val) (c k : Val) :
    resolveAtom L { location := loc } ks c k = resolveAtom L {} [] c k := by
  simp [resolveAtom, DefaultCfg.ignore, asAlias]

theorem resolveAtoms_keys (loc : Option String) (ks : List Val) (as : List String) : ∀ c : Val,
    resolveAtoms L { location := loc } ks c as = resolveAtoms L {} [] c as := by
  induction as with
  | nil => intro c; rfl
  | cons a as ih => intro c; simp only [resolveAtoms, resolveAtom_keys, ih]

theorem resolveRev_keys (loc : Option String) (ks : List Val) (c : Val) : ∀ cs : List Char,
    resolveRev L { location := loc } ks c cs = resolveRev L {} [] c cs := by
  intro cs
  induction hn : cs.length using Nat.strongRecOn generalizing cs with
  | ind n ih =>
    by_cases h : ∃ rest, cs = ')' :: '(' :: rest
    · obtain ⟨rest, rfl⟩ := h
      simp only [resolveRev]
      rw [ih rest.length (by rw [← hn]; simp; omega) rest rfl]
    · have h' : ∀ rest, cs = ')' :: '(' :: rest → False := fun r hr => h ⟨r, hr⟩
      rw [resolveRev.eq_2 L { location := loc } ks c cs h', resolveRev.eq_2 L {} [] c cs h']
      simp only [resolvePlain, resolveAtom_keys, resolveAtoms_keys]

theorem resolveDefault_keys (loc : Option String) (ks : List Val) (c k : Val) :
    resolveDefault L { location := loc } ks c k = resolveDefault L {} [] c k := by
  unfold resolveDefault
  split
  · exact resolveRev_keys loc ks c _
  · simp only [resolveAtom_keys]

theorem nativeStep_absorbs (loc : Option String) :
    PathSt.Absorbs (nativeStep L loc) Val.isNONE (DullKey L) := by
  intro c k hc hk
  cases c <;> simp [Val.isNONE] at hc
  rename_i x
  cases x <;> simp at hc
  unfold nativeStep
  rw [resolveDefault_keys]
  exact hk

/-- A native path, without aliases and ignores, whose cache is good. -/
def FineNat (L : Lib) (loc : Option String) (doc : Val) (ks : List Val) (p : SPath) : Prop :=
  ∃ st, p = .dflt { location := loc } st ∧ PathSt.Fine (nativeStep L loc) (DullKey L) doc ks st

theorem FineNat.withValue {α : Type} {loc : Option String} {doc : Val} {ks : List Val}
    {p : SPath} (h : FineNat L loc doc ks p)
    (onD : DefaultCfg → List Val → Val → Except Exc α) (onJ : Bool → Val → Except Exc α)
    (onC : ConfigCfg → List Val → CfgVal → Except Exc α) :
    (p.withValue L onD onJ onC).1 = (match PathSt.spec (nativeStep L loc) doc ks with
      | .ok v => onD { location := loc } ks v
      | .error e => .error e) ∧
    FineNat L loc doc ks (p.withValue L onD onJ onC).2 := by
  obtain ⟨st, rfl, hst⟩ := h
  obtain ⟨h1, h2⟩ := hst.value (nativeStep_absorbs loc)
  have hres : (fun ks (_ : Unit) c k => (resolveDefault L { location := loc } ks c k, ()))
      = PathSt.plain (nativeStep L loc) := by
    funext ks u c k
    simp only [PathSt.plain, nativeStep, resolveDefault_keys]
  have hv : SPath.valueDflt L { location := loc } st
    = ((PathSt.value (PathSt.plain (nativeStep L loc)) Val.isNONE () st).1,
      (PathSt.value (PathSt.plain (nativeStep L loc)) Val.isNONE () st).2.2) := by
    unfold SPath.valueDflt; rw [hres]
  simp only [SPath.withValue, hv, h1, hst.keys]
  cases PathSt.spec (nativeStep L loc) doc ks with
  | ok v => exact ⟨rfl, _, rfl, h2⟩
  | error e => exact ⟨rfl, _, rfl, h2⟩

theorem FineNat.act {loc : Option String} {doc : Val} {ks : List Val} {p : SPath}
    (h : FineNat L loc doc ks p) (op : PathOp) (hop : op.Uses (DullKey L)) :
    FineNat L loc doc (op.keys ks) (p.act L op) := by
  cases op with
  | append k =>
    obtain ⟨st, rfl, hst⟩ := h
    exact ⟨_, rfl, hst.append hop⟩
  | pop =>
    obtain ⟨st, rfl, hst⟩ := h
    simp only [SPath.act, SPath.pop, PathOp.keys]
    cases hp : st.pop with
    | ok st' => exact ⟨_, rfl, hst.pop hp⟩
    | error e => exact ⟨_, rfl, hst.pop_error hp⟩
  | value => exact (h.withValue _ _ _).2
  | exists_ => exact (h.withValue _ _ _).2
  | isNull => exact (h.withValue _ _ _).2
  | mapping => exact (h.withValue _ _ _).2
  | sequence => exact (h.withValue _ _ _).2
  | primitive ty => exact (h.withValue _ _ _).2

theorem FineNat.hist {loc : Option String} {doc : Val} (ops : List PathOp)
    (hops : ∀ op ∈ ops, op.Uses (DullKey L)) :
    FineNat L loc doc (histKeys ops)
      (ops.foldl (SPath.act L) (.dflt { location := loc } { root := doc, parts := [] })) := by
  suffices h : ∀ ks p, FineNat L loc doc ks p →
      FineNat L loc doc (ops.foldl PathOp.keys ks) (ops.foldl (SPath.act L) p) from
    h _ _ ⟨_, rfl, PathSt.Fine.init doc⟩
  induction ops with
  | nil => intro ks p h; exact h
  | cons op ops ih =>
    intro ks p h
    exact ih (fun o ho => hops o (by simp [ho])) _ _ (h.act op (hops op (by simp)))

/-- C19 for native sources without aliases and ignores, for histories whose keys are dull. What is
missing: aliases, ignores and keys that name attributes of the `NONE` constant; for each of them the
property is false (`C19_none_counterexample`, `C19_alias_counterexample`, `C21_ignore_counterexample`). -/
theorem C19_native_partial (loc : Option String) (doc : Val) (ops : List PathOp)
    (hops : ∀ op ∈ ops, op.Uses (DullKey L)) :
    (SPath.value L (ops.foldl (SPath.act L) (.dflt { location := loc } { root := doc, parts := [] }))).1
      = PathSt.spec (nativeStep L loc) doc (histKeys ops) := by
  have := ((FineNat.hist (loc := loc) (doc := doc) ops hops).withValue
    (L := L) (fun _ _ v => .ok v) (fun _ v => .ok v) (fun _ _ v => .ok v.toVal)).1
  unfold SPath.value
  rw [this]
  cases PathSt.spec (nativeStep L loc) doc (histKeys ops) <;> rfl

/-- A history with dull keys: read, descend, read, come back. -/
example : ∀ op ∈ [PathOp.append (.str "f"), .value, .append (.str "a"), .exists_, .pop],
    op.Uses (DullKey Demo.lib) := by
  intro op hop
  simp only [List.mem_cons, List.not_mem_nil, or_false] at hop
  rcases hop with rfl | rfl | rfl | rfl | rfl <;> first | trivial | (show resolveDefault _ _ _ _ _ = _; decide +kernel)

example : (SPath.value Demo.lib ([PathOp.append (.str "f"), .value, .append (.str "a"), .exists_].foldl
    (SPath.act Demo.lib) (.dflt {} { root := Demo.doc, parts := [] }))).1 = .ok (.str "x") := by decide +kernel

/-- C19 is false in general: on an empty document, reading `missing`, then descending to `name` and reading
twice, finds the `name` attribute of the `NONE` constant that the cache holds; the plain resolution finds
nothing. -/
theorem C19_none_counterexample :
    let p : SPath := .dflt {} { root := .dict [], parts := [] }
    let q := [PathOp.append (.str "missing"), .value, .append (.str "name")].foldl
      (SPath.act Demo.lib) p
    let r := [PathOp.append (.str "missing"), .append (.str "name")].foldl
      (SPath.act Demo.lib) p
    SPath.keys q = SPath.keys r ∧ (SPath.value Demo.lib q).1 = .ok (.str "NONE") ∧
      (SPath.value Demo.lib r).1 = .ok .NONE ∧
      (SPath.value Demo.lib (SPath.value Demo.lib r).2).1 = .ok (.str "NONE") := by
  decide +kernel

/-- With aliases the value depends on whether the aliased key was read before descending. -/
theorem C19_alias_counterexample :
    let p : SPath := .dflt { aliases := some [(.str "f", .int 0)] }
      { root := .list [.dict [(.str "a", .int 1)]], parts := [] }
    let q := [PathOp.append (.str "f"), .value, .append (.str "a")].foldl (SPath.act Demo.lib) p
    let r := [PathOp.append (.str "f"), .append (.str "a")].foldl (SPath.act Demo.lib) p
    SPath.keys q = SPath.keys r ∧ (SPath.value Demo.lib q).1 = .ok (.int 1) ∧
      (SPath.value Demo.lib r).1 = .ok .NONE := by
  decide +kernel

/-! ## C20 -/

/-- JSON data. -/
inductive IsJson : Val → Prop where
  | none : IsJson .none
  | bool (b : Bool) : IsJson (.bool b)
  | int (i : Int) : IsJson (.int i)
  | float (x : Num) : IsJson (.float x)
  | str (s : String) : IsJson (.str s)
  | list {xs : List Val} (h : ∀ x ∈ xs, IsJson x) : IsJson (.list xs)
  | dict {kvs : List (Val × Val)} (hk : ∀ p ∈ kvs, ∃ s, p.1 = .str s) (h : ∀ p ∈ kvs, IsJson p.2) :
      IsJson (.dict kvs)

/-- `v` is the member of the container `c` under `k`: an object's entry, a list item (negative indices
count from the end) or a character of a string. -/
inductive Member : Val → Val → Val → Prop where
  | entry {kvs : List (Val × Val)} {s : String} {v : Val} (h : (Val.str s, v) ∈ kvs)
      (hu : ∀ p ∈ kvs, p.1 = .str s → p.2 = v) : Member (.dict kvs) (.str s) v
  | item {xs : List Val} {n : Nat} {v : Val} (h : xs[n]? = some v) : Member (.list xs) (.int n) v
  | itemEnd {xs : List Val} {n : Nat} {v : Val} (hn : 0 < n) (hl : n ≤ xs.length)
      (h : xs[xs.length - n]? = some v) : Member (.list xs) (.int (-n)) v
  | char {s : String} {n : Nat} {c : Char} (h : s.toList[n]? = some c) :
      Member (.str s) (.int n) (.str (String.ofList [c]))
  | charEnd {s : String} {n : Nat} {c : Char} (hn : 0 < n) (hl : n ≤ s.toList.length)
      (h : s.toList[s.toList.length - n]? = some c) :
      Member (.str s) (.int (-n)) (.str (String.ofList [c]))

/-- Nested lookup. -/
inductive Nested : Val → List Val → Val → Prop where
  | here (v : Val) : Nested v [] v
  | step {c k w v : Val} {ks : List Val} (h : Member c k w) (hr : Nested w ks v) : Nested c (k :: ks) v

/-- The steps a key stands for: a text stands for its parts between dots. -/
inductive Atoms : Val → List Val → Prop where
  | str {s : String} {ns : List String} (h : Dotted s ns) : Atoms (.str s) (ns.map Val.str)
  | other {k : Val} (h : k.isStr = false) : Atoms k [k]

/-- The steps that several keys stand for. -/
inductive Spelled : List Val → List Val → Prop where
  | nil : Spelled [] []
  | cons {k : Val} {as ks bs : List Val} (h : Atoms k as) (hr : Spelled ks bs) : Spelled (k :: ks) (as ++ bs)

/-- The same as a function. -/
def atoms : Val → List Val
  | .str s => (dotSplit s).map Val.str
  | k => [k]

theorem atoms_iff {k : Val} {as : List Val} : Atoms k as ↔ atoms k = as := by
  constructor
  · intro h
    cases h with
    | str h => show (dotSplit _).map Val.str = _; rw [dotSplit_iff.2 h]
    | other h => cases k <;> first | rfl | cases h
  · rintro rfl
    cases hk : k.isStr with
    | false =>
      have e : atoms k = [k] := by cases k <;> first | rfl | cases hk
      rw [e]; exact .other hk
    | true =>
      cases k <;> simp [Val.isStr] at hk
      exact .str (dotSplit_dotted _)

theorem spelled_iff {ks as : List Val} : Spelled ks as ↔ ks.flatMap atoms = as := by
  constructor
  · intro h
    induction h with
    | nil => rfl
    | cons h _ ih => rw [List.flatMap_cons, ih, atoms_iff.1 h]
  · rintro rfl
    induction ks with
    | nil => exact .nil
    | cons k ks ih => exact .cons (atoms_iff.2 rfl) ih

/-- A document has no two entries with the same key. -/
inductive Uniq : Val → Prop where
  | leaf {v : Val} (hl : ∀ xs, v ≠ .list xs) (hd : ∀ kvs, v ≠ .dict kvs) : Uniq v
  | list {xs : List Val} (h : ∀ x ∈ xs, Uniq x) : Uniq (.list xs)
  | dict {kvs : List (Val × Val)} (hu : ∀ p ∈ kvs, ∀ q ∈ kvs, p.1 = q.1 → p.2 = q.2)
      (h : ∀ p ∈ kvs, Uniq p.2) : Uniq (.dict kvs)

/-- A JSON document. -/
def Doc (v : Val) : Prop := IsJson v ∧ Uniq v

theorem seqGet_some {α : Type} {xs : List α} {i : Int} {x : α} :
    seqGet? xs i = some x ↔ (∃ n : Nat, i = n ∧ xs[n]? = some x) ∨
      (∃ n : Nat, 0 < n ∧ i = -(n : Int) ∧ n ≤ xs.length ∧ xs[xs.length - n]? = some x) := by
  unfold seqGet?
  by_cases h0 : 0 ≤ i
  · rw [if_pos h0]
    obtain ⟨n, rfl⟩ := Int.eq_ofNat_of_zero_le h0
    constructor
    · intro h; exact .inl ⟨n, rfl, by simpa using h⟩
    · rintro (⟨m, hm, h⟩ | ⟨m, hm0, hm, _⟩)
      · have : n = m := by omega
        subst this; simpa using h
      · omega
  · rw [if_neg h0]
    obtain ⟨n, rfl⟩ : ∃ n : Nat, i = -(n : Int) := ⟨(-i).toNat, by omega⟩
    by_cases h1 : 0 ≤ -(n : Int) + xs.length
    · rw [if_pos h1]
      have : (-(n : Int) + xs.length).toNat = xs.length - n := by omega
      rw [this]
      constructor
      · intro h; exact .inr ⟨n, by omega, rfl, by omega, h⟩
      · rintro (⟨m, hm, h⟩ | ⟨m, hm0, hm, hl, h⟩)
        · omega
        · have : n = m := by omega
          subst this; exact h
    · rw [if_neg h1]
      constructor
      · intro h; cases h
      · rintro (⟨m, hm, h⟩ | ⟨m, hm0, hm, hl, h⟩) <;> omega

theorem Doc.member {c k v : Val} (hc : Doc c) (h : Member c k v) : Doc v := by
  obtain ⟨hj, hu⟩ := hc
  cases h with
  | entry h _ =>
    cases hj with
    | dict _ hj => cases hu with
      | leaf _ hd => exact absurd rfl (hd _)
      | dict _ hu => exact ⟨hj _ h, hu _ h⟩
  | item h =>
    have := List.mem_of_getElem? h
    cases hj with
    | list hj => cases hu with
      | leaf hl _ => exact absurd rfl (hl _)
      | list hu => exact ⟨hj _ this, hu _ this⟩
  | itemEnd _ _ h =>
    have := List.mem_of_getElem? h
    cases hj with
    | list hj => cases hu with
      | leaf hl _ => exact absurd rfl (hl _)
      | list hu => exact ⟨hj _ this, hu _ this⟩
  | char h => exact ⟨.str _, .leaf (by simp) (by simp)⟩
  | charEnd _ _ h => exact ⟨.str _, .leaf (by simp) (by simp)⟩

/-- Keys that a document can have members under. -/
def IsAtom : Val → Prop
  | .str _ => True
  | .int _ => True
  | _ => False

theorem getItem_member {c k : Val} (hc : Doc c) (hk : IsAtom k) (v : Val) :
    getItem c k = .ok v ↔ Member c k v := by
  obtain ⟨hj, hu⟩ := hc
  cases hj with
  | dict hks hj =>
    rename_i kvs
    have hu' : ∀ p ∈ kvs, ∀ q ∈ kvs, p.1 = q.1 → p.2 = q.2 := by
      cases hu with
      | leaf _ hd => exact absurd rfl (hd _)
      | dict hu _ => exact hu
    cases k <;> simp only [IsAtom] at hk
    · -- integer key: never equal to a string
      rename_i i
      have hno : dictGet? kvs (.int i) = none := by
        unfold dictGet?
        rw [List.find?_eq_none.2]
        intro p hp
        obtain ⟨s, hs⟩ := hks p hp
        rw [hs]
        exact Bool.false_ne_true
      simp only [getItem, Val.hashable, if_true, hno]
      constructor
      · intro h; cases h
      · intro h; cases h
    · rename_i s
      have heq : ∀ p ∈ kvs, ((Val.str s).pyEq p.1 = true ↔ p.1 = .str s) := by
        intro p hp
        obtain ⟨t, ht⟩ := hks p hp
        rw [ht]
        constructor
        · intro h
          have : s = t := by simpa [Val.pyEq] using h
          rw [this]
        · intro h
          cases h
          simp [Val.pyEq]
      simp only [getItem, Val.hashable, if_true, dictGet?]
      cases hf : kvs.find? (fun p => (Val.str s).pyEq p.1) with
      | none =>
        simp only
        constructor
        · intro h; cases h
        · intro h
          cases h with
          | entry h _ =>
            have := List.find?_eq_none.1 hf _ h
            rw [heq _ h] at this
            exact absurd rfl this
      | some p =>
        have hp := List.mem_of_find?_eq_some hf
        have hps : p.1 = .str s := (heq p hp).1 (by simpa using List.find?_some hf)
        simp only [Except.ok.injEq]
        constructor
        · rintro rfl
          exact .entry (by rw [← hps]; exact hp) fun q hq h => hu' q hq p hp (by rw [h, hps])
        · intro h
          cases h with
          | entry h hu => exact hu p hp hps
  | list hj =>
    rename_i xs
    cases k <;> simp only [IsAtom] at hk
    · rename_i i
      simp only [getItem, Val.index?]
      constructor
      · intro h
        cases hs : seqGet? xs i with
        | none => rw [hs] at h; cases h
        | some w =>
          rw [hs] at h; cases h
          rcases seqGet_some.1 hs with ⟨n, rfl, h⟩ | ⟨n, h0, rfl, h1, h2⟩
          · exact .item h
          · exact .itemEnd h0 h1 h2
      · intro h
        have : seqGet? xs i = some v := by
          cases h with
          | item h => exact seqGet_some.2 (.inl ⟨_, rfl, h⟩)
          | itemEnd h0 h1 h2 => exact seqGet_some.2 (.inr ⟨_, h0, rfl, h1, h2⟩)
        rw [this]
    · simp only [getItem, Val.index?]
      constructor
      · intro h; cases h
      · intro h; cases h
  | str s =>
    cases k <;> simp only [IsAtom] at hk
    · rename_i i
      simp only [getItem, Val.index?]
      constructor
      · intro h
        cases hs : seqGet? s.toList i with
        | none => rw [hs] at h; cases h
        | some w =>
          rw [hs] at h; cases h
          rcases seqGet_some.1 hs with ⟨n, rfl, h⟩ | ⟨n, h0, rfl, h1, h2⟩
          · exact .char h
          · exact .charEnd h0 h1 h2
      · intro h
        cases h with
        | char h => rw [seqGet_some.2 (.inl ⟨_, rfl, h⟩)]
        | charEnd h0 h1 h2 => rw [seqGet_some.2 (.inr ⟨_, h0, rfl, h1, h2⟩)]
    · simp only [getItem, Val.index?]
      constructor
      · intro h; cases h
      · intro h; cases h
  | _ =>
    simp only [getItem]
    constructor
    · intro h; cases h
    · intro h; cases h

theorem jsonAtoms_nested (as : List String) : ∀ {c : Val}, Doc c → ∀ v,
    jsonAtoms c as = .ok v ↔ Nested c (as.map Val.str) v := by
  induction as with
  | nil =>
    intro c _ v
    simp only [jsonAtoms, Except.ok.injEq, List.map_nil]
    constructor
    · rintro rfl; exact .here _
    · intro h; cases h; rfl
  | cons a as ih =>
    intro c hc v
    simp only [jsonAtoms, List.map_cons]
    constructor
    · intro h
      cases hg : getItem c (.str a) with
      | error e => rw [hg] at h; cases h
      | ok w =>
        rw [hg] at h
        have hm := (getItem_member (k := .str a) hc trivial w).1 hg
        exact .step hm ((ih (hc.member hm) v).1 h)
    · intro h
      cases h with
      | step hm hr =>
        rw [(getItem_member (k := .str a) hc trivial _).2 hm]
        exact (ih (hc.member hm) v).2 hr

theorem splitDots_single {cs : List Char} (h : cs.contains '.' = false) : splitDots cs = [cs] := by
  induction cs with
  | nil => rfl
  | cons c cs ih =>
    simp only [List.contains_cons, Bool.or_eq_false_iff, beq_eq_false_iff_ne] at h
    have hc : c ≠ '.' := fun hc => h.1 hc.symm
    simp only [splitDots, hc, if_false, ih h.2]

theorem atoms_plain {s : String} (h : hasDot s = false) : atoms (.str s) = [.str s] := by
  simp only [atoms, dotSplit, splitDots_single h, List.map_cons, List.map_nil, String.ofList_toList]

/-- Not the `NONE` constant. -/
theorem Doc.notNONE {v : Val} (h : Doc v) : v ≠ .NONE := by
  rintro rfl
  cases h.1

/-- One JSON resolution step: the nested lookup of the atoms of the key, or `NONE`. -/
theorem resolveJson_spec {c k : Val} (hc : Doc c) (hk : IsAtom k) :
    (∀ v, Nested c (atoms k) v → resolveJson c k = v ∧ Doc v) ∧
    ((¬ ∃ v, Nested c (atoms k) v) → resolveJson c k = .NONE) := by
  have key : ∃ r : Except Exc Val, resolveJson c k = (match r with | .ok v => v | .error _ => .NONE) ∧
      ∀ v, r = .ok v ↔ Nested c (atoms k) v := by
    cases k <;> simp only [IsAtom] at hk
    · rename_i i
      refine ⟨getItem c (.int i), rfl, fun v => ?_⟩
      rw [getItem_member (k := .int i) hc trivial v]
      constructor
      · intro h; exact .step h (.here v)
      · intro h
        cases h with
        | step hm hr => cases hr; exact hm
    · rename_i s
      by_cases hd : hasDot s = true
      · refine ⟨jsonAtoms c (dotSplit s), by simp only [resolveJson, hd]; rfl, fun v => ?_⟩
        exact jsonAtoms_nested _ hc v
      · simp only [Bool.not_eq_true] at hd
        refine ⟨getItem c (.str s), by simp only [resolveJson, hd]; rfl, fun v => ?_⟩
        rw [getItem_member (k := .str s) hc trivial v, atoms_plain hd]
        constructor
        · intro h; exact .step h (.here v)
        · intro h
          cases h with
          | step hm hr => cases hr; exact hm
  have hdoc : ∀ {c v : Val} {ks : List Val}, Doc c → Nested c ks v → Doc v := by
    intro c v ks hc h
    induction h with
    | here => exact hc
    | step hm _ ih => exact ih (hc.member hm)
  obtain ⟨r, h1, h2⟩ := key
  constructor
  · intro v hv
    rw [h1, (h2 v).2 hv]
    exact ⟨rfl, hdoc hc hv⟩
  · intro hno
    rw [h1]
    cases hr : r with
    | ok v => exact absurd ⟨v, (h2 v).1 hr⟩ hno
    | error e => rfl

theorem Nested.append {c w v : Val} {ks ls : List Val} (h1 : Nested c ks w) (h2 : Nested w ls v) :
    Nested c (ks ++ ls) v := by
  induction h1 with
  | here => exact h2
  | step hm _ ih => exact .step hm (ih h2)

theorem Nested.split {ks ls : List Val} : ∀ {c v : Val}, Nested c (ks ++ ls) v →
    ∃ w, Nested c ks w ∧ Nested w ls v := by
  induction ks with
  | nil => intro c v h; exact ⟨c, .here c, h⟩
  | cons k ks ih =>
    intro c v h
    cases h with
    | step hm hr =>
      obtain ⟨w, h1, h2⟩ := ih hr
      exact ⟨w, .step hm h1, h2⟩

theorem follow_json {ks : List Val} (hks : ∀ k ∈ ks, IsAtom k) : ∀ {c : Val}, Doc c →
    (∀ v, Nested c (ks.flatMap atoms) v → PathSt.follow jsonStep c ks = .ok v) ∧
    ((¬ ∃ v, Nested c (ks.flatMap atoms) v) → PathSt.follow jsonStep c ks = .ok .NONE) := by
  induction ks with
  | nil =>
    intro c _
    constructor
    · intro v h; cases h; rfl
    · intro h; exact absurd ⟨c, .here c⟩ h
  | cons k ks ih =>
    intro c hc
    obtain ⟨h1, h2⟩ := resolveJson_spec hc (hks k (by simp))
    have ih' := @ih fun k' h => hks k' (by simp [h])
    simp only [PathSt.follow, jsonStep, List.flatMap_cons]
    constructor
    · intro v hv
      obtain ⟨w, hw, hr⟩ := hv.split
      obtain ⟨h3, h4⟩ := h1 w hw
      rw [h3]
      exact (ih' h4).1 v hr
    · intro hno
      by_cases hex : ∃ w, Nested c (atoms k) w
      · obtain ⟨w, hw⟩ := hex
        obtain ⟨h3, h4⟩ := h1 w hw
        rw [h3]
        exact (ih' h4).2 fun ⟨v, hv⟩ => hno ⟨v, hw.append hv⟩
      · rw [h2 hex]
        exact PathSt.follow_none jsonStep_absorbs rfl fun _ _ => trivial

/-- C20. On a JSON source, after any history of reads and moves, `path.value` at string and integer keys
never raises: it is what the steps these keys stand for (dotted keys are several) lead to, or `NONE` when they lead
nowhere. -/
theorem C20_json_lookup (strict : Bool) (loc : Option String) {doc : Val} (hdoc : Doc doc)
    (ops : List PathOp) (hk : ∀ k ∈ histKeys ops, IsAtom k) :
    let p := ops.foldl (SPath.act L) (.json strict loc { root := doc, parts := [] })
    (∃ steps, Spelled (histKeys ops) steps) ∧ ∀ steps, Spelled (histKeys ops) steps →
      (∀ v, Nested doc steps v → (SPath.value L p).1 = .ok v) ∧
      ((¬ ∃ v, Nested doc steps v) → (SPath.value L p).1 = .ok .NONE) := by
  have hall : (histKeys ops).all (fun k => k.isIntLike || k.isStr) = true := by
    rw [List.all_eq_true]
    intro k h
    have := hk k h
    cases k <;> simp [IsAtom] at this <;> rfl
  simp only
  refine ⟨⟨_, spelled_iff.2 rfl⟩, fun steps hs => ?_⟩
  rw [C19_json, PathSt.spec, if_pos hall, ← spelled_iff.1 hs]
  exact follow_json hk hdoc

/-- A small document is a `Doc`. -/
theorem Demo.doc_doc : Doc Demo.doc := by
  refine ⟨?_, ?_⟩
  · refine .dict ?_ ?_ <;> simp
    exact ⟨.dict (by simp) (by simp; exact ⟨.str _, .str _⟩), .list (by simp; exact ⟨.int _, .str _⟩)⟩
  · refine .dict ?_ ?_ <;> simp
    refine ⟨.dict (by simp) ?_, .list ?_⟩ <;> simp
    · exact ⟨.leaf (by simp) (by simp), .leaf (by simp) (by simp)⟩
    · exact ⟨.leaf (by simp) (by simp), .leaf (by simp) (by simp)⟩

/-- The lookups of the document used below. -/
theorem Demo.doc_fa : Nested Demo.doc [.str "f", .str "a"] (.str "x") :=
  .step (w := .dict [(.str "a", .str "x"), (.str "b", .str "ok")]) (.entry (by simp) (by simp))
    (.step (.entry (by simp) (by simp)) (.here _))

/-- `f.a` (dotted) is found, also after other reads; `xs[-1]` is found, `xs[7]` is not. -/
example : (SPath.value Demo.lib ([PathOp.append (.str "xs"), .sequence, .pop, .append (.str "f.a")].foldl
    (SPath.act Demo.lib) (.json true none { root := Demo.doc, parts := [] }))).1 = .ok (.str "x") :=
  (C20_json_lookup true none Demo.doc_doc [.append (.str "xs"), .sequence, .pop, .append (.str "f.a")]
    (by intro k hk; simp [histKeys, PathOp.keys] at hk; subst hk; trivial)).2 [.str "f", .str "a"]
    (.cons (as := [.str "f", .str "a"]) (.str (ns := ["f", "a"]) ⟨by decide +kernel, by simp, by decide⟩) .nil) |>.1 _
    Demo.doc_fa
example : (SPath.value Demo.lib ([PathOp.append (.str "xs"), .append (.int (-1))].foldl (SPath.act Demo.lib)
    (.json true none { root := Demo.doc, parts := [] }))).1 = .ok (.str "2") := by decide +kernel
example : (SPath.value Demo.lib ([PathOp.append (.str "xs"), .append (.int 7)].foldl (SPath.act Demo.lib)
    (.json true none { root := Demo.doc, parts := [] }))).1 = .ok .NONE := by decide +kernel

/-! ## C21 -/

/-- What one atom of a key denotes in a container, in order of precedence: the item; else, at the top of the
source, the item the alias names; else the attribute. A `NONE` constant found on the way counts as
absence. -/
inductive AtomOf (L : Lib) (aliases : List (Val × Val)) (top : Bool) (c k : Val) : Val → Prop where
  | item {v : Val} (h : getItem c k = .ok v) (hv : v ≠ .NONE) : AtomOf L aliases top c k v
  | alias {a v : Val} (hno : ∀ w, getItem c k = .ok w → w = .NONE) (ht : top = true)
      (ha : dictGet? aliases k = some a) (h : getItem c a = .ok v) (hv : v ≠ .NONE) :
      AtomOf L aliases top c k v
  | attr {s : String} {v : Val} (hno : ∀ w, getItem c k = .ok w → w = .NONE)
      (hno' : top = true → ∀ a w, dictGet? aliases k = some a → getItem c a = .ok w → w = .NONE)
      (hk : k = .str s) (h : pyGetAttr L c s = some v) (hv : v ≠ .NONE) :
      AtomOf L aliases top c k v

/-- Several atoms, one after the other. -/
inductive AtomsOf (L : Lib) (aliases : List (Val × Val)) (top : Bool) : Val → List String → Val → Prop where
  | here (v : Val) : AtomsOf L aliases top v [] v
  | step {c : Val} {a : String} {as : List String} {w v : Val} (h : AtomOf L aliases top c (.str a) w)
      (hr : AtomsOf L aliases top w as v) : AtomsOf L aliases top c (a :: as) v

/-- What a string key without call suffix denotes: the literal key, else its dotted atoms. -/
inductive PlainOf (L : Lib) (aliases : List (Val × Val)) (top : Bool) (c : Val) (s : String) : Val → Prop where
  | literal {v : Val} (h : AtomOf L aliases top c (.str s) v) : PlainOf L aliases top c s v
  | split {v : Val} {as : List String} (hno : ¬ ∃ w, AtomOf L aliases top c (.str s) w) (hs : Dotted s as)
      (h : AtomsOf L aliases top c as v) : PlainOf L aliases top c s v

theorem isNONE_iff {v : Val} : v.isNONE = true ↔ v = .NONE := by
  cases v <;> simp [Val.isNONE]
  rename_i c
  cases c <;> simp

theorem asItem_spec {c k v : Val} (hv : v ≠ .NONE) : asItem c k = v ↔ getItem c k = .ok v := by
  unfold asItem
  cases getItem c k with
  | ok w => simp
  | error e => simp [Ne.symm hv]

theorem asItem_none {c k : Val} : asItem c k = .NONE ↔ ∀ w, getItem c k = .ok w → w = .NONE := by
  unfold asItem
  cases getItem c k with
  | ok w => simp
  | error e => simp

theorem asAlias_none {cfg : DefaultCfg} {ks : List Val} {c k : Val} : asAlias cfg ks c k = .NONE ↔
    (decide (ks.length = 1) = true → ∀ a w, dictGet? (cfg.aliases.getD []) k = some a →
      getItem c a = .ok w → w = .NONE) := by
  unfold asAlias
  cases cfg.aliases with
  | none => simp [dictGet?]
  | some al =>
    cases al with
    | nil => simp [dictGet?]
    | cons x xs =>
      by_cases h : ks.length = 1
      · simp only [List.isEmpty_cons, Bool.not_false, h, beq_self_eq_true, Bool.and_self, if_true,
          Option.getD_some, decide_true, forall_const]
        cases dictGet? (x :: xs) k with
        | none => simp
        | some a =>
          rw [asItem_none]
          constructor
          · intro h a' w ha hw; cases ha; exact h w hw
          · intro h w hw; exact h a w rfl hw
      · simp [h]

theorem asAlias_spec {cfg : DefaultCfg} {ks : List Val} {c k v : Val} (hv : v ≠ .NONE) :
    asAlias cfg ks c k = v ↔ decide (ks.length = 1) = true ∧
      ∃ a, dictGet? (cfg.aliases.getD []) k = some a ∧ getItem c a = .ok v := by
  unfold asAlias
  cases cfg.aliases with
  | none => simp [dictGet?, Ne.symm hv]
  | some al =>
    cases al with
    | nil => simp [dictGet?, Ne.symm hv]
    | cons x xs =>
      by_cases h : ks.length = 1
      · simp only [List.isEmpty_cons, Bool.not_false, h, beq_self_eq_true, Bool.and_self, if_true,
          Option.getD_some, decide_true, true_and]
        cases dictGet? (x :: xs) k with
        | none => simp [Ne.symm hv]
        | some a => simp [asItem_spec hv]
      · simp [h, Ne.symm hv]

theorem resolveAtom_spec {cfg : DefaultCfg} {ks : List Val} (hi : cfg.ignore ks = false) (c k v : Val) :
    (resolveAtom L cfg ks c k = v ∧ v ≠ .NONE) ↔
      AtomOf L (cfg.aliases.getD []) (decide (ks.length = 1)) c k v := by
  simp only [resolveAtom, hi, Bool.false_eq_true, if_false]
  by_cases h1 : asItem c k = .NONE
  · have hb : (asItem c k).isNONE = true := isNONE_iff.2 h1
    have h1' := asItem_none.1 h1
    simp only [hb, Bool.not_true, Bool.false_eq_true, if_false]
    by_cases h2 : asAlias cfg ks c k = .NONE
    · have hb2 : (asAlias cfg ks c k).isNONE = true := isNONE_iff.2 h2
      have h2' := asAlias_none.1 h2
      simp only [hb2, Bool.not_true, Bool.false_eq_true, if_false]
      constructor
      · rintro ⟨h, hv⟩
        unfold asAttr at h
        cases k with
        | str s =>
          simp only at h
          cases ha : pyGetAttr L c s with
          | none => rw [ha] at h; exact absurd h.symm hv
          | some w =>
            rw [ha] at h
            simp only [Option.getD_some] at h
            exact .attr h1' h2' rfl (by rw [ha, h]) hv
        | _ => exact absurd h.symm hv
      · intro h
        cases h with
        | item h hv => exact absurd (h1' _ h) hv
        | alias _ ht ha h hv => exact absurd (h2' ht _ _ ha h) hv
        | attr _ _ hk h hv =>
          subst hk
          exact ⟨by simp [asAttr, h], hv⟩
    · have hb2 : (asAlias cfg ks c k).isNONE = false := by
        cases hh : (asAlias cfg ks c k).isNONE with
        | false => rfl
        | true => exact absurd (isNONE_iff.1 hh) h2
      simp only [hb2, Bool.not_false, if_true]
      obtain ⟨ht, a, ha, hg⟩ := (asAlias_spec h2).1 rfl
      constructor
      · rintro ⟨rfl, hv⟩
        exact .alias h1' ht ha hg hv
      · intro h
        cases h with
        | item h hv => exact absurd (h1' _ h) hv
        | alias _ ht ha h hv => exact ⟨(asAlias_spec hv).2 ⟨ht, _, ha, h⟩, hv⟩
        | attr _ hno' _ _ _ => exact absurd (hno' ht _ _ ha hg) h2
  · have hb : (asItem c k).isNONE = false := by
      cases hh : (asItem c k).isNONE with
      | false => rfl
      | true => exact absurd (isNONE_iff.1 hh) h1
    simp only [hb, Bool.not_false, if_true]
    have hg := (asItem_spec h1).1 rfl
    constructor
    · rintro ⟨rfl, hv⟩; exact .item hg hv
    · intro h
      cases h with
      | item h hv => exact ⟨(asItem_spec hv).2 h, hv⟩
      | alias hno _ _ _ _ => exact absurd (hno _ hg) h1
      | attr hno _ _ _ _ => exact absurd (hno _ hg) h1

theorem resolveAtoms_spec {cfg : DefaultCfg} {ks : List Val} (hi : cfg.ignore ks = false)
    (as : List String) : ∀ (c v : Val), c ≠ .NONE →
    ((resolveAtoms L cfg ks c as = v ∧ v ≠ .NONE) ↔
      AtomsOf L (cfg.aliases.getD []) (decide (ks.length = 1)) c as v) := by
  induction as with
  | nil =>
    intro c v hc
    simp only [resolveAtoms]
    constructor
    · rintro ⟨rfl, _⟩; exact .here c
    · intro h; cases h; exact ⟨rfl, hc⟩
  | cons a as ih =>
    intro c v hc
    simp only [resolveAtoms]
    have hs := resolveAtom_spec (L := L) hi c (.str a)
    by_cases h1 : resolveAtom L cfg ks c (.str a) = .NONE
    · rw [if_pos (isNONE_iff.2 h1)]
      constructor
      · rintro ⟨rfl, hv⟩; exact absurd rfl hv
      · intro h
        cases h with
        | step h hr =>
          have := (hs _).2 h
          exact absurd (this.1 ▸ h1) this.2
    · rw [if_neg (fun h => h1 (isNONE_iff.1 h))]
      rw [ih _ v h1]
      constructor
      · intro h; exact .step ((hs _).1 ⟨rfl, h1⟩) h
      · intro h
        cases h with
        | step h hr =>
          have := (hs _).2 h
          rw [this.1]; exact hr

theorem resolvePlain_spec {cfg : DefaultCfg} {ks : List Val} (hi : cfg.ignore ks = false)
    (c : Val) (hc : c ≠ .NONE) (s : String) (v : Val) :
    (resolvePlain L cfg ks c s = v ∧ v ≠ .NONE) ↔
      PlainOf L (cfg.aliases.getD []) (decide (ks.length = 1)) c s v := by
  have hs := resolveAtom_spec (L := L) hi c (.str s)
  simp only [resolvePlain]
  by_cases h1 : resolveAtom L cfg ks c (.str s) = .NONE
  · have hno : ¬ ∃ w, AtomOf L (cfg.aliases.getD []) (decide (ks.length = 1)) c (.str s) w := by
      rintro ⟨w, hw⟩
      have := (hs w).2 hw
      exact absurd (this.1 ▸ h1) this.2
    rw [if_pos (isNONE_iff.2 h1), resolveAtoms_spec hi _ c v hc]
    constructor
    · intro h; exact .split hno (dotSplit_dotted s) h
    · intro h
      cases h with
      | literal h => exact absurd ⟨_, h⟩ hno
      | split _ hs h => rw [dotSplit_iff.2 hs]; exact h
  · rw [if_neg (fun h => h1 (isNONE_iff.1 h)), hs v]
    constructor
    · intro h; exact .literal h
    · intro h
      cases h with
      | literal h => exact h
      | split hno _ h => exact absurd ⟨_, (hs _).1 ⟨rfl, h1⟩⟩ hno

/-- What a key denotes; each trailing `()` calls what the rest denotes. -/
inductive KeyOf (L : Lib) (aliases : List (Val × Val)) (top : Bool) (c : Val) : Val → Except Exc Val → Prop where
  | nonStr {k v : Val} (hk : k.isStr = false) (h : AtomOf L aliases top c k v) :
      KeyOf L aliases top c k (.ok v)
  | plain {s : String} {v : Val} (hs : ¬ ∃ t, s = t ++ "()") (h : PlainOf L aliases top c s v) :
      KeyOf L aliases top c (.str s) (.ok v)
  | call {s : String} {v : Val} (h : KeyOf L aliases top c (.str s) (.ok v)) (hv : v ≠ .NONE) :
      KeyOf L aliases top c (.str (s ++ "()")) (callVal L v)
  | raised {s : String} {e : Exc} (h : KeyOf L aliases top c (.str s) (.error e)) :
      KeyOf L aliases top c (.str (s ++ "()")) (.error e)

theorem callSuffix {s t : String} (h : s = t ++ "()") :
    s.toList.reverse = ')' :: '(' :: t.toList.reverse := by
  subst h
  simp

theorem callSuffix' {s : String} {rest : List Char} (h : s.toList.reverse = ')' :: '(' :: rest) :
    s = String.ofList rest.reverse ++ "()" := by
  have h1 : s.toList = rest.reverse ++ ['(', ')'] := by
    have := congrArg List.reverse h
    simpa using this
  apply String.toList_inj.1
  rw [h1]
  simp

/-- C21, one resolution step: whenever the key denotes something, that is what `DefaultPath.resolve` returns
(or raises). -/
theorem C21_resolves {cfg : DefaultCfg} {ks : List Val} (hi : cfg.ignore ks = false)
    {c : Val} (hc : c ≠ .NONE) {k : Val} {r : Except Exc Val}
    (h : KeyOf L (cfg.aliases.getD []) (decide (ks.length = 1)) c k r) :
    resolveDefault L cfg ks c k = r := by
  induction h with
  | nonStr hk h =>
    have := (resolveAtom_spec (L := L) hi c _ _).2 h
    rename_i k v
    cases k <;> simp [Val.isStr] at hk <;> simp [resolveDefault, this.1]
  | plain hs h =>
    rename_i s v
    have hr : ∀ rest, s.toList.reverse = ')' :: '(' :: rest → False := fun rest hr => hs ⟨_, callSuffix' hr⟩
    have := (resolvePlain_spec (L := L) hi c hc s _).2 h
    simp only [resolveDefault]
    rw [resolveRev.eq_2 L cfg ks c _ hr]
    simp [this.1]
  | call h hv ih =>
    rename_i s v
    simp only [resolveDefault] at ih ⊢
    rw [callSuffix rfl]
    simp only [resolveRev, ih]
    rw [if_neg (fun h => hv (isNONE_iff.1 h))]
  | raised h ih =>
    rename_i s e
    simp only [resolveDefault] at ih ⊢
    rw [callSuffix rfl]
    simp only [resolveRev, ih]

theorem resolveRev_none {cfg : DefaultCfg} {ks : List Val} (hi : cfg.ignore ks = false)
    {c : Val} (hc : c ≠ .NONE) (n : Nat) : ∀ s : String, s.length = n →
    resolveRev L cfg ks c s.toList.reverse = .ok .NONE ∨
      KeyOf L (cfg.aliases.getD []) (decide (ks.length = 1)) c (.str s)
        (resolveRev L cfg ks c s.toList.reverse) := by
  induction n using Nat.strongRecOn with
  | ind n ih =>
    intro s hn
    by_cases h : ∃ t, s = t ++ "()"
    · obtain ⟨t, rfl⟩ := h
      have hlt : t.length < n := by
        rw [← hn, String.length_append, show "()".length = 2 from rfl]; omega
      have iht := ih t.length hlt t rfl
      rw [callSuffix rfl]
      simp only [resolveRev]
      cases hr : resolveRev L cfg ks c t.toList.reverse with
      | error e =>
        rw [hr] at iht
        rcases iht with h | h
        · cases h
        · exact .inr (.raised h)
      | ok v =>
        rw [hr] at iht
        simp only
        by_cases hv : v = .NONE
        · subst hv; exact .inl rfl
        · rw [if_neg (fun h => hv (isNONE_iff.1 h))]
          rcases iht with h | h
          · cases h; exact absurd rfl hv
          · exact .inr (.call h hv)
    · have hr : ∀ rest, s.toList.reverse = ')' :: '(' :: rest → False := fun rest hr => h ⟨_, callSuffix' hr⟩
      rw [resolveRev.eq_2 L cfg ks c _ hr]
      simp only [List.reverse_reverse, String.ofList_toList]
      by_cases hv : resolvePlain L cfg ks c s = .NONE
      · exact .inl (by rw [hv])
      · exact .inr (.plain h ((resolvePlain_spec hi c hc s _).1 ⟨rfl, hv⟩))

/-- C21, the converse: what `resolve` returns is `NONE` or what the key denotes. -/
theorem C21_complete {cfg : DefaultCfg} {ks : List Val} (hi : cfg.ignore ks = false)
    {c : Val} (hc : c ≠ .NONE) (k : Val) :
    resolveDefault L cfg ks c k = .ok .NONE ∨
      KeyOf L (cfg.aliases.getD []) (decide (ks.length = 1)) c k (resolveDefault L cfg ks c k) := by
  cases hk : k.isStr with
  | true =>
    cases k <;> simp [Val.isStr] at hk
    exact resolveRev_none hi hc _ _ rfl
  | false =>
    have hd : resolveDefault L cfg ks c k = .ok (resolveAtom L cfg ks c k) := by
      cases k <;> simp [Val.isStr] at hk <;> rfl
    rw [hd]
    by_cases hv : resolveAtom L cfg ks c k = .NONE
    · exact .inl (by rw [hv])
    · exact .inr (.nonStr hk ((resolveAtom_spec hi c k _).1 ⟨rfl, hv⟩))

theorem resolveAtom_ignored {cfg : DefaultCfg} {ks : List Val} (hi : cfg.ignore ks = true) (c k : Val) :
    resolveAtom L cfg ks c k = .NONE := by
  simp [resolveAtom, hi]

theorem resolveDefault_ignored {cfg : DefaultCfg} {ks : List Val} (hi : cfg.ignore ks = true) (c k : Val) :
    resolveDefault L cfg ks c k = .ok .NONE := by
  have hp : ∀ s, resolvePlain L cfg ks c s = .NONE := by
    intro s
    simp only [resolvePlain, resolveAtom_ignored hi]
    cases hd : dotSplit s with
    | nil => exact absurd (List.map_eq_nil_iff.1 hd) (splitDots_ne_nil _)
    | cons a as => simp [resolveAtoms, resolveAtom_ignored hi, Val.isNONE]
  have hr : ∀ (n : Nat) (cs : List Char), cs.length = n → resolveRev L cfg ks c cs = .ok .NONE := by
    intro n
    induction n using Nat.strongRecOn with
    | ind n ih =>
      intro cs hn
      by_cases h : ∃ rest, cs = ')' :: '(' :: rest
      · obtain ⟨rest, rfl⟩ := h
        simp only [resolveRev, ih rest.length (by rw [← hn]; simp; omega) rest rfl]
        rfl
      · rw [resolveRev.eq_2 L cfg ks c cs fun rest hr => h ⟨rest, hr⟩, hp]
  cases k with
  | str s => exact hr _ _ rfl
  | _ => simp [resolveDefault, resolveAtom_ignored hi]

theorem ignore_mem {cfg : DefaultCfg} {ig : List String} (h : ig ∈ cfg.ignores) :
    cfg.ignore (ig.map Val.str) = true := by
  unfold DefaultCfg.ignore
  rw [List.any_eq_true]
  refine ⟨ig, h, ?_⟩
  clear h
  induction ig with
  | nil => rfl
  | cons a as ih => simp [Val.pyEqList, Val.pyEq, ih]

/-- C21, ignores: when a key is appended so that the path is one listed in `ignores`, the value read there is
absent, whatever was read before. -/
theorem C21_ignored_partial {cfg : DefaultCfg} {st : PathSt Val} (ht : st.Tidy) {k : Val} {ig : List String}
    (hig : ig ∈ cfg.ignores) (hks : st.keys ++ [k] = ig.map Val.str) :
    (SPath.value L (SPath.append (.dflt cfg st) k)).1 = .ok .NONE := by
  have hi : cfg.ignore (st.append k).keys = true := by
    rw [PathSt.append_keys, hks]; exact ignore_mem hig
  have ht' := PathSt.append_tidy ht k
  have hraw : ∀ q ∈ (st.append k).parts, q.raw = false := by
    intro q hq
    have hq' : q.key ∈ (st.append k).keys := List.mem_map_of_mem hq
    rw [PathSt.append_keys, hks] at hq'
    obtain ⟨s, _, hs⟩ := List.mem_map.1 hq'
    rw [ht' q hq, ← hs]; rfl
  have hfill : ∀ (v : Val) (q : Part Val) (ps : List (Part Val)),
      (PathSt.fill (fun ks (_ : Unit) c k => (resolveDefault L cfg ks c k, ())) Val.isNONE
        (st.append k).keys () v (q :: ps)).1 = .ok .NONE := by
    intro v q ps
    simp only [PathSt.fill, resolveDefault_ignored hi]
    rfl
  have hval : (SPath.valueDflt L cfg (st.append k)).1 = .ok .NONE := by
    unfold SPath.valueDflt PathSt.value
    have hs := PathSt.scan_spec (st.append k).parts.reverse
    cases hsc : PathSt.scan (st.append k).parts.reverse with
    | error e =>
      rw [hsc] at hs
      obtain ⟨_, q, hq, hr⟩ := hs
      rw [hraw q (by simpa using hq)] at hr
      cases hr
    | ok o =>
      rw [hsc] at hs
      cases o with
      | none =>
        simp only
        cases hp : (st.append k).parts with
        | nil => simp [PathSt.append] at hp
        | cons q ps => exact hfill _ q ps
      | some x =>
        obtain ⟨i, v⟩ := x
        obtain ⟨pre, q, post, h1, h2, h3, h4, h5⟩ := hs
        simp only
        have hlast : (st.append k).parts.reverse = Part.ofKey k :: st.parts.reverse := by
          simp [PathSt.append]
        rw [hlast] at h1
        cases pre with
        | nil =>
          simp only [List.nil_append, List.cons.injEq] at h1
          rw [← h1.1] at h4
          simp [Part.ofKey] at h4
        | cons x pre =>
          simp only [List.cons_append, List.cons.injEq] at h1
          have hlen : i ≤ st.parts.length := by
            have := congrArg List.length h1.2
            simp at this
            omega
          have hd : (st.append k).parts.drop i = st.parts.drop i ++ [Part.ofKey k] := by
            simp [PathSt.append, List.drop_append_of_le_length hlen]
          rw [hd]
          cases hdd : st.parts.drop i with
          | nil => exact hfill _ _ _
          | cons y ys => exact hfill _ _ _
  simp only [SPath.append, SPath.value, SPath.withValue]
  cases hv : SPath.valueDflt L cfg (st.append k) with
  | mk r st' =>
    rw [hv] at hval
    simp only at hval
    subst hval
    rfl

/-- An alias at the top of the source: field `f` is read from item `0`. -/
example : KeyOf Demo.lib [(.str "f", .int 0)] true (.list [.int 5]) (.str "f") (.ok (.int 5)) :=
  .plain (by rintro ⟨t, ht⟩; have := congrArg String.length ht; rw [String.length_append, show "()".length = 2 from rfl, show "f".length = 1 from rfl] at this; omega)
    (.literal (.alias (a := .int 0) (by intro w h; cases h) rfl rfl rfl (by simp)))

/-- A dotted key: attribute or item after item. -/
example : KeyOf Demo.lib [] true (.dict [(.str "a", .dict [(.str "b", .int 1)])]) (.str "a.b") (.ok (.int 1)) := by
  rcases C21_complete (L := Demo.lib) (cfg := {}) (ks := [.str "a.b"]) rfl
    (c := .dict [(.str "a", .dict [(.str "b", .int 1)])]) (by intro h; cases h) (.str "a.b") with h | h
  · exact absurd h (by decide +kernel)
  · exact (show resolveDefault Demo.lib {} [.str "a.b"] (.dict [(.str "a", .dict [(.str "b", .int 1)])]) (.str "a.b") =
      .ok (.int 1) by decide +kernel) ▸ h

/-- The dotted key is tried literally first. -/
example : (SPath.value Demo.lib (SPath.append (.dflt {} ⟨.dict [
    (.str "a", .dict [(.str "b", .int 1)]), (.str "a.b", .int 2)], []⟩) (.str "a.b"))).1
    = .ok (.int 2) := by decide +kernel

/-- An ignored path. -/
example : (SPath.value Demo.lib (SPath.append (.dflt { ignores := [["a", "b"]] } ⟨.dict [
    (.str "a", .dict [(.str "b", .int 1)])], [Part.ofKey (.str "a")]⟩) (.str "b"))).1
    = .ok .NONE := by decide +kernel

/-- C21's last clause fails for a path that is read after one below it: reading `a.b.c` first makes the
ignored `a.b` present. -/
theorem C21_ignore_counterexample :
    let cfg : DefaultCfg := { ignores := [["a", "b"]] }
    let p : SPath := .dflt cfg ⟨.dict [(.str "a", .dict [(.str "b", .dict [(.str "c", .int 1)])])], []⟩
    let q := [PathOp.append (.str "a"), .append (.str "b"), .append (.str "c"), .value, .pop].foldl
      (SPath.act Demo.lib) p
    (SPath.keys q = ["a", "b"].map Val.str) ∧
      (SPath.value Demo.lib q).1 = .ok (.dict [(.str "c", .int 1)]) := by
  decide +kernel

/-- Conversely, reading the ignored `a.b` of a fresh path makes `a` absent. -/
theorem C21_poison_counterexample :
    let cfg : DefaultCfg := { ignores := [["a", "b"]] }
    let p : SPath := .dflt cfg { root := .dict [(.str "a", .dict [(.str "b", .int 1)])], parts := [] }
    let q := [PathOp.append (.str "a"), .append (.str "b"), .value, .pop].foldl (SPath.act Demo.lib) p
    (SPath.value Demo.lib q).1 = .ok .NONE ∧
      (SPath.value Demo.lib (SPath.act Demo.lib p (.append (.str "a")))).1
        = .ok (.dict [(.str "b", .int 1)]) := by
  decide +kernel

/-- Integer keys never match an ignore entry, not even one written with digits. -/
theorem C21_integer_counterexample :
    let cfg : DefaultCfg := { ignores := [["a", "0"]] }
    let p : SPath := .dflt cfg { root := .dict [(.str "a", .list [.int 1])], parts := [] }
    (SPath.value Demo.lib ([PathOp.append (.str "a"), .append (.int 0)].foldl (SPath.act Demo.lib) p)).1
      = .ok (.int 1) := by
  decide +kernel

end Pilo
