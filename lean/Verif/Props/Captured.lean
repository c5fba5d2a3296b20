import Verif.Props.Unmapped
import Verif.Source.Again
import Verif.Closed

/-!
# C30 on config, union and mount sources
-/

namespace Pilo
namespace Capture
variable {L : Lib} {C : Classes}

/-- `path.value` after `path.append(k)` on a path at its root. -/
theorem value_fresh {σ K : Type} {resolve : List Val → σ → K → Val → Except Exc K × σ} {isN : K → Bool} {s s' : σ} {root v : K}
    {k : String} (h : resolve [.str k] s root (.str k) = (.ok v, s')) :
    PathSt.value resolve isN s (PathSt.append { root := root, parts := [] } (.str k)) =
      (.ok v, s', { root := root, parts := [{ key := .str k, raw := false, cache := some v }] }) := by
  show PathSt.value resolve isN s { root := root, parts := [Part.ofKey (.str k)] } = _
  unfold PathSt.value
  simp only [List.reverse_cons, List.reverse_nil, List.nil_append, PathSt.scan, Part.ofKey, Val.isIntLike, Val.isStr,
    Bool.or_true, Bool.not_true, Bool.false_eq_true, if_false, PathSt.fill, PathSt.keys, List.map_cons, List.map_nil, h]
  cases isN v <;> simp

/-- A path with a cached last part reads it. -/
theorem value_again {σ K : Type} {resolve : List Val → σ → K → Val → Except Exc K × σ} {isN : K → Bool} {s : σ} {root v : K}
    {k : String} :
    PathSt.value resolve isN s { root := root, parts := [{ key := .str k, raw := false, cache := some v }] } =
      (.ok v, s, { root := root, parts := [{ key := .str k, raw := false, cache := some v }] }) := by
  unfold PathSt.value
  simp [PathSt.scan, PathSt.fill]

/-! ## Config sections -/

/-- The entries of a section as its `SectionMapping` lists them (`configparser.py:80-84`): each `name` of a `name[key]`
option with its sub-mapping, then the options. -/
def sectionEntries (L : Lib) (items : List (String × String)) : List (Val × Val) :=
  ((items.filterMap fun p => (subMatch L p.1).map Prod.fst).eraseDups.map fun n =>
    (.str n, .dict ((subMapping L items n).getD []))) ++ items.map fun p => (.str p.1, .str p.2)

/-- A section whose names are all different: the options, which the parser has put in lower case, and the names of
`name[key]` options. -/
structure Tidy (L : Lib) (items : List (String × String)) : Prop where
  lower : ∀ p ∈ items, L.lower p.1 = p.1
  nodup : ((sectionEntries L items).map Prod.fst).Nodup

theorem find_item {items : List (String × String)} (hn : (items.map Prod.fst).Nodup) {p : String × String} (hp : p ∈ items) :
    items.find? (fun q => q.1 == p.1) = some p := by
  induction items with
  | nil => cases hp
  | cons q items ih =>
    simp only [List.map_cons, List.nodup_cons] at hn
    rcases List.mem_cons.1 hp with rfl | hp
    · simp
    · have hne : q.1 ≠ p.1 := fun he => hn.1 (he ▸ List.mem_map_of_mem hp)
      rw [List.find?_cons_of_neg (by simpa using hne)]
      exact ih hn.2 hp

theorem subMapping_some {items : List (String × String)} {n : String} (h : subMapping L items n ≠ none) :
    n ∈ items.filterMap fun p => (subMatch L p.1).map Prod.fst := by
  unfold subMapping at h
  dsimp only at h
  split at h
  · exact absurd rfl h
  · rename_i hne
    obtain ⟨x, hx⟩ := List.exists_mem_of_ne_nil _ (fun h0 => hne (List.isEmpty_iff.2 h0))
    rw [List.mem_filterMap] at hx
    obtain ⟨⟨o, v⟩, ho, hx⟩ := hx
    rw [List.mem_filterMap]
    refine ⟨(o, v), ho, ?_⟩
    dsimp only at hx ⊢
    split at hx
    · rename_i n' k hm
      split at hx
      · rename_i he
        rw [hm]
        simpa using he
      · cases hx
    · cases hx

theorem subMapping_mem {items : List (String × String)} {n : String}
    (h : n ∈ items.filterMap fun p => (subMatch L p.1).map Prod.fst) : ∃ m, subMapping L items n = some m := by
  rw [List.mem_filterMap] at h
  obtain ⟨⟨o, v⟩, ho, hx⟩ := h
  cases hm : subMatch L o with
  | none => rw [hm] at hx; cases hx
  | some nk =>
    obtain ⟨n', k⟩ := nk
    rw [hm] at hx
    cases hx
    unfold subMapping
    dsimp only
    rw [if_neg]
    · exact ⟨_, rfl⟩
    · intro he
      rw [List.isEmpty_iff] at he
      have : (k, v) ∈ ([] : List (String × String)) := by
        rw [← he, List.mem_filterMap]
        exact ⟨(o, v), ho, by simp [hm]⟩
      cases this

theorem section_get {items : List (String × String)} (ht : Tidy L items) (d : CfgData) {sec : String} (hi : d.items sec = items)
    (df : Option (List (Val × Val))) {kv : Val × Val} (hkv : kv ∈ sectionEntries L items) :
    ∃ k, kv.1 = .str k ∧ sectionGet L d sec df (.str k) = .ok kv.2 ∧ kv.2.isIgnore = false ∧ kv.2.isNull = false := by
  have hkv0 := hkv
  unfold sectionEntries at hkv
  rcases List.mem_append.1 hkv with h | h
  · obtain ⟨n, hn, rfl⟩ := List.mem_map.1 h
    rw [List.mem_eraseDups] at hn
    obtain ⟨m, hm⟩ := subMapping_mem hn
    refine ⟨n, rfl, ?_, rfl, rfl⟩
    unfold sectionGet
    rw [hi]
    simp only [hm, Option.getD_some]
  · obtain ⟨p, hp, rfl⟩ := List.mem_map.1 h
    have hnd := ht.nodup
    unfold sectionEntries at hnd
    rw [List.map_append, List.nodup_append] at hnd
    obtain ⟨-, h2, h3⟩ := hnd
    have hnone : subMapping L items p.1 = none := by
      cases hs : subMapping L items p.1 with
      | none => rfl
      | some m =>
        refine absurd rfl (h3 (.str p.1) ?_ (.str p.1) ?_)
        · rw [List.map_map]
          exact List.mem_map.2 ⟨p.1, List.mem_eraseDups.2 (subMapping_some (by rw [hs]; simp)), rfl⟩
        · rw [List.map_map]
          exact List.mem_map.2 ⟨p, hp, rfl⟩
    have hnd2 : (items.map Prod.fst).Nodup := by
      rw [List.map_map] at h2
      have : (items.map Prod.fst).map Val.str = items.map (Prod.fst ∘ fun p : String × String => ((.str p.1 : Val), (.str p.2 : Val))) := by
        rw [List.map_map]; rfl
      rw [← this] at h2
      exact List.Pairwise.of_map _ (fun _ _ h he => h (congrArg _ he)) h2
    refine ⟨p.1, rfl, ?_, rfl, rfl⟩
    unfold sectionGet
    rw [hi]
    simp only [hnone, ht.lower p hp, find_item hnd2 hp]

/-- The path of a `ConfigSource` of one section. -/
def configPath (cfg : ConfigCfg) : Path := .base (.simple (.config cfg { root := cfg.rootVal, parts := [] }))

theorem config_offers {cfg : ConfigCfg} {sec : String} (hsec : cfg.sectionName = some sec) (hne : sec ≠ "")
    (hws : cfg.preserveWhitespace = false) (hpy : L.py3 = false) (ht : Tidy L (cfg.data.items sec)) :
    Offers (Path.ops L) (configPath cfg) (sectionEntries L (cfg.data.items sec)) where
  exists_ := by
    show Except.ok _ = _
    simp [ConfigCfg.rootVal, hsec, hne, CfgVal.isNONE]
  isNull := by
    show Except.ok _ = _
    simp [ConfigCfg.rootVal, hsec, hne, CfgVal.toVal, Val.isNull]
  mapping := by
    have : ((Path.ops L).mapping (configPath cfg)) = Path.someKeys (cfgMapping L cfg cfg.rootVal, configPath cfg) := rfl
    rw [this]
    simp only [ConfigCfg.rootVal, hsec, hne, if_false, cfgMapping, hpy, Bool.false_eq_true, Path.someKeys, sectionEntries,
      List.map_append, List.map_map]
    rfl
  entries := by
    intro kv hkv
    obtain ⟨k, hk, hg, hig, hnn⟩ := section_get ht cfg.data rfl cfg.defaults hkv
    rw [hk]
    generalize kv.2 = v at hg hig hnn
    have hres : resolveConfig L cfg cfg.rootVal (.str k) = .ok (.val v) := by
      simp only [resolveConfig, ConfigCfg.rootVal, hsec, hne, if_false, cfgGet, hg]
    have hnN : v.isNONE = false := by cases v <;> first | rfl | (cases hig)
    let st : PathSt CfgVal := { root := cfg.rootVal, parts := [{ key := .str k, raw := false, cache := some (.val v) }] }
    have e1 : SPath.valueCfg L cfg (PathSt.append { root := cfg.rootVal, parts := [] } (.str k)) = (.ok (.val v), st) := by
      unfold SPath.valueCfg
      rw [value_fresh (s' := ()) (v := .val v) (by rw [hres])]
    have e2 : SPath.valueCfg L cfg st = (.ok (.val v), st) := by
      unfold SPath.valueCfg
      rw [value_again]
    refine ⟨.base (.simple (.config cfg (PathSt.append { root := cfg.rootVal, parts := [] } (.str k)))),
      .base (.simple (.config cfg st)), false, .base (.simple (.config cfg st)), rfl, ?_, ?_, ?_⟩
    · simp only [Path.ops, Path.read, BPath.exists_, BPath.read, SPath.exists_, SPath.withValue, e1, CfgVal.isNONE, hnN,
        Bool.not_false]
    · simp only [Path.ops, Path.read, BPath.isNull, BPath.read, SPath.isNull, SPath.withValue, e2, CfgVal.toVal, hnn]
    · simp only [Path.ops, Path.read, BPath.primitive, BPath.read, SPath.primitive, SPath.withValue, e2, Bool.false_eq_true,
        if_false, SPath.cfgPrimitive, parseNative, CfgVal.toVal]
      cases v <;> simp [hws]
  keys := fun kv hkv => by
    obtain ⟨k, hk, -⟩ := section_get ht cfg.data rfl none hkv
    rw [hk]; rfl
  values := fun kv hkv => by
    obtain ⟨k, -, -, h, -⟩ := section_get ht cfg.data rfl none hkv
    exact h
  nodup := ht.nodup

/-! ## Unions -/

/-- A source of a union, at its root: a mapping with these entries. -/
structure Kid (L : Lib) (c : SPath) (kvs : List (Val × Val)) : Prop where
  root : c.keys = []
  offers : Offers (Path.ops L) (.base (.simple c)) kvs

theorem Kid.exists_ {c : SPath} {kvs : List (Val × Val)} (h : Kid L c kvs) : (c.exists_ L).1 = .ok true := h.offers.exists_
theorem Kid.isNull {c : SPath} {kvs : List (Val × Val)} (h : Kid L c kvs) : (c.isNull L).1 = .ok false := h.offers.isNull
theorem Kid.mapping {c : SPath} {kvs : List (Val × Val)} (h : Kid L c kvs) :
    ∃ v, (c.mapping L).1 = .ok v ∧ v.ks = kvs.map Prod.fst := by
  have h := h.offers.mapping
  show ∃ v, (c.mapping L).1 = .ok v ∧ _
  have e : (Path.ops L).mapping (.base (.simple c)) = Path.someKeys ((c.mapping L).1, .base (.simple (c.mapping L).2)) := rfl
  rw [e] at h
  cases hc : (c.mapping L).1 with
  | error e => rw [hc] at h; cases h
  | ok v =>
    rw [hc] at h
    cases h
    exact ⟨_, rfl, rfl⟩

/-- Reading a path that exists a second time. -/
theorem withValue_twice {α : Type} {c c' : SPath} (h : c.exists_ L = (.ok true, c'))
    (a : DefaultCfg → List Val → Val → Except Exc α) (b : Bool → Val → Except Exc α)
    (f : ConfigCfg → List Val → CfgVal → Except Exc α) :
    c.withValue L a b f = ((c.withValue L a b f).1, c') ∧ c'.withValue L a b f = ((c.withValue L a b f).1, c') := by
  cases c with
  | dflt cfg st =>
    simp only [SPath.exists_, SPath.withValue] at h ⊢
    rcases hw : SPath.valueDflt L cfg st with ⟨r, st'⟩
    rw [hw] at h
    cases r with
    | error e => cases h
    | ok w =>
      simp only [Prod.mk.injEq, Except.ok.injEq, Bool.not_eq_true'] at h
      obtain ⟨hn, rfl⟩ := h
      refine ⟨rfl, ?_⟩
      have hks : st'.keys = st.keys := by
        have := PathSt.value_keys (fun ks (_ : Unit) c k => (resolveDefault L cfg ks c k, ())) Val.isNONE () st
        unfold SPath.valueDflt at hw
        rw [← show _ = st' from congrArg Prod.snd hw]
        exact this
      have hr : SPath.valueDflt L cfg st' = (.ok w, st') := by
        unfold SPath.valueDflt at hw ⊢
        generalize hr : PathSt.value _ Val.isNONE () st = r at hw
        obtain ⟨r1, r2, r3⟩ := r
        simp only [Prod.mk.injEq] at hw
        obtain ⟨rfl, rfl⟩ := hw
        simp only
        rw [PathSt.value_reread hr hn]
      simp only [hr, hks]
  | json s l st =>
    simp only [SPath.exists_, SPath.withValue] at h ⊢
    rcases hw : SPath.valueJson st with ⟨r, st'⟩
    rw [hw] at h
    cases r with
    | error e => cases h
    | ok w =>
      simp only [Prod.mk.injEq, Except.ok.injEq, Bool.not_eq_true'] at h
      obtain ⟨hn, rfl⟩ := h
      refine ⟨rfl, ?_⟩
      have hr : SPath.valueJson st' = (.ok w, st') := by
        unfold SPath.valueJson at hw ⊢
        generalize hr : PathSt.value _ Val.isNONE () st = r at hw
        obtain ⟨r1, r2, r3⟩ := r
        simp only [Prod.mk.injEq] at hw
        obtain ⟨rfl, rfl⟩ := hw
        simp only
        rw [PathSt.value_reread hr hn]
      simp only [hr]
  | config cfg st =>
    simp only [SPath.exists_, SPath.withValue] at h ⊢
    rcases hw : SPath.valueCfg L cfg st with ⟨r, st'⟩
    rw [hw] at h
    cases r with
    | error e => cases h
    | ok w =>
      simp only [Prod.mk.injEq, Except.ok.injEq, Bool.not_eq_true'] at h
      obtain ⟨hn, rfl⟩ := h
      refine ⟨rfl, ?_⟩
      have hks : st'.keys = st.keys := by
        have := PathSt.value_keys (fun _ (_ : Unit) c k => (resolveConfig L cfg c k, ())) CfgVal.isNONE () st
        unfold SPath.valueCfg at hw
        rw [← show _ = st' from congrArg Prod.snd hw]
        exact this
      have hr : SPath.valueCfg L cfg st' = (.ok w, st') := by
        unfold SPath.valueCfg at hw ⊢
        generalize hr : PathSt.value _ CfgVal.isNONE () st = r at hw
        obtain ⟨r1, r2, r3⟩ := r
        simp only [Prod.mk.injEq] at hw
        obtain ⟨rfl, rfl⟩ := hw
        simp only
        rw [PathSt.value_reread hr hn]
      simp only [hr, hks]

theorem primitive_null {c : SPath} (h : (c.isNull L).1 = .ok true) : (c.primitive L .auto).1 = .ok .none := by
  cases c with
  | dflt cfg st =>
    simp only [SPath.isNull, SPath.primitive, SPath.withValue] at h ⊢
    rcases hw : SPath.valueDflt L cfg st with ⟨r, st'⟩
    rw [hw] at h
    cases r with
    | error e => cases h
    | ok w => cases w <;> first | rfl | cases h
  | json s l st =>
    simp only [SPath.isNull, SPath.primitive, SPath.withValue] at h ⊢
    rcases hw : SPath.valueJson st with ⟨r, st'⟩
    rw [hw] at h
    cases r with
    | error e => cases h
    | ok w => cases w <;> first | rfl | cases h
  | config cfg st =>
    simp only [SPath.isNull, SPath.primitive, SPath.withValue] at h ⊢
    rcases hw : SPath.valueCfg L cfg st with ⟨r, st'⟩
    rw [hw] at h
    cases r with
    | error e => cases h
    | ok w =>
      dsimp only at h ⊢
      unfold SPath.cfgPrimitive
      generalize w.toVal = v at h
      cases v <;> first | rfl | cases h

theorem Kid.read {c : SPath} {k v : Val} (h : Has (Path.ops L) (.base (.simple c)) k v) :
    ((c.append k).primitive L .auto).1 = .ok v := by
  obtain ⟨q0, q1, b, q2, h0, h1, h2, h3⟩ := h
  cases h0
  simp only [Path.ops, Path.read, BPath.exists_, BPath.append, BPath.read, Prod.mk.injEq] at h1
  obtain ⟨h1, rfl⟩ := h1
  generalize c.append k = c at *
  have hx : c.exists_ L = (.ok true, (c.exists_ L).2) := Prod.ext h1 rfl
  generalize (c.exists_ L).2 = c' at *
  simp only [Path.ops, Path.read, BPath.isNull, BPath.read, Prod.mk.injEq] at h2
  obtain ⟨h2, rfl⟩ := h2
  have e2 : (c'.isNull L) = ((c.isNull L).1, c') := (withValue_twice hx _ _ _).2
  have e3 : (c'.primitive L .auto) = ((c.primitive L .auto).1, c') := (withValue_twice hx _ _ _).2
  rw [e2] at h2 h3
  simp only [Path.ops, Path.read, BPath.primitive, BPath.read, e3] at h3
  split at h3
  · rename_i hb
    subst hb h3
    exact primitive_null h2
  · exact h3

/-- The entries of several mappings; the first mapping that has a key gives its value. -/
def merged : List (List (Val × Val)) → List (Val × Val)
  | [] => []
  | kvs :: rest => kvs ++ (merged rest).filter fun kv => !kvs.any fun x => x.1 == kv.1

theorem withValue_root {α : Type} {c : SPath} (hc : c.keys = []) (a : DefaultCfg → List Val → Val → Except Exc α)
    (b : Bool → Val → Except Exc α) (f : ConfigCfg → List Val → CfgVal → Except Exc α) : (c.withValue L a b f).2 = c := by
  have h := SPath.withValue_bare L c a b f
  rw [SPath.bare_of_nil hc, SPath.bare_of_nil (by rw [SPath.withValue_keys]; exact hc)] at h
  exact h

theorem onChild_still {α : Type} {f : SPath → Except Exc α × SPath} {kids : List SPath} {i : Nat} {c : SPath}
    (hi : kids[i]? = some c) (hf : (f c).2 = c) : onChild kids i f = ((f c).1, kids) := by
  unfold onChild
  rw [hi]
  show ((f c).1, kids.set i (f c).2) = _
  rw [hf]
  congr 1
  obtain ⟨h, rfl⟩ := List.getElem?_eq_some_iff.1 hi
  exact List.set_getElem_self h

/-- Which keys the source at this place has. -/
def keysAt (kk : List (SPath × List (Val × Val))) (i : Nat) : List Val := (kk[i]?).elim [] fun x => x.2.map Prod.fst

theorem combine_loop {kk : List (SPath × List (Val × Val))} (hk : ∀ x ∈ kk, Kid L x.1 x.2) (js : List Nat) :
    (∀ i ∈ js, i < kk.length) → ∀ acc, mappingLoop L .combine js acc (kk.map Prod.fst) =
      (.ok (acc ++ js.map fun i => (i, keysAt kk i)), kk.map Prod.fst) := by
  induction js with
  | nil => intro _ acc; simp [mappingLoop]
  | cons i js ih =>
    intro hj acc
    have hi := hj i (by simp)
    have ih := ih fun j hj' => hj j (by simp [hj'])
    have hx := hk kk[i] (List.getElem_mem hi)
    have hget : (kk.map Prod.fst)[i]? = some kk[i].1 := by simp [hi]
    have hkeys : keysAt kk i = kk[i].2.map Prod.fst := by unfold keysAt; simp [hi]
    generalize kk[i] = x at hx hget hkeys
    obtain ⟨v, hv, hks⟩ := hx.mapping
    unfold mappingLoop
    rw [onChild_still (f := SPath.exists_ L) hget (withValue_root hx.root _ _ _), hx.exists_]
    dsimp only
    rw [onChild_still (f := SPath.isNull L) hget (withValue_root hx.root _ _ _), hx.isNull]
    dsimp only
    rw [onChild_still (f := SPath.mapping L) hget (withValue_root hx.root _ _ _), hv]
    simp only [reduceCtorEq, if_false, Bool.false_eq_true, if_true, ite_self, hks, ih, List.map_cons, hkeys, List.append_assoc,
      List.singleton_append]

theorem mem_merged {kvss : List (List (Val × Val))} {kv : Val × Val} (h : kv ∈ merged kvss) :
    ∃ (i : Nat) (kvs : List (Val × Val)), kvss[i]? = some kvs ∧ kv ∈ kvs ∧ ∀ j, j < i → ∀ l : List (Val × Val), kvss[j]? = some l → kv.1 ∉ l.map Prod.fst := by
  induction kvss with
  | nil => cases h
  | cons l kvss ih =>
    rcases List.mem_append.1 h with h | h
    · exact ⟨0, l, rfl, h, fun j hj => absurd hj (Nat.not_lt_zero j)⟩
    · obtain ⟨h1, h2⟩ := List.mem_filter.1 h
      obtain ⟨i, kvs, hi, hm, hb⟩ := ih h1
      refine ⟨i + 1, kvs, hi, hm, fun j hj l' hl' => ?_⟩
      cases j with
      | zero =>
        cases hl'
        intro hin
        obtain ⟨x, hx, he⟩ := List.mem_map.1 hin
        simp only [Bool.not_eq_true', List.any_eq_false, beq_iff_eq] at h2
        exact h2 x hx he
      | succ j => exact hb j (Nat.lt_of_succ_lt_succ hj) l' hl'

theorem merged_nodup {kvss : List (List (Val × Val))} (h : ∀ l ∈ kvss, (l.map Prod.fst).Nodup) :
    ((merged kvss).map Prod.fst).Nodup := by
  induction kvss with
  | nil => exact List.nodup_nil
  | cons l kvss ih =>
    unfold merged
    rw [List.map_append, List.nodup_append]
    refine ⟨h l (by simp), (ih fun l' hl => h l' (by simp [hl])).sublist (List.Sublist.map _ List.filter_sublist), ?_⟩
    intro a ha b hb he
    subst he
    obtain ⟨x, hx, rfl⟩ := List.mem_map.1 ha
    obtain ⟨y, hy, he⟩ := List.mem_map.1 hb
    have := (List.mem_filter.1 hy).2
    simp only [Bool.not_eq_true', List.any_eq_false, beq_iff_eq] at this
    exact this x hx he.symm

theorem dedup_append {a b : List Val} (ha : a.Nodup) (hs : ∀ x ∈ a, x.isStr = true) :
    UPath.dedup (a ++ b) = a ++ (UPath.dedup b).filter fun k => !a.any fun x => x == k := by
  induction a with
  | nil => exact (List.filter_eq_self.2 fun _ _ => rfl).symm
  | cons k a ih =>
    simp only [List.nodup_cons] at ha
    have ih := ih ha.2 fun x hx => hs x (by simp [hx])
    have hk := hs k (by simp)
    cases k <;> simp [Val.isStr] at hk
    rename_i k
    simp only [List.cons_append, UPath.dedup, ih, List.filter_append, List.filter_filter]
    congr 2
    · rw [List.filter_eq_self]
      intro x hx
      cases hp : Val.pyEq (.str k) x with
      | false => rfl
      | true => exact absurd (pyEq_str_right.1 hp) fun he => ha.1 (he ▸ hx)
    · refine List.filter_congr fun x _ => ?_
      simp only [List.any_cons, Bool.not_or]
      congr 1
      cases hp : Val.pyEq (.str k) x with
      | false =>
        cases he : (Val.str k == x) with
        | false => rfl
        | true =>
          rw [beq_iff_eq] at he
          rw [pyEq_str_right.2 he.symm] at hp
          cases hp
      | true => rw [pyEq_str_right.1 hp, beq_self_eq_true]

theorem merged_keys {kvss : List (List (Val × Val))} (h : ∀ l ∈ kvss, (l.map Prod.fst).Nodup)
    (hs : ∀ l ∈ kvss, ∀ kv ∈ l, kv.1.isStr = true) :
    UPath.dedup (kvss.flatMap fun l => l.map Prod.fst) = (merged kvss).map Prod.fst := by
  induction kvss with
  | nil => rfl
  | cons l kvss ih =>
    rw [List.flatMap_cons, dedup_append (h l (by simp)), ih (fun l' hl => h l' (by simp [hl]))
      fun l' hl => hs l' (by simp [hl])]
    · show _ = (l ++ (merged kvss).filter fun kv => !l.any fun x => x.1 == kv.1).map Prod.fst
      rw [List.map_append]
      congr 1
      rw [List.filter_map]
      refine congrArg _ (List.filter_congr fun x _ => ?_)
      simp [Function.comp_def, List.any_map]
    · intro x hx
      obtain ⟨kv, hkv, rfl⟩ := List.mem_map.1 hx
      exact hs l (by simp) kv hkv

/-- The path `UnionSource.path()` makes of these sources. -/
def unionPath (cfg : UnionCfg) (kk : List (SPath × List (Val × Val))) : UPath :=
  { cfg := cfg, st := { root := .mapping ((List.range kk.length).map fun i => (i, keysAt kk i)), parts := [] },
    kids := kk.map Prod.fst }

/-- `UnionSource.path()` on sources that are mappings. -/
theorem mk_union {kk : List (SPath × List (Val × Val))} (hne : kk ≠ []) (hk : ∀ x ∈ kk, Kid L x.1 x.2) (cfg : UnionCfg) :
    UPath.mk' L cfg (kk.map Prod.fst) = .ok (unionPath cfg kk) := by
  have h := combine_loop (L := L) hk (List.range kk.length) (fun i hi => List.mem_range.1 hi) []
  rw [List.nil_append] at h
  unfold UPath.mk' mkMapping mappingMode
  have h0 : (kk.map Prod.fst).isEmpty = false := by
    cases kk with
    | nil => exact absurd rfl hne
    | cons => rfl
  simp only [h0, Bool.false_eq_true, if_false, List.length_map, h, reduceCtorEq]
  rfl

theorem keys_union {kk : List (SPath × List (Val × Val))} :
    ((List.range kk.length).map fun i => (i, keysAt kk i)).flatMap Prod.snd =
      (kk.map Prod.snd).flatMap fun l => l.map Prod.fst := by
  have h : (List.range kk.length).map (keysAt kk) = (kk.map Prod.snd).map fun l => l.map Prod.fst := by
    apply List.ext_getElem
    · simp
    · intro i h1 h2
      simp only [List.length_map, List.length_range] at h1
      simp [keysAt, h1]
  rw [List.flatMap_def, List.flatMap_def, ← h, List.map_map]
  rfl

/-- The first source that has the key. -/
theorem get_union {kk : List (SPath × List (Val × Val))} {i : Nat} {x : SPath × List (Val × Val)} (hi : kk[i]? = some x)
    {k : String} (hx : .str k ∈ x.2.map Prod.fst)
    (hb : ∀ j, j < i → ∀ y : SPath × List (Val × Val), kk[j]? = some y → .str k ∉ y.2.map Prod.fst) :
    ∃ cs, mappingGet ((List.range kk.length).map fun i => (i, keysAt kk i)) (.str k) = .ok (.join (i :: cs)) := by
  have hin : ∀ l : List Val, Val.inList (.str k) l = true ↔ .str k ∈ l := by
    intro l
    unfold Val.inList
    rw [List.any_eq_true]
    constructor
    · rintro ⟨y, hy, he⟩
      rw [← pyEq_str_right.1 he]; exact hy
    · exact fun h => ⟨_, h, pyEq_str_right.2 rfl⟩
  obtain ⟨hlt, hxi⟩ := List.getElem?_eq_some_iff.1 hi
  have hfind : (List.range kk.length).find? (fun j => Val.inList (.str k) (keysAt kk j)) = some i := by
    rw [List.find?_range_eq_some]
    refine ⟨?_, List.mem_range.2 hlt, fun j hj => ?_⟩
    · rw [hin]; unfold keysAt; rw [hi]; exact hx
    · have hj' : j < kk.length := Nat.lt_trans hj hlt
      have := hb j hj kk[j] (by simp [hj'])
      simp only [Bool.not_eq_true']
      rw [Bool.eq_false_iff]
      intro h
      rw [hin] at h
      unfold keysAt at h
      rw [List.getElem?_eq_getElem hj'] at h
      exact this h
  have hhead : (((List.range kk.length).map fun i => (i, keysAt kk i)).filter (fun m => Val.inList (.str k) m.2)).map Prod.fst =
      (List.range kk.length).filter fun j => Val.inList (.str k) (keysAt kk j) := by
    rw [List.filter_map, List.map_map]
    exact List.map_id _
  rw [← List.head?_filter] at hfind
  unfold mappingGet
  rw [hhead]
  cases hf : (List.range kk.length).filter fun j => Val.inList (.str k) (keysAt kk j) with
  | nil => rw [hf] at hfind; cases hfind
  | cons a cs =>
    rw [hf] at hfind
    cases hfind
    exact ⟨cs, rfl⟩

theorem union_offers {kk : List (SPath × List (Val × Val))} (hk : ∀ x ∈ kk, Kid L x.1 x.2)
    (cfg : UnionCfg) (hsome : ∃ x ∈ kk, True) :
    Offers (Path.ops L) (.base (.union (unionPath cfg kk))) (merged (kk.map Prod.snd)) where
  exists_ := rfl
  isNull := by
    show Except.ok (List.isEmpty _) = _
    obtain ⟨x, hx, -⟩ := hsome
    cases kk with
    | nil => cases hx
    | cons y kk => simp [List.range_succ_eq_map]
  mapping := by
    show Except.ok (some ({ ks := UPath.dedup (List.flatMap Prod.snd _) } : KeysView)) = _
    rw [keys_union, merged_keys]
    · intro l hl
      obtain ⟨x, hx, rfl⟩ := List.mem_map.1 hl
      exact (hk x hx).offers.nodup
    · intro l hl
      obtain ⟨x, hx, rfl⟩ := List.mem_map.1 hl
      exact (hk x hx).offers.keys
  entries := by
    intro kv hkv
    obtain ⟨i, kvs, hi, hm, hb⟩ := mem_merged hkv
    rw [List.getElem?_map] at hi
    cases hx : kk[i]? with
    | none => rw [hx] at hi; cases hi
    | some x =>
      rw [hx] at hi
      cases hi
      have hkx := hk x (List.mem_of_getElem? hx)
      have hr := Kid.read (hkx.offers.entries kv hm)
      have hs := hkx.offers.keys kv hm
      have hb' : ∀ j, j < i → ∀ y : SPath × List (Val × Val), kk[j]? = some y → kv.1 ∉ y.2.map Prod.fst :=
        fun j hj y hy => hb j hj y.2 (by rw [List.getElem?_map, hy]; rfl)
      obtain ⟨k, v⟩ := kv
      cases k <;> simp [Val.isStr] at hs
      rename_i k
      obtain ⟨cs, hg⟩ := get_union hx (List.mem_map_of_mem hm) hb'
      let kids := (kk.map Prod.fst).map (·.append (.str k))
      let root : UVal := .mapping ((List.range kk.length).map fun i => (i, keysAt kk i))
      let st : PathSt UVal := { root := root, parts := [{ key := .str k, raw := false, cache := some (.join (i :: cs)) }] }
      have e1 : UPath.uvalue ((unionPath cfg kk).append (.str k)) = (.ok (.join (i :: cs)), { cfg := cfg, st := st, kids := kids }) := by
        unfold UPath.uvalue
        have hv : PathSt.value (fun _ kids c k => resolveUnion c k kids) UVal.isNONE kids
            (PathSt.append { root := root, parts := [] } (.str k)) = (.ok (.join (i :: cs)), kids, st) :=
          value_fresh (by simp only [resolveUnion, unionGet, root, hg])
        show (match PathSt.value (fun _ kids c k => resolveUnion c k kids) UVal.isNONE kids
            (PathSt.append { root := root, parts := [] } (.str k)) with
          | (r, kids, st) => (r, ({ cfg := cfg, st := st, kids := kids } : UPath))) = _
        rw [hv]
      have e2 : UPath.uvalue { cfg := cfg, st := st, kids := kids } = (.ok (.join (i :: cs)), { cfg := cfg, st := st, kids := kids }) := by
        unfold UPath.uvalue
        rw [value_again]
      have hget : kids[i]? = some (x.1.append (.str k)) := by simp [kids, hx]
      refine ⟨.base (.union ((unionPath cfg kk).append (.str k))), .base (.union { cfg := cfg, st := st, kids := kids }), false,
        .base (.union { cfg := cfg, st := st, kids := kids }), rfl, ?_, ?_, ?_⟩
      · simp only [Path.ops, Path.read, BPath.exists_, BPath.read, UPath.exists_, e1, UVal.isNONE, Bool.not_false]
      · simp only [Path.ops, Path.read, BPath.isNull, BPath.read, UPath.isNull, e2]
      · simp only [Path.ops, Path.read, BPath.primitive, BPath.read, UPath.primitive, e2, Bool.false_eq_true, if_false]
        unfold onChild
        rw [hget]
        rcases hp : (x.1.append (.str k)).primitive L .auto with ⟨r, c'⟩
        rw [hp] at hr
        dsimp only at hr
        subst hr
        simp only [hp]
  keys := fun kv hkv => by
    obtain ⟨i, kvs, hi, hm, -⟩ := mem_merged hkv
    rw [List.getElem?_map] at hi
    cases hx : kk[i]? with
    | none => rw [hx] at hi; cases hi
    | some x =>
      rw [hx] at hi
      cases hi
      exact (hk x (List.mem_of_getElem? hx)).offers.keys kv hm
  values := fun kv hkv => by
    obtain ⟨i, kvs, hi, hm, -⟩ := mem_merged hkv
    rw [List.getElem?_map] at hi
    cases hx : kk[i]? with
    | none => rw [hx] at hi; cases hi
    | some x =>
      rw [hx] at hi
      cases hi
      exact (hk x (List.mem_of_getElem? hx)).offers.values kv hm
  nodup := merged_nodup fun l hl => by
    obtain ⟨x, hx, rfl⟩ := List.mem_map.1 hl
    exact (hk x hx).offers.nodup

/-! ## Mounts -/

/-- A mounted source, at its root: what it reads as a whole. -/
structure Mounted (L : Lib) (c : SPath) (v : Val) : Prop where
  root : c.keys = []
  value : (c.value L).1 = .ok v
  exists_ : (c.exists_ L).1 = .ok true
  primitive : v.isNull = false → (c.primitive L .auto).1 = .ok v
  ignore : v.isIgnore = false

/-- The path `MountSource.path()` makes of these sources. -/
def mountPath (kk : List (String × SPath × Val)) : MPath :=
  { part := none, dne := .simple (.native (.dict []) none), paths := kk.map fun x => (x.1, .simple x.2.1) }

theorem mk_mount (hpy : L.py3 = false) (kk : List (String × SPath × Val)) :
    MPath.mk' L (kk.map fun x => (x.1, .simple x.2.1)) = .ok (mountPath kk) := by
  unfold MPath.mk'
  rw [hpy]
  rfl

/-- What a mount offers: each mount point with the whole of its source. -/
def mountEntries (kk : List (String × SPath × Val)) : List (Val × Val) := kk.map fun x => (.str x.1, x.2.2)

theorem find_mount {kk : List (String × SPath × Val)} (hn : (kk.map Prod.fst).Nodup) {x : String × SPath × Val} (hx : x ∈ kk)
    (part : Option Val) :
    ∃ i, MPath.find { mountPath kk with part := part } (.str x.1) = some i ∧ kk[i]? = some x := by
  obtain ⟨i, hi, rfl⟩ := List.getElem_of_mem hx
  refine ⟨i, ?_, by simp [hi]⟩
  unfold MPath.find mountPath
  rw [List.findIdx?_eq_some_iff_getElem]
  refine ⟨by simpa using hi, ?_, ?_⟩
  · simp [pyEq_str_right]
  · intro j hj
    simp only [List.getElem_map, pyEq_str_right, Val.str.injEq]
    intro he
    exact (List.pairwise_iff_getElem.1 hn) j i (by simp; omega) (by simpa using hi) hj (by simpa using he)

theorem mount_offers {kk : List (String × SPath × Val)} (hk : ∀ x ∈ kk, Mounted L x.2.1 x.2.2)
    (hn : (kk.map Prod.fst).Nodup) : Offers (Path.ops L) (.mount (mountPath kk)) (mountEntries kk) where
  exists_ := rfl
  isNull := rfl
  mapping := by
    show Except.ok (some ({ ks := ((mountPath kk).paths.map fun q => .str q.1) } : KeysView)) = _
    simp [mountPath, mountEntries, Function.comp_def]
  entries := by
    intro kv hkv
    obtain ⟨x, hx, rfl⟩ := List.mem_map.1 hkv
    have hm := hk x hx
    let p : MPath := { mountPath kk with part := some (.str x.1) }
    obtain ⟨i, hf, hi⟩ := find_mount hn hx (some (.str x.1))
    have hget : p.paths[i]? = some (x.1, .simple x.2.1) := by simp [p, mountPath, hi]
    have hsub : p.sub (.str x.1) = .simple x.2.1 := by
      unfold MPath.sub
      rw [show p.find (.str x.1) = some i from hf]
      simp only [hget]
    have hset : p.setSub (.str x.1) (.simple x.2.1) = p := by
      unfold MPath.setSub
      rw [show p.find (.str x.1) = some i from hf]
      have : p.paths.modify i (fun r => (r.1, .simple x.2.1)) = p.paths := by
        apply List.ext_getElem?
        intro j
        rw [List.getElem?_modify]
        by_cases hij : i = j
        · subst hij
          rw [hget]
          simp
        · simp [hij]
      simp only [this]
    have e1 : x.2.1.exists_ L = (.ok true, x.2.1) := Prod.ext hm.exists_ (withValue_root hm.root _ _ _)
    have e2 : x.2.1.value L = (.ok x.2.2, x.2.1) := Prod.ext hm.value (withValue_root hm.root _ _ _)
    refine ⟨.mount p, .mount p, x.2.2.isNull, .mount p, rfl, ?_, ?_, ?_⟩
    · simp only [Path.ops, Path.read, MPath.exists_, MPath.onSub, p, hsub, BPath.exists_, BPath.read, e1, hset]
    · simp only [Path.ops, Path.read, MPath.isNull, MPath.onSub, p, hsub, BPath.value, BPath.read, e2, hset]
    · split
      · rename_i hnull
        cases hv : x.2.2 <;> rw [hv] at hnull <;> first | rfl | cases hnull
      · rename_i hnull
        have e3 := hm.primitive (by simpa using hnull)
        simp only [Path.ops, Path.read, MPath.primitive, MPath.onSub, p, hf, hsub, BPath.primitive, BPath.read, e3]
  keys := fun kv hkv => by
    obtain ⟨x, hx, rfl⟩ := List.mem_map.1 hkv
    rfl
  values := fun kv hkv => by
    obtain ⟨x, hx, rfl⟩ := List.mem_map.1 hkv
    exact (hk x hx).ignore
  nodup := by
    unfold mountEntries
    rw [List.map_map]
    have : kk.map (Prod.fst ∘ fun x : String × SPath × Val => ((.str x.1 : Val), x.2.2)) = (kk.map Prod.fst).map Val.str := by
      rw [List.map_map]; rfl
    rw [this]
    exact List.Pairwise.map _ (fun _ _ h he => h (Val.str.inj he)) hn

/-! ## Sources to put together -/

/-- A native document. -/
theorem kid_native {kvs : List (Val × Val)} {loc : Option String} (h : Legible (.native loc) kvs) :
    Kid L (.dflt { location := loc } { root := .dict kvs, parts := [] }) kvs where
  root := rfl
  offers := h.offers (root := .dict kvs) ⟨by simp [Path.lawful, Path.WF, BPath.WF, SPath.Tidy, PathSt.Tidy], by
    intro d st hd
    cases hd
    intro pre q post v h
    simp at h⟩ rfl DocKind.Sees.root

/-- A JSON document. -/
theorem kid_json {kvs : List (Val × Val)} {strict : Bool} {loc : Option String} (h : Legible (.json strict loc) kvs) :
    Kid L (.json strict loc { root := .dict kvs, parts := [] }) kvs where
  root := rfl
  offers := h.offers (root := .dict kvs) ⟨by simp [Path.lawful, Path.WF, BPath.WF, SPath.Tidy, PathSt.Tidy], by
    intro d st hd
    cases hd
    intro pre q post v h
    simp at h⟩ rfl DocKind.Sees.root

/-- A config section. -/
theorem kid_config {cfg : ConfigCfg} {sec : String} (hsec : cfg.sectionName = some sec) (hne : sec ≠ "")
    (hws : cfg.preserveWhitespace = false) (hpy : L.py3 = false) (ht : Tidy L (cfg.data.items sec)) :
    Kid L (.config cfg { root := cfg.rootVal, parts := [] }) (sectionEntries L (cfg.data.items sec)) :=
  ⟨rfl, config_offers hsec hne hws hpy ht⟩

/-- A mounted native document. -/
theorem mounted_native {v : Val} (hv : v.isIgnore = false) (loc : Option String) :
    Mounted L (.dflt { location := loc } { root := v, parts := [] }) v where
  root := rfl
  value := rfl
  exists_ := by
    show Except.ok (!v.isNONE) = _
    cases v <;> first | rfl | cases hv
  primitive := fun _ => rfl
  ignore := hv

/-- A mounted JSON document. -/
theorem mounted_json {v : Val} (hv : v.isIgnore = false) (strict : Bool) (loc : Option String) :
    Mounted L (.json strict loc { root := v, parts := [] }) v where
  root := rfl
  value := rfl
  exists_ := by
    show Except.ok (!v.isNONE) = _
    cases v <;> first | rfl | cases hv
  primitive := fun _ => rfl
  ignore := hv

theorem config_wf (cfg : ConfigCfg) : (Path.whole L).WF (configPath cfg) :=
  ⟨fun q hq => (by cases hq), trivial⟩

theorem union_wf {kk : List (SPath × List (Val × Val))} (hk : ∀ x ∈ kk, Kid L x.1 x.2) (cfg : UnionCfg) :
    (Path.whole L).WF (.base (.union (unionPath cfg kk))) := by
  refine ⟨⟨fun c hc => ?_, fun q hq => (by cases hq)⟩, ⟨_, rfl⟩⟩
  obtain ⟨x, hx, rfl⟩ := List.mem_map.1 hc
  rw [(hk x hx).root]
  rfl

theorem SPath.tidy_nil {c : SPath} (h : c.keys = []) : c.Tidy := by
  cases c with
  | dflt cfg st =>
    have : st.parts = [] := List.map_eq_nil_iff.1 h
    exact fun q hq => by rw [this] at hq; cases hq
  | json s l st =>
    have : st.parts = [] := List.map_eq_nil_iff.1 h
    exact fun q hq => by rw [this] at hq; cases hq
  | config cfg st =>
    have : st.parts = [] := List.map_eq_nil_iff.1 h
    exact fun q hq => by rw [this] at hq; cases hq

theorem mount_wf {kk : List (String × SPath × Val)} (hk : ∀ x ∈ kk, Mounted L x.2.1 x.2.2) :
    (Path.whole L).WF (.mount (mountPath kk)) := by
  have hall : ∀ y ∈ (mountPath kk).paths, BPath.WF y.2 ∧ y.2.keys = [] := by
    intro y hy
    obtain ⟨x, hx, rfl⟩ := List.mem_map.1 hy
    exact ⟨SPath.tidy_nil (hk x hx).root, (hk x hx).root⟩
  refine ⟨(MPath.mk'_wf (L := { L with py3 := false }) hall rfl).1, ⟨trivial, fun q hq => ⟨?_, (hall q hq).1⟩, fun i q hq _ => ?_⟩⟩
  · obtain ⟨x, hx, rfl⟩ := List.mem_map.1 hq
    trivial
  · exact (hall q (List.mem_of_getElem? hq)).2

end Capture

open Capture

/-- C30, a section of a config file as source (Python 2, no `preserve_whitespace`): what is captured are the options
and the `name[key]` mappings that the form does not have.  The section has no two of one name. -/
theorem C30_config_partial {cfg : ConfigCfg} {sec : String} (hsec : cfg.sectionName = some sec) (hne : sec ≠ "")
    (hws : cfg.preserveWhitespace = false) (hpy : L.py3 = false) (ht : Capture.Tidy L (cfg.data.items sec)) (n id : Nat)
    (tags : List String) (reset raising : Bool) {s : St Path} (hl : Live s) (hi : Inv (Path.whole L) s) :
    Captures (sectionEntries L (cfg.data.items sec)) id
      (Form.map (Path.ops L) L C (n + 2) id (.source (.ok (configPath cfg))) tags reset (.str .ignore) raising s)
      (Form.map (Path.ops L) L C (n + 2) id (.source (.ok (configPath cfg))) tags reset (.str .capture) raising s) :=
  C30_source_partial (config_wf cfg) rfl (config_offers hsec hne hws hpy ht) n id tags reset raising hl hi

/-- C30, a union as source: what is captured are the keys of all its sources that the form does not have, each with
the value of the first source that has it. -/
theorem C30_union_partial {kk : List (SPath × List (Val × Val))} (hne : kk ≠ []) (hk : ∀ x ∈ kk, Kid L x.1 x.2)
    (cfg : UnionCfg) (n id : Nat) (tags : List String) (reset raising : Bool) {s : St Path} (hl : Live s)
    (hi : Inv (Path.whole L) s) :
    ∃ p, UPath.mk' L cfg (kk.map Prod.fst) = .ok p ∧ Captures (merged (kk.map Prod.snd)) id
      (Form.map (Path.ops L) L C (n + 2) id (.source (.ok (.base (.union p)))) tags reset (.str .ignore) raising s)
      (Form.map (Path.ops L) L C (n + 2) id (.source (.ok (.base (.union p)))) tags reset (.str .capture) raising s) :=
  ⟨_, mk_union hne hk cfg, C30_source_partial (union_wf hk cfg) rfl
    (union_offers hk cfg (List.exists_mem_of_ne_nil _ hne |>.imp fun _ h => ⟨h, trivial⟩)) n id tags reset raising hl hi⟩

/-- C30, a mount as source (Python 2, where there are mounts): what is captured are the mount points that the form
does not have, each with the whole of the mounted source. -/
theorem C30_mount_partial {kk : List (String × SPath × Val)} (hpy : L.py3 = false)
    (hk : ∀ x ∈ kk, Mounted L x.2.1 x.2.2) (hn : (kk.map Prod.fst).Nodup) (n id : Nat) (tags : List String)
    (reset raising : Bool) {s : St Path} (hl : Live s) (hi : Inv (Path.whole L) s) :
    ∃ p, MPath.mk' L (kk.map fun x => (x.1, .simple x.2.1)) = .ok p ∧ Captures (mountEntries kk) id
      (Form.map (Path.ops L) L C (n + 2) id (.source (.ok (.mount p))) tags reset (.str .ignore) raising s)
      (Form.map (Path.ops L) L C (n + 2) id (.source (.ok (.mount p))) tags reset (.str .capture) raising s) :=
  ⟨_, mk_mount hpy kk, C30_source_partial (mount_wf hk) rfl (mount_offers hk hn) n id tags reset raising hl hi⟩

section
open Demo

/-- The library of the examples under Python 2. -/
def Capture.old : Lib := { lib with py3 := false }

theorem holding_whole (cls : Nat) (items : List (Val × Val)) : Inv (Path.whole Capture.old) (holding cls items) where
  wf := by intro p hp; cases hp
  seg := by simp [holding, SegOK, rootFrame]
  nodup := by simp [holding, srcRefs, rootFrame]
  root := ⟨rootFrame, rfl, rfl⟩

/-- `[g]`, `a = 1`, `m[x] = u`, `z = 2`, `m[y] = v`. -/
def Capture.section_ : ConfigCfg where
  data := ⟨[("g", [("a", "1"), ("m[x]", "u"), ("z", "2"), ("m[y]", "v")])]⟩
  sectionName := some "g"

theorem section_tidy : Capture.Tidy Capture.old (Capture.section_.data.items "g") where
  lower := by decide +kernel
  nodup := by decide +kernel

/-- C30 on a config section. -/
example : Captures (sectionEntries Capture.old (Capture.section_.data.items "g")) 0
      (Form.map (Path.ops Capture.old) Capture.old table 12 0 (.source (.ok (configPath Capture.section_))) [] false (.str .ignore) false
        (holding 2 [(.str "z", .int 9)]))
      (Form.map (Path.ops Capture.old) Capture.old table 12 0 (.source (.ok (configPath Capture.section_))) [] false (.str .capture) false
        (holding 2 [(.str "z", .int 9)])) :=
  C30_config_partial rfl (by decide) rfl rfl section_tidy 10 0 [] false false (holding_live _ _) (holding_whole _ _)

/-- There: the field `a`, the old `z`, and the captured `m`; `b` is missing. -/
example : after (Form.map (Path.ops Capture.old) Capture.old table 12 0 (.source (.ok (configPath Capture.section_))) [] false
      (.str .capture) false (holding 2 [(.str "z", .int 9)])) ["a", "b", "z", "m", "m[x]"] =
    (.ok [(.missing, "[g]:b")], [some (.int 1), none, some (.int 9),
      some (.dict [(.str "x", .str "u"), (.str "y", .str "v")]), some (.str "u")]) := by decide +kernel

/-- Under Python 3 the section cannot be listed (`pilo/source/configparser.py:80-84`, `iteritems`): `'capture'` raises. -/
theorem C30_config_counterexample :
    after (Form.map (Path.ops lib) lib table 12 0 (.source (.ok (configPath Capture.section_))) [] false (.str .ignore) false
      (holding 2 [])) ["a"] = (.ok [(.missing, "[g]:b")], [some (.int 1)]) ∧
    (Form.map (Path.ops lib) lib table 12 0 (.source (.ok (configPath Capture.section_))) [] false (.str .capture) false
      (holding 2 [])).1 = .error (.attributeError "'collections.defaultdict' object has no attribute 'iteritems'") :=
  ⟨by decide +kernel, by decide +kernel⟩

/-- A JSON source takes a key apart at its dots (`pilo/source/json.py:24-33`): the key `y.x` at the root is not found,
and is reported as missing. -/
theorem C30_json_counterexample :
    let src : SrcArg Path := .source (.ok (.base (.simple (.json true none
      { root := .dict [(.str "a", .int 1), (.str "b", .int 2), (.str "y.x", .int 3)], parts := [] }))))
    after (Form.map (Path.ops lib) lib table 12 0 src [] false (.str .ignore) false (holding 2 [])) ["y.x"] = (.ok [], [none]) ∧
    after (Form.map (Path.ops lib) lib table 12 0 src [] false (.str .capture) false (holding 2 [])) ["y.x"] =
      (.ok [(.missing, "y.x")], [none]) := by decide +kernel

/-- A native document, the section and a JSON document: `{"a": 5, "k": null}`, `[g]`, `{"k": 7, "w": [1]}`. -/
def Capture.three : List (SPath × List (Val × Val)) :=
  [(.dflt {} { root := .dict [(.str "a", .int 5), (.str "k", .none)], parts := [] }, [(.str "a", .int 5), (.str "k", .none)]),
   (.config Capture.section_ { root := Capture.section_.rootVal, parts := [] },
    sectionEntries Capture.old (Capture.section_.data.items "g")),
   (.json true none { root := .dict [(.str "k", .int 7), (.str "w", .list [.int 1])], parts := [] },
    [(.str "k", .int 7), (.str "w", .list [.int 1])])]

theorem three_kids : ∀ x ∈ Capture.three, Kid Capture.old x.1 x.2 := by
  intro x hx
  simp only [Capture.three, List.mem_cons, List.not_mem_nil, or_false] at hx
  rcases hx with rfl | rfl | rfl
  · refine kid_native ⟨?_, by decide, by simp⟩
    intro kv h
    simp only [List.mem_cons, List.not_mem_nil, or_false] at h
    rcases h with rfl | rfl <;> exact ⟨_, rfl, by unfold Plain; decide⟩
  · exact kid_config rfl (by decide) rfl rfl section_tidy
  · refine kid_json ⟨?_, by decide, by simp⟩
    intro kv h
    simp only [List.mem_cons, List.not_mem_nil, or_false] at h
    rcases h with rfl | rfl <;> exact ⟨_, rfl, by unfold Plain; decide⟩

/-- C30 on a union of the three. -/
example : ∃ p, UPath.mk' Capture.old {} (Capture.three.map Prod.fst) = .ok p ∧ Captures (merged (Capture.three.map Prod.snd)) 0
      (Form.map (Path.ops Capture.old) Capture.old table 12 0 (.source (.ok (.base (.union p)))) [] false (.str .ignore) false
        (holding 2 []))
      (Form.map (Path.ops Capture.old) Capture.old table 12 0 (.source (.ok (.base (.union p)))) [] false (.str .capture) false
        (holding 2 [])) :=
  C30_union_partial (by simp [Capture.three]) three_kids {} 10 0 [] false false (holding_live _ _) (holding_whole _ _)

/-- There: `a` of the first source, its null `k`, the section, and `w` of the last source. -/
example : after (match UPath.mk' Capture.old {} (Capture.three.map Prod.fst) with
      | .ok p => Form.map (Path.ops Capture.old) Capture.old table 12 0 (.source (.ok (.base (.union p)))) [] false (.str .capture)
        false (holding 2 [])
      | .error e => (.error e, holding 2 [])) ["a", "b", "k", "z", "m[y]", "w"] =
    (.ok [(.missing, "b")], [some (.int 5), none, some .none, some (.str "2"), some (.str "v"), some (.list [.int 1])]) := by
  decide +kernel

/-- C30 on a mount of two documents: `env` and `a`. -/
example : ∃ p, MPath.mk' Capture.old [("env", .simple (.native (.dict [(.str "x", .int 1)]) none)),
      ("a", .simple (.json true none { root := .int 4, parts := [] }))] = .ok p ∧
    Captures [(.str "env", .dict [(.str "x", .int 1)]), (.str "a", .int 4)] 0
      (Form.map (Path.ops Capture.old) Capture.old table 12 0 (.source (.ok (.mount p))) [] false (.str .ignore) false (holding 2 []))
      (Form.map (Path.ops Capture.old) Capture.old table 12 0 (.source (.ok (.mount p))) [] false (.str .capture) false
        (holding 2 [])) :=
  C30_mount_partial (kk := [("env", .native (.dict [(.str "x", .int 1)]) none, .dict [(.str "x", .int 1)]),
    ("a", .json true none { root := .int 4, parts := [] }, .int 4)]) rfl
    (by
      intro x hx
      simp only [List.mem_cons, List.not_mem_nil, or_false] at hx
      rcases hx with rfl | rfl
      · exact mounted_native rfl none
      · exact mounted_json rfl true none)
    (by simp) 10 0 [] false false (holding_live _ _) (holding_whole _ _)

/-- With a third, `b`: `a` and `b` are mapped, `env` is captured. -/
example : after (Form.map (Path.ops Capture.old) Capture.old table 12 0 (.source (.ok (.mount
      { part := none, dne := .simple (.native (.dict []) none),
        paths := [("env", .simple (.native (.dict [(.str "x", .int 1)]) none)),
          ("a", .simple (.json true none { root := .int 4, parts := [] })),
          ("b", .simple (.native (.str "6") none))] }))) [] false (.str .capture) false (holding 2 []))
      ["a", "b", "env"] = (.ok [], [some (.int 4), some (.int 6), some (.dict [(.str "x", .int 1)])]) := by decide +kernel

end
end Pilo
