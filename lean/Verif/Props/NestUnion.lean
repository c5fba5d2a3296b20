import Verif.Props.Nest

/-!
# C103: unions of unions
-/

namespace Pilo
variable {L : Lib}

/-- What a path shows of its keys, when it exists and is not null. -/
def Child.present {P : Type} (K : Child P) (p : P) : Option (List Val) :=
  match (K.exists_ p).1, (K.isNull p).1, (K.mapping p).1 with
  | .ok true, .ok false, .ok kv => some kv.ks
  | _, _, _ => none

/-- Reading it at its root leaves the path as it is. -/
structure Child.Still {P : Type} (K : Child P) (p : P) : Prop where
  exists_ : (K.exists_ p).2 = p
  isNull : (K.isNull p).2 = p
  mapping : (K.mapping p).2 = p

/-- The path lists the key `k`. -/
def Child.lists {P : Type} (K : Child P) (k : String) (p : P) : Bool :=
  match K.present p with
  | some ks => ks.contains (Val.str k)
  | none => false

namespace UnionOf
variable {P : Type} {K : Child P}

theorem onKid_still {α : Type} {kids : List P} {i : Nat} {c : P} (h : kids[i]? = some c) {f : P → Except Exc α × P}
    (hf : (f c).2 = c) : onKid kids i f = ((f c).1, kids) := by
  unfold onKid
  rw [h]
  dsimp only
  have e : kids.set i (f c).2 = kids := by
    rw [hf]
    apply List.ext_getElem?
    intro j
    rw [List.getElem?_set]
    split
    · rename_i hij
      subst hij
      split
      · exact h.symm
      · rename_i hlt
        rw [List.getElem?_eq_none (by omega)]
    · rfl
  rw [e]

/-- The children that show their keys. -/
def shown (K : Child P) (kids : List P) (i : Nat) : Option (Nat × List Val) :=
  (kids[i]?.bind K.present).map fun ks => (i, ks)

theorem mappingLoop_combine {kids : List P} (hs : ∀ c ∈ kids, K.Still c) (cs : List Nat) :
    ∀ {acc ms kids'}, K.mappingLoop .combine cs acc kids = (.ok ms, kids') →
      kids' = kids ∧ ms = acc ++ cs.filterMap (shown K kids) := by
  induction cs with
  | nil =>
    intro acc ms kids' h
    simp only [Child.mappingLoop, Prod.mk.injEq, Except.ok.injEq] at h
    exact ⟨h.2.symm, by simp [h.1]⟩
  | cons i cs ih =>
    intro acc ms kids' h
    unfold Child.mappingLoop at h
    cases hc : kids[i]? with
    | none =>
      have : onKid kids i K.exists_ = (.error (.indexError "no such path"), kids) := by unfold onKid; rw [hc]
      rw [this] at h
      simp at h
    | some c =>
      have st := hs c (List.mem_of_getElem? hc)
      rw [onKid_still hc st.exists_] at h
      have hshown : shown K kids i = (K.present c).map fun ks => (i, ks) := by unfold shown; rw [hc]; rfl
      cases he : (K.exists_ c).1 with
      | error e => rw [he] at h; simp at h
      | ok b =>
        rw [he] at h
        cases b with
        | false =>
          obtain ⟨h1, h2⟩ := ih h
          refine ⟨h1, ?_⟩
          rw [h2, List.filterMap_cons, hshown]
          simp [Child.present, he]
        | true =>
          dsimp only at h
          rw [onKid_still hc st.isNull] at h
          cases hn : (K.isNull c).1 with
          | error e => rw [hn] at h; simp at h
          | ok b =>
            rw [hn] at h
            dsimp only at h
            rw [if_neg (by simp)] at h
            cases b with
            | true =>
              rw [if_pos rfl] at h
              obtain ⟨h1, h2⟩ := ih h
              refine ⟨h1, ?_⟩
              rw [h2, List.filterMap_cons, hshown]
              simp [Child.present, he, hn]
            | false =>
              rw [if_neg (by simp), onKid_still hc st.mapping] at h
              cases hm : (K.mapping c).1 with
              | error e => rw [hm] at h; simp at h
              | ok kv =>
                rw [hm] at h
                dsimp only at h
                have h : K.mappingLoop .combine cs (acc ++ [(i, kv.ks)]) kids = (.ok ms, kids') := by
                  split at h
                  · exact h
                  · exact h
                obtain ⟨h1, h2⟩ := ih h
                refine ⟨h1, ?_⟩
                rw [h2, List.filterMap_cons, hshown]
                simp [Child.present, he, hn, hm]

/-- What `make` makes of still children. -/
theorem make_still {kids : List P} (hs : ∀ c ∈ kids, K.Still c) {cfg : UnionCfg} {u : UnionOf P}
    (h : make K cfg kids = .ok u) :
    u = { cfg := cfg, st := { root := .mapping ((List.range kids.length).filterMap (shown K kids)), parts := [] },
          kids := kids } := by
  unfold make at h
  split at h
  · cases h
  · split at h
    · cases h
    · rename_i ms kids' hm
      cases h
      obtain ⟨rfl, h2⟩ := mappingLoop_combine hs _ hm
      rw [h2]
      rfl

/-- The opened union. -/
def opened (K : Child P) (cfg : UnionCfg) (kids : List P) : UnionOf P :=
  { cfg := cfg, st := { root := .mapping ((List.range kids.length).filterMap (shown K kids)), parts := [] }, kids := kids }

theorem opened_still (cfg : UnionCfg) (kids : List P) : (Over.child L K).Still (.union (opened K cfg kids)) :=
  ⟨rfl, rfl, rfl⟩

theorem mem_shown {kids : List P} {i : Nat} {ks : List Val} :
    (i, ks) ∈ (List.range kids.length).filterMap (shown K kids) ↔ ∃ c, kids[i]? = some c ∧ K.present c = some ks := by
  rw [List.mem_filterMap]
  constructor
  · rintro ⟨j, -, hj⟩
    unfold shown at hj
    cases hc : kids[j]? with
    | none => rw [hc] at hj; cases hj
    | some c =>
      rw [hc] at hj
      simp only [Option.bind_some, Option.map_eq_some_iff, Prod.mk.injEq] at hj
      obtain ⟨a, h1, rfl, rfl⟩ := hj
      exact ⟨c, hc, h1⟩
  · rintro ⟨c, hc, hp⟩
    refine ⟨i, List.mem_range.2 (List.getElem?_eq_some_iff.1 hc).1, ?_⟩
    simp [shown, hc, hp]

theorem lists_iff {k : String} {p : P} : K.lists k p = true ↔ ∃ ks, K.present p = some ks ∧ Val.str k ∈ ks := by
  unfold Child.lists
  cases K.present p with
  | none => simp
  | some ks =>
    simp

theorem present_opened (cfg : UnionCfg) (kids : List P) :
    (Over.child L K).present (.union (opened K cfg kids)) =
      if ((List.range kids.length).filterMap (shown K kids)).isEmpty then none
      else some (UPath.mappingKeys ((List.range kids.length).filterMap (shown K kids))) := by
  have h1 : ((Over.child L K).exists_ (.union (opened K cfg kids))).1 = .ok true := rfl
  have h2 : ((Over.child L K).isNull (.union (opened K cfg kids))).1 =
    .ok ((List.range kids.length).filterMap (shown K kids)).isEmpty := rfl
  have h3 : ((Over.child L K).mapping (.union (opened K cfg kids))).1 =
    .ok { ks := UPath.mappingKeys ((List.range kids.length).filterMap (shown K kids)) } := rfl
  unfold Child.present
  rw [h1, h2, h3]
  cases ((List.range kids.length).filterMap (shown K kids)).isEmpty <;> rfl

/-- An opened union lists what one of its children lists. -/
theorem lists_opened (cfg : UnionCfg) (kids : List P) (k : String) :
    (Over.child L K).lists k (.union (opened K cfg kids)) = kids.any (K.lists k) := by
  rw [Bool.eq_iff_iff, lists_iff, List.any_eq_true, present_opened]
  constructor
  · rintro ⟨ks, h1, h2⟩
    split at h1
    · cases h1
    · cases h1
      obtain ⟨⟨i, ms⟩, hm, h⟩ := (UPath.mappingKeys_spec _).sub _ h2
      obtain ⟨c, hc, hp⟩ := mem_shown.1 hm
      exact ⟨c, List.mem_of_getElem? hc, lists_iff.2 ⟨_, hp, h⟩⟩
  · rintro ⟨c, hc, h⟩
    obtain ⟨ks, h1, h2⟩ := lists_iff.1 h
    obtain ⟨i, hi, rfl⟩ := List.getElem_of_mem hc
    have hm : (i, ks) ∈ (List.range kids.length).filterMap (shown K kids) :=
      mem_shown.2 ⟨_, List.getElem?_eq_getElem hi, h1⟩
    rw [if_neg (by intro h0; rw [List.isEmpty_iff.1 h0] at hm; cases hm)]
    exact ⟨_, rfl, (UPath.mappingKeys_spec _).all _ hm _ h2⟩

/-- The children that list a key, in order. -/
def listers (K : Child P) (kids : List P) (k : String) : List Nat :=
  (((List.range kids.length).filterMap (shown K kids)).filter fun m => (Val.str k).inList m.2).map Prod.fst

theorem inList_str (k : String) (ks : List Val) : (Val.str k).inList ks = ks.contains (Val.str k) := by
  unfold Val.inList
  rw [Bool.eq_iff_iff, List.any_eq_true, List.contains_iff_mem]
  constructor
  · rintro ⟨x, hx, h⟩
    cases x <;> simp [Val.pyEq] at h
    rw [h]; exact hx
  · intro h
    exact ⟨_, h, by simp [Val.pyEq]⟩

theorem listers_eq (kids : List P) (k : String) :
    listers K kids k = (List.range kids.length).filter fun i => (kids[i]?.map (K.lists k)).getD false := by
  unfold listers
  induction List.range kids.length with
  | nil => rfl
  | cons i is ih =>
    rw [List.filterMap_cons, List.filter_cons]
    cases hc : kids[i]? with
    | none =>
      have : shown K kids i = none := by simp [shown, hc]
      rw [this]
      simpa using ih
    | some c =>
      cases hp : K.present c with
      | none =>
        have : shown K kids i = none := by simp [shown, hc, hp]
        rw [this]
        simpa [Child.lists, hp] using ih
      | some ks =>
        have : shown K kids i = some (i, ks) := by simp [shown, hc, hp]
        rw [this]
        dsimp only
        rw [List.filter_cons]
        have e : K.lists k c = (Val.str k).inList ks := by rw [inList_str]; unfold Child.lists; rw [hp]
        rw [Option.map_some, Option.getD_some, e]
        cases (Val.str k).inList ks with
        | false => simpa using ih
        | true => simpa using ih

/-- The value at a key of the root. -/
theorem uvalue_at (cfg : UnionCfg) (kids : List P) (k : String) :
    ∃ st, ((opened K cfg kids).app K (.str k)).uvalue K =
      (.ok (match listers K kids k with | [] => .val .NONE | cs => .join cs),
       { cfg := cfg, kids := kids.map (K.app · (.str k)), st := st }) := by
  have hh : (opened K cfg kids).st.Held (.mapping ((List.range kids.length).filterMap (shown K kids))) := .inl ⟨rfl, rfl⟩
  have hr : K.resolveUnion (.mapping ((List.range kids.length).filterMap (shown K kids))) (.str k)
      (kids.map (K.app · (.str k))) =
      (.ok (match listers K kids k with | [] => .val .NONE | cs => .join cs), kids.map (K.app · (.str k))) := by
    simp only [Child.resolveUnion, mappingGet, listers]
    generalize ((List.filter (fun m => (Val.str k).inList m.2) ((List.range kids.length).filterMap (shown K kids))).map Prod.fst) = cs
    cases cs <;> rfl
  unfold uvalue app
  dsimp only
  rw [hh.append_value rfl]
  have e : (opened K cfg kids).kids = kids := rfl
  rw [e, hr]
  exact ⟨_, rfl⟩

theorem exists_at (cfg : UnionCfg) (kids : List P) (k : String) :
    (((opened K cfg kids).app K (.str k)).exists_ K).1 = .ok (kids.any (K.lists k)) := by
  obtain ⟨st, h⟩ := uvalue_at (K := K) cfg kids k
  unfold exists_
  rw [h]
  dsimp only
  congr 1
  rw [listers_eq]
  split
  · rename_i h0
    rw [List.filter_eq_nil_iff] at h0
    symm
    rw [show (!UVal.isNONE (.val .NONE)) = false from rfl, List.any_eq_false]
    intro c hc
    obtain ⟨i, hi, rfl⟩ := List.getElem_of_mem hc
    have := h0 i (List.mem_range.2 hi)
    simpa [List.getElem?_eq_getElem hi] using this
  · rename_i h0
    symm
    rw [show ∀ cs, (!UVal.isNONE (.join cs)) = true from fun _ => rfl, List.any_eq_true]
    obtain ⟨i, hi⟩ := List.exists_mem_of_ne_nil _ h0
    obtain ⟨h1, h2⟩ := List.mem_filter.1 hi
    have h1 := List.mem_range.1 h1
    exact ⟨kids[i], List.getElem_mem h1, by simpa [List.getElem?_eq_getElem h1] using h2⟩

theorem primitive_at (cfg : UnionCfg) (kids : List P) (k : String) (ty : PTy) {c : P} (hc : kids.find? (K.lists k) = some c) :
    (((opened K cfg kids).app K (.str k)).primitive K ty).1 = (K.primitive ty (K.app c (.str k))).1 := by
  obtain ⟨st, h⟩ := uvalue_at (K := K) cfg kids k
  obtain ⟨hl, i, hi, rfl, hmin⟩ := List.find?_eq_some_iff_getElem.1 hc
  have hhead : (listers K kids k).head? = some i := by
    rw [listers_eq, List.head?_filter, List.find?_range_eq_some]
    refine ⟨by simpa [List.getElem?_eq_getElem hi] using hl, by simpa using hi, fun j hj => ?_⟩
    have hj' : j < kids.length := by omega
    simpa [List.getElem?_eq_getElem hj'] using hmin j hj
  cases hls : listers K kids k with
  | nil => rw [hls] at hhead; cases hhead
  | cons a cs =>
    rw [hls] at hhead h
    cases hhead
    unfold primitive
    rw [h]
    dsimp only
    have : (kids.map (K.app · (.str k)))[i]? = some (K.app kids[i] (.str k)) := by
      rw [List.getElem?_map, List.getElem?_eq_getElem hi]; rfl
    have e : onKid (kids.map (K.app · (.str k))) i (K.primitive ty) =
      ((K.primitive ty (K.app kids[i] (.str k))).1,
        (kids.map (K.app · (.str k))).set i (K.primitive ty (K.app kids[i] (.str k))).2) := by
      unfold onKid
      rw [this]
    rw [e]
    cases (K.primitive ty (K.app kids[i] (.str k))).1 <;> rfl

theorem primitive_none (cfg : UnionCfg) (kids : List P) (k : String) (ty : PTy) (hc : kids.any (K.lists k) = false) :
    (((opened K cfg kids).app K (.str k)).primitive K ty).1 = .ok .NONE := by
  obtain ⟨st, h⟩ := uvalue_at (K := K) cfg kids k
  have h0 : listers K kids k = [] := by
    rw [listers_eq, List.filter_eq_nil_iff]
    intro i hi
    have hi := List.mem_range.1 hi
    have := List.any_eq_false.1 hc _ (List.getElem_mem hi)
    simpa [List.getElem?_eq_getElem hi] using this
  rw [h0] at h
  unfold primitive
  rw [h]
  rfl

end UnionOf

/-! ## C103 -/

/-- The plain sources of unions of unions, in order. -/
inductive Leaves : Tree → List SPath → Prop
  | plain (s : SPath) : Leaves (.plain s) [s]
  | union {cfg : UnionCfg} {ts : List Tree} {lss : List (List SPath)} (h : List.Forall₂ Leaves ts lss) :
      Leaves (.union cfg ts) lss.flatten

/-- A plain source offers the key `k`: it exists, is not null, and its mapping has the key. -/
def SPath.offers (L : Lib) (k : String) (s : SPath) : Bool :=
  match (s.exists_ L).1, (s.isNull L).1, (s.mapping L).1 with
  | .ok true, .ok false, .ok kv => kv.ks.contains (.str k)
  | _, _, _ => false

theorem SPath.offers_eq (k : String) (s : SPath) : s.offers L k = (SPath.child L).lists k s := by
  simp only [offers, Child.lists, Child.present, child]
  cases (s.exists_ L).1 with
  | error e => rfl
  | ok b =>
    cases b with
    | false => rfl
    | true =>
      cases (s.isNull L).1 with
      | error e => rfl
      | ok b =>
        cases b with
        | true => rfl
        | false => cases (s.mapping L).1 <;> rfl

theorem SPath.still {s : SPath} (h : s.keys = []) : (SPath.child L).Still s := by
  cases s with
  | dflt cfg st =>
    obtain ⟨r, parts⟩ := st
    have : parts = [] := List.map_eq_nil_iff.1 h
    subst this
    exact ⟨rfl, rfl, rfl⟩
  | json a b st =>
    obtain ⟨r, parts⟩ := st
    have : parts = [] := List.map_eq_nil_iff.1 h
    subst this
    exact ⟨rfl, rfl, rfl⟩
  | config cfg st =>
    obtain ⟨r, parts⟩ := st
    have : parts = [] := List.map_eq_nil_iff.1 h
    subst this
    exact ⟨rfl, rfl, rfl⟩

theorem Child.Still.leaf {P : Type} {K : Child P} {p : P} (h : K.Still p) : (Over.child L K).Still (.leaf p) :=
  ⟨congrArg Over.leaf h.exists_, congrArg Over.leaf h.isNull, congrArg Over.leaf h.mapping⟩

theorem Opens.still : (n : Nat) → ∀ {t : Tree} {p : Nest n} {ls : List SPath}, Opens L n t p → Leaves t ls →
    (Nest.child L n).Still p
  | 0, t, p, ls, h, _ => SPath.still h.2
  | n + 1, t, .leaf p, ls, h, hl => Child.Still.leaf (Opens.still n (p := p) h hl)
  | n + 1, t, .union u, ls, h, hl => by
    obtain ⟨cfg, ts, kids, rfl, h2, h3⟩ := h
    cases hl with
    | union hl =>
      have hs : ∀ c ∈ kids, (Nest.child L n).Still c := by
        intro c hc
        obtain ⟨a, ha, hr⟩ := forall₂_right h2 c hc
        obtain ⟨l, -, hl⟩ := forall₂_left hl a ha
        exact Opens.still n hr hl
      rw [UnionOf.make_still hs h3]
      exact UnionOf.opened_still cfg kids
  | n + 1, t, .mount m, ls, h, hl => by
    obtain ⟨ts, paths, rfl, -⟩ := h
    cases hl

/-- An opened union of unions is made of its still children. -/
theorem Opens.union {n : Nat} {cfg : UnionCfg} {ts : List Tree} {kids : List (Nest n)} {u : UnionOf (Nest n)}
    {lss : List (List SPath)} (h2 : List.Forall₂ (Opens L n) ts kids)
    (h3 : UnionOf.make (Nest.child L n) cfg kids = .ok u) (hl : List.Forall₂ Leaves ts lss) :
    u = UnionOf.opened (Nest.child L n) cfg kids := by
  refine UnionOf.make_still (fun c hc => ?_) h3
  obtain ⟨a, ha, hr⟩ := forall₂_right h2 c hc
  obtain ⟨l, -, hl⟩ := forall₂_left hl a ha
  exact Opens.still n hr hl

theorem any_flatten {n : Nat} {k : String} {ts : List Tree} {kids : List (Nest n)} {lss : List (List SPath)}
    (ih : ∀ {t p ls}, Opens L n t p → Leaves t ls → (Nest.child L n).lists k p = ls.any (SPath.offers L k))
    (h2 : List.Forall₂ (Opens L n) ts kids) : List.Forall₂ Leaves ts lss →
    kids.any ((Nest.child L n).lists k) = lss.flatten.any (SPath.offers L k) := by
  induction h2 generalizing lss with
  | nil => intro hl; cases hl; rfl
  | cons h1 _ ih2 =>
    intro hl
    cases hl with
    | cons g1 g2 => rw [List.any_cons, List.flatten_cons, List.any_append, ih h1 g1, ih2 g2]

theorem Opens.lists : (n : Nat) → ∀ {t : Tree} {p : Nest n} {ls : List SPath} (k : String), Opens L n t p →
    Leaves t ls → (Nest.child L n).lists k p = ls.any (SPath.offers L k)
  | 0, t, p, ls, k, h, hl => by
    obtain ⟨rfl, -⟩ := h
    cases hl
    exact ((Bool.or_false _).trans (SPath.offers_eq k p)).symm
  | n + 1, t, .leaf p, ls, k, h, hl => Opens.lists n (p := p) k h hl
  | n + 1, t, .union u, ls, k, h, hl => by
    obtain ⟨cfg, ts, kids, rfl, h2, h3⟩ := h
    cases hl with
    | union hl =>
      rw [Opens.union h2 h3 hl]
      exact (UnionOf.lists_opened cfg kids k).trans (any_flatten (fun h hl => Opens.lists n k h hl) h2 hl)
  | n + 1, t, .mount m, ls, k, h, hl => by
    obtain ⟨ts, paths, rfl, -⟩ := h
    cases hl

theorem find_flatten {n : Nat} {k : String} {ts : List Tree} {kids : List (Nest n)} {lss : List (List SPath)} {s : SPath}
    (h2 : List.Forall₂ (Opens L n) ts kids) : List.Forall₂ Leaves ts lss →
    lss.flatten.find? (SPath.offers L k) = some s →
    ∃ t c ls, Opens L n t c ∧ Leaves t ls ∧ kids.find? ((Nest.child L n).lists k) = some c ∧
      ls.find? (SPath.offers L k) = some s := by
  induction h2 generalizing lss with
  | nil => intro hl hf; cases hl; cases hf
  | cons h1 _ ih2 =>
    intro hl hf
    cases hl with
    | cons g1 g2 =>
      rename_i t c ts kids _ ls lss
      rw [List.flatten_cons, List.find?_append] at hf
      have hb := Opens.lists n k h1 g1
      cases hfl : ls.find? (SPath.offers L k) with
      | some s' =>
        rw [hfl] at hf
        refine ⟨t, c, ls, h1, g1, ?_, hfl.trans hf⟩
        rw [List.find?_cons, hb, show ls.any (SPath.offers L k) = true from
          List.any_eq_true.2 ⟨s', List.mem_of_find?_eq_some hfl, List.find?_some hfl⟩]
      | none =>
        rw [hfl] at hf
        obtain ⟨t', c', ls', a1, a2, a3, a4⟩ := ih2 g2 hf
        refine ⟨t', c', ls', a1, a2, ?_, a4⟩
        rw [List.find?_cons, hb, show ls.any (SPath.offers L k) = false from
          List.any_eq_false.2 (List.find?_eq_none.1 hfl)]
        exact a3

theorem Opens.primitive : (n : Nat) → ∀ {t : Tree} {p : Nest n} {ls : List SPath} (k : String) (ty : PTy) {s : SPath},
    Opens L n t p → Leaves t ls → ls.find? (SPath.offers L k) = some s →
    ((Nest.child L n).primitive ty ((Nest.child L n).app p (.str k))).1 = ((s.append (.str k)).primitive L ty).1
  | 0, t, p, ls, k, ty, s, h, hl, hf => by
    obtain ⟨rfl, -⟩ := h
    cases hl
    obtain rfl := List.mem_singleton.1 (List.mem_of_find?_eq_some hf)
    rfl
  | n + 1, t, .leaf p, ls, k, ty, s, h, hl, hf => Opens.primitive n (p := p) k ty h hl hf
  | n + 1, t, .union u, ls, k, ty, s, h, hl, hf => by
    obtain ⟨cfg, ts, kids, rfl, h2, h3⟩ := h
    cases hl with
    | union hl =>
      rw [Opens.union h2 h3 hl]
      obtain ⟨t', c, ls', a1, a2, a3, a4⟩ := find_flatten h2 hl hf
      exact (UnionOf.primitive_at cfg kids k ty a3).trans (Opens.primitive n k ty a1 a2 a4)
  | n + 1, t, .mount m, ls, k, ty, s, h, hl, hf => by
    obtain ⟨ts, paths, rfl, -⟩ := h
    cases hl

theorem Opens.exists_at : (n : Nat) → ∀ {cfg : UnionCfg} {ts : List Tree} {p : Nest n} {ls : List SPath} (k : String),
    Opens L n (.union cfg ts) p → Leaves (.union cfg ts) ls →
    ((Nest.child L n).exists_ ((Nest.child L n).app p (.str k))).1 = .ok (ls.any (SPath.offers L k)) ∧
    (ls.any (SPath.offers L k) = false → ∀ ty,
      ((Nest.child L n).primitive ty ((Nest.child L n).app p (.str k))).1 = .ok .NONE)
  | 0, cfg, ts, p, ls, k, h, hl => by cases h.1
  | n + 1, cfg, ts, .leaf p, ls, k, h, hl => Opens.exists_at n (p := p) k h hl
  | n + 1, cfg, ts, .union u, ls, k, h, hl => by
    obtain ⟨cfg', ts', kids, e, h2, h3⟩ := h
    cases e
    cases hl with
    | union hl =>
      rw [Opens.union h2 h3 hl]
      have e := any_flatten (k := k) (fun h hl => Opens.lists n k h hl) h2 hl
      rw [← e]
      exact ⟨UnionOf.exists_at cfg kids k, fun h0 ty => UnionOf.primitive_none cfg kids k ty h0⟩
  | n + 1, cfg, ts, .mount m, ls, k, h, hl => by
    obtain ⟨ts, paths, e, -⟩ := h
    cases e

/-- C103. At a key of its root, a union of unions exists exactly when one of its plain sources offers that key; it is
read as a primitive from the first plain source, in order of mention, that offers it, as if that source were alone;
and a key that none offers reads as nothing. -/
theorem C103_partial {n : Nat} {cfg : UnionCfg} {ts : List Tree} {p q : Nest n} {ls : List SPath} {k : String}
    (ho : Opens L n (.union cfg ts) p) (hl : Leaves (.union cfg ts) ls) (hq : (Nest.ops L n).append p (.str k) = .ok q) :
    ((Nest.ops L n).exists_ q).1 = .ok (ls.any (SPath.offers L k)) ∧
    (∀ ty, ((Nest.ops L n).primitive ty q).1 =
      match ls.find? (SPath.offers L k) with
      | some s => ((s.append (.str k)).primitive L ty).1
      | none => .ok .NONE) := by
  have : q = (Nest.child L n).app p (.str k) := by cases hq; rfl
  subst this
  refine ⟨(Opens.exists_at n k ho hl).1, fun ty => ?_⟩
  cases hf : ls.find? (SPath.offers L k) with
  | some s => exact Opens.primitive n k ty ho hl hf
  | none => exact (Opens.exists_at n k ho hl).2 (List.any_eq_false.2 (List.find?_eq_none.1 hf)) ty

/-- C103: it reads as the one union of all the plain sources. -/
theorem C103_flat {n m : Nat} {cfg cfg' : UnionCfg} {ts : List Tree} {p q : Nest n} {p' q' : Nest m} {ls : List SPath}
    {k : String} (ho : Opens L n (.union cfg ts) p) (hl : Leaves (.union cfg ts) ls)
    (ho' : Opens L m (.union cfg' (ls.map .plain)) p')
    (hq : (Nest.ops L n).append p (.str k) = .ok q) (hq' : (Nest.ops L m).append p' (.str k) = .ok q') :
    ((Nest.ops L n).exists_ q).1 = ((Nest.ops L m).exists_ q').1 ∧
    ∀ ty, ((Nest.ops L n).primitive ty q).1 = ((Nest.ops L m).primitive ty q').1 := by
  have hl' : Leaves (.union cfg' (ls.map .plain)) ls := by
    have h1 : List.Forall₂ Leaves (ls.map Tree.plain) (ls.map fun s => [s]) := by
      clear ho hl ho'
      induction ls with
      | nil => exact .nil
      | cons s ls ih => exact .cons (.plain s) ih
    have h2 := Leaves.union (cfg := cfg') h1
    have e : (ls.map fun s => [s]).flatten = ls := by
      clear ho hl ho' h1 h2
      induction ls with
      | nil => rfl
      | cons s ls ih => simp_all
    rwa [e] at h2
  obtain ⟨h1, h2⟩ := C103_partial ho hl hq
  obtain ⟨g1, g2⟩ := C103_partial ho' hl' hq'
  exact ⟨h1.trans g1.symm, fun ty => (h2 ty).trans (g2 ty).symm⟩

namespace Demo

/-- A document with one entry. -/
def one (k : String) (v : Val) : SPath := SPath.native (.dict [(.str k, v)]) none

/-- Sequences are combined. -/
def seqCfg : UnionCfg := { sequenceMerge := .combine }

/-- `UnionSource([{y: 1}, UnionSource([{x: 2}, {x: 3}])])` -/
def uu : Tree := .union {} [.plain (one "y" (.int 1)), .union {} [.plain (one "x" (.int 2)), .plain (one "x" (.int 3))]]

/-- The path of the inner union. -/
def uuInner : Nest 1 := .union (UnionOf.opened (Nest.child lib 0) {} [one "x" (.int 2), one "x" (.int 3)])

/-- The path of the outer union. -/
def uuPath : Nest 2 := .union (UnionOf.opened (Nest.child lib 1) {} [.leaf (one "y" (.int 1)), uuInner])

theorem uu_inner : Opens lib 1 (.union {} [.plain (one "x" (.int 2)), .plain (one "x" (.int 3))]) uuInner :=
  ⟨_, _, [one "x" (.int 2), one "x" (.int 3)], rfl, .cons ⟨rfl, rfl⟩ (.cons ⟨rfl, rfl⟩ .nil), rfl⟩

theorem uu_opens : Opens lib 2 uu uuPath :=
  ⟨_, _, [.leaf (one "y" (.int 1)), uuInner], rfl,
    .cons (show Opens lib 0 _ _ from ⟨rfl, rfl⟩) (.cons uu_inner .nil), rfl⟩

theorem uu_leaves : Leaves uu [one "y" (.int 1), one "x" (.int 2), one "x" (.int 3)] :=
  .union (.cons (.plain _) (.cons (.union (.cons (.plain _) (.cons (.plain _) .nil))) .nil))

/-- `x` is offered by the second and the third; the second is read. -/
example {q : Nest 2} (hq : (Nest.ops lib 2).append uuPath (.str "x") = .ok q) :
    ((Nest.ops lib 2).exists_ q).1 = .ok true ∧ ((Nest.ops lib 2).primitive .int q).1 = .ok (.int 2) := by
  obtain ⟨h1, h2⟩ := C103_partial uu_opens uu_leaves hq
  exact ⟨h1, (h2 .int).trans rfl⟩

/-- `[50]` and, in an inner union, `[10, 20]` and `[30, 40]`, all combined. -/
def ss : Tree := .union seqCfg [.plain (one "x" (.list [.int 50])),
  .union seqCfg [.plain (one "x" (.list [.int 10, .int 20])), .plain (one "x" (.list [.int 30, .int 40]))]]

def ssInner : Nest 1 := .union (UnionOf.opened (Nest.child lib 0) seqCfg
  [one "x" (.list [.int 10, .int 20]), one "x" (.list [.int 30, .int 40])])

def ssPath : Nest 2 := .union (UnionOf.opened (Nest.child lib 1) seqCfg [.leaf (one "x" (.list [.int 50])), ssInner])

theorem ss_inner : Opens lib 1 (.union seqCfg [.plain (one "x" (.list [.int 10, .int 20])), .plain (one "x" (.list [.int 30, .int 40]))]) ssInner :=
  ⟨_, _, [one "x" (.list [.int 10, .int 20]), one "x" (.list [.int 30, .int 40])], rfl, .cons ⟨rfl, rfl⟩ (.cons ⟨rfl, rfl⟩ .nil), rfl⟩

theorem ss_opens : Opens lib 2 ss ssPath :=
  ⟨_, _, [.leaf (one "x" (.list [.int 50])), ssInner], rfl,
    .cons (show Opens lib 0 _ _ from ⟨rfl, rfl⟩) (.cons ss_inner .nil), rfl⟩

/-- The same three, in one union. -/
def flatPath : Nest 1 := .union (UnionOf.opened (Nest.child lib 0) seqCfg
  [one "x" (.list [.int 50]), one "x" (.list [.int 10, .int 20]), one "x" (.list [.int 30, .int 40])])

theorem flat_opens : Opens lib 1 (.union seqCfg [.plain (one "x" (.list [.int 50])),
    .plain (one "x" (.list [.int 10, .int 20])), .plain (one "x" (.list [.int 30, .int 40]))]) flatPath :=
  ⟨_, _, _, rfl, .cons ⟨rfl, rfl⟩ (.cons ⟨rfl, rfl⟩ (.cons ⟨rfl, rfl⟩ .nil)), rfl⟩

/-- Walk to `x[i]` as a list field does. -/
def toX (i : Int) : List PathOp := [.append (.str "x"), .sequence, .append (.int i)]

/-- C103 fails below the root: combined sequences of an inner union are read at wrong positions.  The first item of the
inner union is the second of the whole; reading it gives the inner union's second item, where one union of the three
sources gives the first. -/
theorem C103_counterexample :
    ((Nest.ops lib 2).primitive .int ((toX 1).foldl (Nest.child lib 2).act ssPath)).1 = .ok (.int 20) ∧
    ((Nest.ops lib 1).primitive .int ((toX 1).foldl (Nest.child lib 1).act flatPath)).1 = .ok (.int 10) := ⟨rfl, rfl⟩

end Demo

end Pilo
