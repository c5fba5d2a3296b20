import Verif.FollowField
import Verif.Props.Resolve

/-!
# Unions of JSON documents and the merged document

What a union of strict JSON documents offers is what one document, the merged one, offers.  `Together` says what that
document is; `Mg.pace` shows that the paths of both are read alike, step by step.
-/

namespace Pilo

/-! ## The merged document -/

/-- A string, a number or a truth value. -/
def Val.isLeaf : Val → Bool
  | .str _ => true
  | .int _ => true
  | .float _ => true
  | .bool _ => true
  | _ => false

/-- The keys of a document that is a mapping. -/
def Val.dictKeys : Val → List Val
  | .dict kvs => kvs.map Prod.fst
  | _ => []

/-- The length of a document that is a list. -/
def Val.listLen : Val → Nat
  | .list xs => xs.length
  | _ => 0

/-- Which of several mappings or lists at the same place count: all with `'combine'`, the last one with `'last'`, the first
one with `'first'`. -/
def keptOf {α : Type} (m : Merge) (ds : List α) : List α :=
  match m with
  | .combine => ds
  | .last => ds.drop (ds.length - 1)
  | _ => ds.take 1

/-- What several documents, the first one first, are together.  Of strings, numbers and truth values it is the first one,
of lists those that count after each other, of mappings one with the keys of those that count in order of mention, each with
what those of them that have the key are together. -/
inductive Together (m sm : Merge) : Val → List Val → Prop
  | leaf {v : Val} {ds : List Val} (h : v.isLeaf = true) : Together m sm v (v :: ds)
  | list {ll : List (List Val)} (hne : ll ≠ []) (hx : ∀ x ∈ (keptOf sm ll).flatten, Together m sm x [x]) :
    Together m sm (.list (keptOf sm ll).flatten) (ll.map Val.list)
  | dict {kvs : List (Val × Val)} {dd : List (List (Val × Val))} (hne : dd ≠ [])
    (hk : kvs.map Prod.fst = UPath.dedup ((keptOf m dd).flatMap fun d => d.map Prod.fst))
    (hs : ∀ d ∈ keptOf m dd, ∀ kv ∈ d, ∃ s, kv.1 = Val.str s ∧ hasDot s = false)
    (hv : ∀ k v, dictGet? kvs k = some v → Together m sm v ((keptOf m dd).filterMap fun d => dictGet? d k)) :
    Together m sm (.dict kvs) (dd.map Val.dict)

/-- The mapping that has the keys of all these mappings, each with what those that have the key are together. -/
structure TogetherDict (m sm : Merge) (kvs : List (Val × Val)) (kk : List (List (Val × Val))) : Prop where
  keys : kvs.map Prod.fst = UPath.dedup (kk.flatMap fun d => d.map Prod.fst)
  names : ∀ d ∈ kk, ∀ kv ∈ d, ∃ s, kv.1 = Val.str s ∧ hasDot s = false
  vals : ∀ k v, dictGet? kvs k = some v → Together m sm v (kk.filterMap fun d => dictGet? d k)

theorem Together.plain {m sm : Merge} {v : Val} {ds : List Val} (h : Together m sm v ds) :
    v.isNONE = false ∧ v.isNull = false ∧ v.plainData = true ∧ ds ≠ [] := by
  cases h with
  | leaf h => cases v <;> first | (cases h; done) | exact ⟨rfl, rfl, rfl, by simp⟩
  | list hne _ => exact ⟨rfl, rfl, rfl, by simpa using hne⟩
  | dict hne _ _ _ => exact ⟨rfl, rfl, rfl, by simpa using hne⟩

namespace Mg

/-! ## Walking down a document -/

/-- The value below the keys. -/
def walk (doc : Val) (ks : List Val) : Val := ks.foldl resolveJson doc

theorem walk_snoc (doc : Val) (ks : List Val) (k : Val) : walk doc (ks ++ [k]) = resolveJson (walk doc ks) k := by
  unfold walk; rw [List.foldl_append]; rfl

theorem follow_walk (doc : Val) (ks : List Val) : PathSt.follow jsonStep doc ks = .ok (walk doc ks) := by
  induction ks generalizing doc with
  | nil => rfl
  | cons k ks ih => exact ih _

/-- Only integers and strings. -/
def KeysOK (ks : List Val) : Prop := ks.all (fun k => k.isIntLike || k.isStr) = true

theorem spec_walk {doc : Val} {ks : List Val} (h : KeysOK ks) : PathSt.spec jsonStep doc ks = .ok (walk doc ks) := by
  unfold PathSt.spec KeysOK at *
  rw [if_pos h, follow_walk]

theorem read_json {L : Lib} {α : Type} {loc : Option String} {doc : Val} {ks : List Val} {p : SPath} (hk : KeysOK ks)
    (h : FineJson true loc doc ks p) (onD : DefaultCfg → List Val → Val → Except Exc α) (onJ : Bool → Val → Except Exc α)
    (onC : ConfigCfg → List Val → CfgVal → Except Exc α) :
    (p.withValue L onD onJ onC).1 = onJ true (walk doc ks) ∧ FineJson true loc doc ks (p.withValue L onD onJ onC).2 := by
  have := h.withValue (L := L) onD onJ onC
  rw [spec_walk hk] at this
  exact this

/-! ## The children of a union -/

section
variable {L : Lib} (D : Val) (docs : List Val) (m sm : Merge)

/-- Each child is a strict path of its document, with these keys, which differ where lists were put after each other. -/
structure Kids (κ : Nat → List Val) (kids : List SPath) : Prop where
  length : kids.length = docs.length
  fine : ∀ i p, kids[i]? = some p → ∃ loc, FineJson true loc (docs.getD i .NONE) (κ i) p

variable {D docs m sm}

theorem Kids.get {κ : Nat → List Val} {kids : List SPath} (h : Kids docs κ kids) {i : Nat} (hi : i < docs.length) :
    ∃ p loc, kids[i]? = some p ∧ FineJson true loc (docs.getD i .NONE) (κ i) p := by
  have hl : i < kids.length := by rw [h.length]; exact hi
  have e : kids[i]? = some kids[i] := List.getElem?_eq_getElem hl
  obtain ⟨loc, h2⟩ := h.fine i _ e
  exact ⟨_, loc, e, h2⟩

theorem Kids.set {κ : Nat → List Val} {kids : List SPath} (h : Kids docs κ kids) {i : Nat} {p : SPath} {loc : Option String}
    (hp : FineJson true loc (docs.getD i .NONE) (κ i) p) : Kids docs κ (kids.set i p) where
  length := by rw [List.length_set]; exact h.length
  fine := by
    intro j q hq
    rw [List.getElem?_set] at hq
    split at hq
    · rename_i hij
      subst hij
      split at hq
      · cases hq; exact ⟨_, hp⟩
      · cases hq
    · exact h.fine j q hq

theorem Kids.read {α : Type} {κ : Nat → List Val} {kids : List SPath} (h : Kids docs κ kids) {i : Nat} (hk : KeysOK (κ i))
    (hi : i < docs.length) (onD : DefaultCfg → List Val → Val → Except Exc α) (onJ : Bool → Val → Except Exc α)
    (onC : ConfigCfg → List Val → CfgVal → Except Exc α) :
    ∃ kids', onChild kids i (fun p => p.withValue L onD onJ onC) = (onJ true (walk (docs.getD i .NONE) (κ i)), kids') ∧
      Kids docs κ kids' := by
  obtain ⟨p, loc, h1, h2⟩ := h.get hi
  obtain ⟨h3, h4⟩ := read_json (L := L) hk h2 onD onJ onC
  unfold onChild
  rw [h1]
  exact ⟨_, Prod.ext h3 rfl, h.set h4⟩

/-- The keys after one more. -/
def ext (κ : Nat → List Val) (k : Val) : Nat → List Val := fun i => κ i ++ [k]

/-- The keys without the last one. -/
def down (κ : Nat → List Val) : Nat → List Val := fun i => (κ i).dropLast

theorem down_ext (κ : Nat → List Val) (k : Val) : down (ext κ k) = κ := by
  funext i; unfold down ext; rw [List.dropLast_concat]

theorem appended {loc : Option String} {doc : Val} {ks : List Val} {p : SPath} (h : FineJson true loc doc ks p) (k : Val) :
    FineJson true loc doc (ks ++ [k]) (p.append k) := by
  obtain ⟨st, rfl, hst⟩ := h
  exact ⟨_, rfl, hst.append trivial⟩

theorem Kids.append {κ : Nat → List Val} {kids : List SPath} (h : Kids docs κ kids) (k : Val) :
    Kids docs (ext κ k) (kids.map (·.append k)) where
  length := by rw [List.length_map]; exact h.length
  fine := by
    intro i p hp
    rw [List.getElem?_map] at hp
    cases hi : kids[i]? with
    | none => rw [hi] at hp; cases hp
    | some q =>
      rw [hi] at hp
      cases hp
      obtain ⟨loc, h1⟩ := h.fine i q hi
      exact ⟨loc, appended h1 k⟩

theorem popJson {loc : Option String} {doc : Val} {ks : List Val} {k : Val} {p : SPath}
    (h : FineJson true loc doc (ks ++ [k]) p) : ∃ q, p.pop = .ok q ∧ FineJson true loc doc ks q := by
  obtain ⟨st, rfl, hst⟩ := h
  cases hp : st.pop with
  | ok st' =>
    refine ⟨_, by simp only [SPath.pop, hp], st', rfl, ?_⟩
    have := hst.pop hp
    rwa [List.dropLast_concat] at this
  | error e =>
    have := (hst.pop_error hp).keys
    rw [hst.keys] at this
    simp at this

theorem popKids : ∀ {kids : List SPath}, (∀ p ∈ kids, ∃ q : SPath, p.pop = .ok q) →
    ∃ kids', UPath.popAll kids = .ok kids' ∧ kids'.length = kids.length ∧
      ∀ (i : Nat) (q : SPath), kids'[i]? = some q → ∃ p : SPath, kids[i]? = some p ∧ p.pop = .ok q
  | [], _ => ⟨[], rfl, rfl, fun i q h => by simp at h⟩
  | p :: kids, h => by
    obtain ⟨q, hq⟩ := h p (by simp)
    obtain ⟨kids', h1, h2, h3⟩ := popKids (kids := kids) fun p hp => h p (by simp [hp])
    refine ⟨q :: kids', by simp only [UPath.popAll, hq, h1], by simp [h2], fun i r hr => ?_⟩
    cases i with
    | zero => simp at hr; subst hr; exact ⟨p, rfl, hq⟩
    | succ i => exact h3 i r (by simpa using hr)

theorem Kids.pop {κ : Nat → List Val} {n : Nat} (hn : ∀ i, (κ i).length = n + 1) {kids : List SPath}
    (h : Kids docs κ kids) : ∃ kids', UPath.popAll kids = .ok kids' ∧ Kids docs (down κ) kids' := by
  have hsplit : ∀ i, ∃ k, κ i = down κ i ++ [k] := by
    intro i
    have hne : κ i ≠ [] := by intro e; have := hn i; rw [e] at this; simp at this
    exact ⟨(κ i).getLast hne, (List.dropLast_concat_getLast hne).symm⟩
  obtain ⟨kids', h1, h2, h3⟩ := popKids (kids := kids) fun p hp => by
    obtain ⟨i, hi⟩ := List.getElem?_of_mem hp
    obtain ⟨loc, hf⟩ := h.fine i p hi
    obtain ⟨k, hk⟩ := hsplit i
    rw [hk] at hf
    obtain ⟨q, hq, -⟩ := popJson hf
    exact ⟨q, hq⟩
  refine ⟨kids', h1, h2.trans h.length, fun i q hq => ?_⟩
  obtain ⟨p, hp, hpq⟩ := h3 i q hq
  obtain ⟨loc, hf⟩ := h.fine i p hp
  obtain ⟨k, hk⟩ := hsplit i
  rw [hk] at hf
  obtain ⟨q', hq', hf'⟩ := popJson hf
  rw [hpq] at hq'
  cases hq'
  exact ⟨loc, hf'⟩

/-! ## Containers -/

/-- The documents at a place. -/
def at_ (docs : List Val) (κ : Nat → List Val) (i : Nat) : Val := walk (docs.getD i .NONE) (κ i)

theorem Kids.exists_ {κ : Nat → List Val} {kids : List SPath} (h : Kids docs κ kids) {i : Nat} (hk : KeysOK (κ i))
    (hi : i < docs.length) : ∃ kids', onChild kids i (SPath.exists_ L) = (.ok (!(at_ docs κ i).isNONE), kids') ∧
      Kids docs κ kids' :=
  h.read (L := L) hk hi (fun _ _ v => .ok (!v.isNONE)) (fun _ v => .ok (!v.isNONE)) (fun _ _ v => .ok (!v.isNONE))

theorem Kids.isNull {κ : Nat → List Val} {kids : List SPath} (h : Kids docs κ kids) {i : Nat} (hk : KeysOK (κ i))
    (hi : i < docs.length) : ∃ kids', onChild kids i (SPath.isNull L) = (.ok (at_ docs κ i).isNull, kids') ∧
      Kids docs κ kids' :=
  h.read (L := L) hk hi (fun _ _ v => .ok v.isNull) (fun _ v => .ok v.isNull) (fun _ _ v => .ok v.toVal.isNull)

theorem Kids.mapping {κ : Nat → List Val} {kids : List SPath} (h : Kids docs κ kids) {i : Nat} (hk : KeysOK (κ i))
    (hi : i < docs.length) : ∃ kids', onChild kids i (SPath.mapping L) = (jsonMapping (at_ docs κ i), kids') ∧
      Kids docs κ kids' :=
  h.read (L := L) hk hi (fun cfg ks v => defaultMapping cfg ks v) (fun _ v => jsonMapping v) (fun cfg _ v => cfgMapping L cfg v)

theorem Kids.sequence {κ : Nat → List Val} {kids : List SPath} (h : Kids docs κ kids) {i : Nat} (hk : KeysOK (κ i))
    (hi : i < docs.length) : ∃ kids', onChild kids i (SPath.sequence L) = (jsonSequence (at_ docs κ i), kids') ∧
      Kids docs κ kids' :=
  h.read (L := L) hk hi (fun _ _ v => defaultSequence v) (fun _ v => jsonSequence v) (fun _ _ v => cfgSequence L v)

theorem keptOf_one {α : Type} {mode : Merge} {l : List α} (h : mode ≠ .combine) (hne : l ≠ []) (hl : keptOf mode l = l) :
    ∃ a, l = [a] := by
  have hlen : l.length = 1 := by
    rw [← hl]
    have : l.length ≠ 0 := by simpa using hne
    cases mode with
    | combine => exact absurd rfl h
    | last => simp only [keptOf, List.length_drop]; omega
    | first => simp only [keptOf, List.length_take]; omega
    | bad => simp only [keptOf, List.length_take]; omega
  exact List.length_eq_one_iff.1 hlen

theorem mappingLoop_rest {κ : Nat → List Val} (hk : ∀ i, KeysOK (κ i)) {mode : Merge} (hm : mode = .combine ∨ mode = .last) :
    ∀ (cs : List Nat) (acc : List (Nat × List Val)) {kids : List SPath}, keptOf mode acc = acc →
    Kids docs κ kids → (∀ i ∈ cs, i < docs.length ∧ ∃ d, at_ docs κ i = .dict d) →
    ∃ kids', mappingLoop L mode cs acc kids =
      (.ok (keptOf mode (acc ++ cs.map fun i => (i, (at_ docs κ i).dictKeys))), kids') ∧ Kids docs κ kids'
  | [], acc, kids, ha, h, _ => ⟨kids, by simp [mappingLoop, ha], h⟩
  | i :: cs, acc, kids, ha, h, hd => by
    obtain ⟨hi, d, he⟩ := hd i (by simp)
    obtain ⟨k1, e1, h1⟩ := h.exists_ (L := L) (hk i) hi
    obtain ⟨k2, e2, h2⟩ := h1.isNull (L := L) (hk i) hi
    obtain ⟨k3, e3, h3⟩ := h2.mapping (L := L) (hk i) hi
    rw [he] at e1 e2 e3
    have e1 : onChild kids i (SPath.exists_ L) = (.ok true, k1) := e1
    have e2 : onChild k1 i (SPath.isNull L) = (.ok false, k2) := e2
    have e3 : onChild k2 i (SPath.mapping L) = (.ok { ks := d.map Prod.fst }, k3) := e3
    have hrest : ∀ acc', keptOf mode acc' = acc' → keptOf mode (acc' ++ cs.map fun i => (i, (at_ docs κ i).dictKeys)) =
        keptOf mode (acc ++ (i :: cs).map fun i => (i, (at_ docs κ i).dictKeys)) →
        ∃ kids', mappingLoop L mode cs acc' k3 =
          (.ok (keptOf mode (acc ++ (i :: cs).map fun i => (i, (at_ docs κ i).dictKeys))), kids') ∧ Kids docs κ kids' := by
      intro acc' ha' heq
      obtain ⟨k4, e4, h4⟩ := mappingLoop_rest hk hm cs acc' ha' h3 fun j hj => hd j (by simp [hj])
      exact ⟨k4, by rw [e4, heq], h4⟩
    have hi' : (at_ docs κ i).dictKeys = d.map Prod.fst := by rw [he]; rfl
    unfold mappingLoop
    rw [e1]
    dsimp only
    rw [e2]
    dsimp only
    rw [e3]
    rcases hm with rfl | rfl
    · simp only [reduceCtorEq, if_false, if_true, ite_self, Bool.false_eq_true]
      exact hrest _ rfl (by simp [keptOf, hi'])
    · simp only [reduceCtorEq, if_false, if_true, Bool.false_eq_true]
      cases acc with
      | nil => exact hrest _ rfl (by simp [hi'])
      | cons a as =>
        obtain ⟨b, hb⟩ := keptOf_one (by decide) (by simp) ha
        cases hb
        rw [if_neg (by simp)]
        refine hrest _ rfl ?_
        simp [keptOf, hi']

theorem mappingLoop_first {κ : Nat → List Val} (hk : ∀ i, KeysOK (κ i)) {i : Nat} (cs : List Nat) {kids : List SPath}
    (h : Kids docs κ kids) (hi : i < docs.length) {d : List (Val × Val)} (he : at_ docs κ i = .dict d) :
    ∃ kids', mappingLoop L .first (i :: cs) [] kids = (.ok [(i, d.map Prod.fst)], kids') ∧ Kids docs κ kids' := by
  obtain ⟨k1, e1, h1⟩ := h.exists_ (L := L) (hk i) hi
  obtain ⟨k2, e2, h2⟩ := h1.isNull (L := L) (hk i) hi
  obtain ⟨k3, e3, h3⟩ := h2.mapping (L := L) (hk i) hi
  rw [he] at e1 e2 e3
  have e1 : onChild kids i (SPath.exists_ L) = (.ok true, k1) := e1
  have e2 : onChild k1 i (SPath.isNull L) = (.ok false, k2) := e2
  have e3 : onChild k2 i (SPath.mapping L) = (.ok { ks := d.map Prod.fst }, k3) := e3
  refine ⟨k3, ?_, h3⟩
  unfold mappingLoop
  rw [e1]
  dsimp only
  rw [e2]
  dsimp only
  rw [e3]
  simp

theorem mappingLoop_all {κ : Nat → List Val} (hk : ∀ i, KeysOK (κ i)) {mode : Merge} (hm : mode ≠ .bad) {cs : List Nat}
    (hne : cs ≠ []) {kids : List SPath} (h : Kids docs κ kids)
    (hd : ∀ i ∈ cs, i < docs.length ∧ ∃ d, at_ docs κ i = .dict d) :
    ∃ kids', mappingLoop L mode cs [] kids =
      (.ok ((keptOf mode cs).map fun i => (i, (at_ docs κ i).dictKeys)), kids') ∧ Kids docs κ kids' := by
  have hmap : ∀ {mode : Merge} (f : Nat → Nat × List Val), keptOf mode (cs.map f) = (keptOf mode cs).map f := by
    intro mode f
    cases mode <;> simp [keptOf, List.map_take, List.map_drop]
  cases mode with
  | bad => exact absurd rfl hm
  | combine => rw [← hmap]; exact mappingLoop_rest hk (.inl rfl) cs [] rfl h hd
  | last => rw [← hmap]; exact mappingLoop_rest hk (.inr rfl) cs [] rfl h hd
  | first =>
    cases cs with
    | nil => exact absurd rfl hne
    | cons i cs =>
      obtain ⟨hi, d, he⟩ := hd i (by simp)
      obtain ⟨kids', h1, h2⟩ := mappingLoop_first (L := L) hk cs h hi he
      refine ⟨kids', ?_, h2⟩
      rw [h1]
      simp [keptOf, he, Val.dictKeys]

theorem sequenceLoop_rest {κ : Nat → List Val} (hk : ∀ i, KeysOK (κ i)) {cfg : UnionCfg} (hd0 : cfg.mergeDepth = none)
    (hm : cfg.sequenceMerge ≠ .bad) : ∀ (cs : List Nat) (mo : Option Merge) (acc : List (Nat × Nat)) {kids : List SPath},
    (mo = none ∨ mo = some cfg.sequenceMerge) → keptOf cfg.sequenceMerge acc = acc →
    Kids docs κ kids → (∀ i ∈ cs, i < docs.length ∧ ∃ d, at_ docs κ i = .list d) →
    ∃ kids', sequenceLoop L cfg cs mo acc kids =
      (.ok (keptOf cfg.sequenceMerge (acc ++ cs.map fun i => (i, (at_ docs κ i).listLen))), kids') ∧ Kids docs κ kids'
  | [], mo, acc, kids, _, ha, h, _ => ⟨kids, by simp [sequenceLoop, ha], h⟩
  | i :: cs, mo, acc, kids, hmo, ha, h, hd => by
    obtain ⟨hi, d, he⟩ := hd i (by simp)
    obtain ⟨k1, e1, h1⟩ := h.exists_ (L := L) (hk i) hi
    obtain ⟨k2, e2, h2⟩ := h1.isNull (L := L) (hk i) hi
    obtain ⟨k3, e3, h3⟩ := h2.sequence (L := L) (hk i) hi
    rw [he] at e1 e2 e3
    have e1 : onChild kids i (SPath.exists_ L) = (.ok true, k1) := e1
    have e2 : onChild k1 i (SPath.isNull L) = (.ok false, k2) := e2
    have e3 : onChild k2 i (SPath.sequence L) = (.ok d.length, k3) := e3
    have hrest : ∀ mo' acc', (mo' = none ∨ mo' = some cfg.sequenceMerge) → keptOf cfg.sequenceMerge acc' = acc' →
        keptOf cfg.sequenceMerge (acc' ++ cs.map fun i => (i, (at_ docs κ i).listLen)) =
          keptOf cfg.sequenceMerge (acc ++ (i :: cs).map fun i => (i, (at_ docs κ i).listLen)) →
        ∃ kids', sequenceLoop L cfg cs mo' acc' k3 =
          (.ok (keptOf cfg.sequenceMerge (acc ++ (i :: cs).map fun i => (i, (at_ docs κ i).listLen))), kids') ∧
            Kids docs κ kids' := by
      intro mo' acc' hmo' ha' heq
      obtain ⟨k4, e4, h4⟩ := sequenceLoop_rest hk hd0 hm cs mo' acc' hmo' ha' h3 fun j hj => hd j (by simp [hj])
      exact ⟨k4, by rw [e4, heq], h4⟩
    have hi' : (at_ docs κ i).listLen = d.length := by rw [he]; rfl
    have hmode : ∀ n, mo.getD (sequenceMode cfg n) = cfg.sequenceMerge := by
      intro n
      have : sequenceMode cfg n = cfg.sequenceMerge := by unfold sequenceMode; rw [hd0]
      rcases hmo with rfl | rfl
      · exact this
      · rfl
    unfold sequenceLoop
    rw [e1]
    dsimp only
    rw [e2]
    dsimp only
    rw [e3]
    cases acc with
    | nil =>
      refine hrest mo [(i, d.length)] hmo ?_ (by simp [hi'])
      cases cfg.sequenceMerge <;> rfl
    | cons a as =>
      dsimp only
      rw [hmode]
      generalize cfg.sequenceMerge = sm at hrest hm ha
      cases sm with
      | bad => exact absurd rfl hm
      | combine => exact hrest _ _ (.inr rfl) rfl (by simp [keptOf, hi'])
      | first =>
        obtain ⟨b, hb⟩ := keptOf_one (by decide) (by simp) ha
        cases hb
        exact hrest _ _ (.inr rfl) rfl (by simp [keptOf])
      | last =>
        obtain ⟨b, hb⟩ := keptOf_one (by decide) (by simp) ha
        cases hb
        exact hrest _ _ (.inr rfl) rfl (by simp [keptOf, hi'])

/-- What is no list cannot be read as one, and only caches change. -/
theorem sequenceLoop_no {κ : Nat → List Val} (hk : ∀ i, KeysOK (κ i)) {cfg : UnionCfg} {i : Nat} (cs : List Nat) {kids : List SPath}
    (h : Kids docs κ kids) (hi : i < docs.length) (hn : (at_ docs κ i).isNONE = false)
    (hn' : (at_ docs κ i).isNull = false) {e : Exc} (he : jsonSequence (at_ docs κ i) = .error e) :
    ∃ kids', sequenceLoop L cfg (i :: cs) none [] kids = (.error e, kids') ∧ Kids docs κ kids' := by
  obtain ⟨k1, e1, h1⟩ := h.exists_ (L := L) (hk i) hi
  obtain ⟨k2, e2, h2⟩ := h1.isNull (L := L) (hk i) hi
  obtain ⟨k3, e3, h3⟩ := h2.sequence (L := L) (hk i) hi
  rw [hn, Bool.not_false] at e1
  rw [hn'] at e2
  rw [he] at e3
  refine ⟨k3, ?_, h3⟩
  unfold sequenceLoop
  rw [e1]
  dsimp only
  rw [e2]
  dsimp only
  rw [e3]

/-- What is no mapping cannot be read as one. -/
theorem mappingLoop_no {κ : Nat → List Val} (hk : ∀ i, KeysOK (κ i)) {mode : Merge} {i : Nat} (cs : List Nat) {kids : List SPath}
    (h : Kids docs κ kids) (hi : i < docs.length) (hn : (at_ docs κ i).isNONE = false)
    (hn' : (at_ docs κ i).isNull = false) {e : Exc} (he : jsonMapping (at_ docs κ i) = .error e) :
    ∃ kids', mappingLoop L mode (i :: cs) [] kids = (.error e, kids') := by
  obtain ⟨k1, e1, h1⟩ := h.exists_ (L := L) (hk i) hi
  obtain ⟨k2, e2, h2⟩ := h1.isNull (L := L) (hk i) hi
  obtain ⟨k3, e3, h3⟩ := h2.mapping (L := L) (hk i) hi
  rw [hn, Bool.not_false] at e1
  rw [hn'] at e2
  rw [he] at e3
  refine ⟨k3, ?_⟩
  unfold mappingLoop
  rw [e1]
  dsimp only
  rw [e2]
  dsimp only
  rw [e3]
  simp

/-! ### Keys -/

theorem dictGet?_isSome (d : List (Val × Val)) (k : Val) : (dictGet? d k).isSome = k.inList (d.map Prod.fst) := by
  unfold dictGet? Val.inList
  rw [List.any_map]
  induction d with
  | nil => rfl
  | cons x d ih =>
    rw [List.find?_cons, List.any_cons]
    cases h : k.pyEq x.1 with
    | true => simp [h]
    | false => simp only [Function.comp, h, Bool.false_or]; exact ih

theorem inList_str {s : String} {l : List Val} : Val.inList (.str s) l = true ↔ Val.str s ∈ l := by
  unfold Val.inList
  rw [List.any_eq_true]
  constructor
  · rintro ⟨x, hx, h⟩
    rw [pyEq_str_right] at h
    rw [← h]; exact hx
  · intro h
    exact ⟨_, h, pyEq_str_right.2 rfl⟩

theorem mem_dedup {s : String} : ∀ {l : List Val}, Val.str s ∈ UPath.dedup l ↔ Val.str s ∈ l
  | [] => Iff.rfl
  | x :: l => by
    simp only [UPath.dedup, List.mem_cons, List.mem_filter, mem_dedup (l := l)]
    constructor
    · rintro (h | ⟨h, -⟩)
      · exact .inl h
      · exact .inr h
    · rintro (h | h)
      · exact .inl h
      · cases hx : x.pyEq (.str s) with
        | true => rw [pyEq_str_left] at hx; exact .inl hx.symm
        | false => exact .inr ⟨h, rfl⟩

theorem resolve_dict {s : String} (hs : hasDot s = false) (d : List (Val × Val)) :
    resolveJson (.dict d) (.str s) = (dictGet? d (.str s)).getD .NONE := by
  unfold resolveJson getItem
  simp only [hs, Bool.false_eq_true, if_false, Val.hashable, if_true]
  cases dictGet? d (.str s) <;> rfl

theorem resolve_list (xs : List Val) (j : Nat) : resolveJson (.list xs) (.int j) = (xs[j]?).getD .NONE := by
  unfold resolveJson getItem
  simp only [Val.index?, seqGet?]
  rw [if_pos (by omega)]
  simp only [Int.toNat_natCast]
  cases xs[j]? <;> rfl

theorem filter_kept {κ : Nat → List Val} {s : String} (hs : hasDot s = false) : ∀ (cs : List Nat) (kk : List (List (Val × Val))),
    cs.map (at_ docs κ) = kk.map Val.dict →
    (cs.filter fun i => Val.inList (.str s) (at_ docs κ i).dictKeys).map (at_ docs (ext κ (.str s))) =
      kk.filterMap fun d => dictGet? d (.str s)
  | [], [], _ => rfl
  | [], _ :: _, h => by simp at h
  | _ :: _, [], h => by simp at h
  | i :: cs, d :: kk, h => by
    simp only [List.map_cons, List.cons.injEq] at h
    have ih := filter_kept hs cs kk h.2
    have e := dictGet?_isSome d (.str s)
    have e2 : at_ docs (ext κ (.str s)) i = (dictGet? d (.str s)).getD .NONE := by
      have h1 : walk (docs.getD i .NONE) (κ i) = .dict d := h.1
      unfold at_ ext
      rw [walk_snoc, h1, resolve_dict hs]
    rw [List.filter_cons, h.1]
    show List.map _ (if Val.inList (.str s) (d.map Prod.fst) = true then _ else _) = _
    rw [← e, List.filterMap_cons]
    cases hd : dictGet? d (.str s) with
    | none => simpa using ih
    | some v =>
      rw [hd] at e2
      simp [ih, e2]

/-! ## Containers of the union and the merged document -/

variable (D docs m sm)

/-- A mapping or sequence of the union, and what the merged document has there. -/
inductive OpenAt (κ : Nat → List Val) (ks : List Val) : UVal → Prop
  | mapping {cs : List Nat} {kvs : List (Val × Val)} {kk : List (List (Val × Val))} (hi : ∀ i ∈ cs, i < docs.length)
    (hD : walk D ks = .dict kvs) (hk : cs.map (at_ docs κ) = kk.map Val.dict) (hm : TogetherDict m sm kvs kk) :
    OpenAt κ ks (.mapping (cs.map fun i => (i, (at_ docs κ i).dictKeys)))
  | seq {cs : List Nat} {ll : List (List Val)} (hi : ∀ i ∈ cs, i < docs.length) (hD : walk D ks = .list ll.flatten)
    (hk : cs.map (at_ docs κ) = ll.map Val.list) (hm : ∀ x ∈ ll.flatten, Together m sm x [x]) :
    OpenAt κ ks (.seq (cs.map fun i => (i, (at_ docs κ i).listLen)))

/-- What a key leads to, in the union and in the merged document. -/
inductive JoinAt (κ : Nat → List Val) (ks : List Val) : UVal → Prop
  | none (hD : walk D ks = .NONE) : JoinAt κ ks (.val .NONE)
  | join {cs : List Nat} (hi : ∀ i ∈ cs, i < docs.length) (hm : Together m sm (walk D ks) (cs.map (at_ docs κ))) :
    JoinAt κ ks (.join cs)

/-- The merged document is a mapping here. -/
def Named (ks : List Val) : Prop := ∃ kvs, walk D ks = .dict kvs

/-- A key of the merged document, or a name in a mapping. -/
inductive IsKey (ks : List Val) : Val → Prop
  | name {s : String} (h : Named D ks) (hs : hasDot s = false) : IsKey ks (.str s)
  | index {j : Nat} {xs : List Val} (h : walk D ks = .list xs) (hj : j < xs.length) : IsKey ks (.int j)

variable {D docs m sm}

/-- The list that has the item at an index, and where it begins. -/
theorem find {κ : Nat → List Val} : ∀ (cs : List Nat) (ll : List (List Val)) (off j : Nat),
    cs.map (at_ docs κ) = ll.map Val.list → j < ll.flatten.length →
    ∃ i o l, seqFind ((off + j : Nat) : Int) off (cs.map fun i => (i, (at_ docs κ i).listLen)) = some (i, off + o) ∧ i ∈ cs ∧
      o ≤ j ∧ at_ docs κ i = .list l ∧ l[j - o]? = ll.flatten[j]?
  | [], [], _, _, _, h => by simp at h
  | [], _ :: _, _, _, h, _ => by simp at h
  | _ :: _, [], _, _, h, _ => by simp at h
  | i :: cs, l :: ll, off, j, h, hj => by
    simp only [List.map_cons, List.cons.injEq] at h
    have hl : (at_ docs κ i).listLen = l.length := by rw [h.1]; rfl
    rw [List.map_cons, hl]
    unfold seqFind
    by_cases hlt : j < l.length
    · rw [if_pos (by omega)]
      refine ⟨i, 0, l, rfl, by simp, by omega, h.1, ?_⟩
      rw [List.flatten_cons, List.getElem?_append_left hlt]
      rfl
    · rw [if_neg (by omega)]
      have hj' : j - l.length < ll.flatten.length := by
        rw [List.flatten_cons, List.length_append] at hj; omega
      obtain ⟨i', o, l', h1, h2, h3, h4, h5⟩ := find cs ll (off + l.length) (j - l.length) h.2 hj'
      refine ⟨i', l.length + o, l', ?_, by simp [h2], by omega, h4, ?_⟩
      · have e : off + l.length + (j - l.length) = off + j := by omega
        rw [e] at h1
        rw [h1, Nat.add_assoc]
      · rw [List.flatten_cons, List.getElem?_append_right (by omega), ← h5]
        congr 1
        omega

theorem shift_append {loc : Option String} {doc : Val} {ks : List Val} {j o : Nat} {p : SPath}
    (h : FineJson true loc doc ks p) (ho : o ≤ j) : (p.append (.int j)).endsInInt = true ∧
      (p.append (.int j)).shiftLast o = p.append (.int (j - o : Nat)) := by
  obtain ⟨⟨root, parts⟩, rfl, -⟩ := h
  constructor
  · simp [SPath.append, SPath.endsInInt, SPath.keys, PathSt.append, PathSt.keys, Part.ofKey, Val.isIntLike]
  · have e : ((j : Int) - (o : Int)) = ((j - o : Nat) : Int) := by omega
    simp [SPath.append, SPath.shiftLast, Pilo.shiftLast, PathSt.append, Part.ofKey, Val.isIntLike, Val.index?, e]

/-- Keys of the right kind. -/
structure Keyed (ks : List Val) (κ : Nat → List Val) : Prop where
  ok : ∀ i, KeysOK (κ i)
  length : ∀ i, (κ i).length = ks.length

theorem KeysOK.snoc {ks : List Val} {k : Val} (h : KeysOK ks) (hk : (k.isIntLike || k.isStr) = true) : KeysOK (ks ++ [k]) := by
  unfold KeysOK at *
  rw [List.all_append, h]
  simpa using hk

theorem KeysOK.init {ks : List Val} (h : KeysOK ks) : KeysOK ks.dropLast := by
  unfold KeysOK at *
  rw [List.all_eq_true] at *
  exact fun x hx => h x (List.dropLast_subset _ hx)

theorem Keyed.ext {ks : List Val} {κ : Nat → List Val} (h : Keyed ks κ) {k : Val} (hk : (k.isIntLike || k.isStr) = true) :
    Keyed (ks ++ [k]) (ext κ k) :=
  ⟨fun i => (h.ok i).snoc hk, fun i => by simp [Mg.ext, h.length i]⟩

theorem Keyed.down {ks : List Val} {κ : Nat → List Val} {k : Val} (h : Keyed (ks ++ [k]) κ) : Keyed ks (down κ) :=
  ⟨fun i => (h.ok i).init, fun i => by simp [Mg.down, h.length i]⟩

theorem IsKey.ok {ks : List Val} {k : Val} (h : IsKey D ks k) : (k.isIntLike || k.isStr) = true := by
  cases h <;> rfl

/-- One key further down. -/
theorem step {κ : Nat → List Val} {ks : List Val} {k : Val} {c : UVal} {kids : List SPath} (hκ : Keyed ks κ)
    (h : OpenAt D docs m sm κ ks c) (hk : IsKey D ks k) (hkids : Kids docs κ kids) :
    ∃ w kids' κ', resolveUnion c k (kids.map (·.append k)) = (.ok w, kids') ∧ Kids docs κ' kids' ∧ down κ' = κ ∧
      Keyed (ks ++ [k]) κ' ∧ JoinAt D docs m sm κ' (ks ++ [k]) w := by
  have hok := hk.ok
  have happ := hkids.append k
  cases h with
  | @mapping cs kvs kk hi hD hkk hm =>
    cases hk with
    | index h _ => rw [hD] at h; cases h
    | @name s _ hs =>
      have hf := filter_kept (docs := docs) (κ := κ) hs cs kk hkk
      have hw : walk D (ks ++ [.str s]) = (dictGet? kvs (.str s)).getD .NONE := by rw [walk_snoc, hD, resolve_dict hs]
      have hg : (List.filter (fun m : Nat × List Val => Val.inList (.str s) m.2)
          (cs.map fun i => (i, (at_ docs κ i).dictKeys))).map Prod.fst =
          cs.filter fun i => Val.inList (.str s) (at_ docs κ i).dictKeys := by
        rw [List.filter_map, List.map_map]
        exact List.map_id _
      cases hv : dictGet? kvs (.str s) with
      | some v =>
        have hM := hm.vals _ _ hv
        rw [← hf] at hM
        rw [hv] at hw
        have hne := hM.plain.2.2.2
        unfold resolveUnion unionGet mappingGet
        dsimp only
        rw [hg]
        cases hc : cs.filter fun i => Val.inList (.str s) (at_ docs κ i).dictKeys with
        | nil => rw [hc] at hne; exact absurd rfl hne
        | cons c0 cs0 =>
          refine ⟨_, _, _, rfl, happ, down_ext _ _, hκ.ext hok, .join (fun i hi' => hi i ?_) ?_⟩
          · rw [← hc] at hi'; exact (List.mem_filter.1 hi').1
          · rw [hw, ← hc]; exact hM
      | none =>
        rw [hv] at hw
        have h0 : ¬ Val.str s ∈ kk.flatMap fun d => d.map Prod.fst := by
          rw [← mem_dedup, ← hm.keys, ← inList_str, ← dictGet?_isSome, hv]; simp
        have hc : (cs.filter fun i => Val.inList (.str s) (at_ docs κ i).dictKeys) = [] := by
          rw [List.filter_eq_nil_iff]
          intro i hi' hin
          rw [inList_str] at hin
          have : at_ docs κ i ∈ kk.map Val.dict := by rw [← hkk]; exact List.mem_map_of_mem hi'
          obtain ⟨d, hd, hd'⟩ := List.mem_map.1 this
          rw [← hd'] at hin
          exact h0 (List.mem_flatMap.2 ⟨d, hd, hin⟩)
        unfold resolveUnion unionGet mappingGet
        dsimp only
        rw [hg, hc]
        exact ⟨_, _, _, rfl, happ, down_ext _ _, hκ.ext hok, .none hw⟩
  | @seq cs ll hi hD hkk hm =>
    cases hk with
    | name h _ => obtain ⟨_, h⟩ := h; rw [hD] at h; cases h
    | @index j ys h hj =>
      rw [hD] at h
      cases h
      obtain ⟨i, o, l, h1, h2, h3, h4, h5⟩ := find (docs := docs) (κ := κ) cs ll 0 j hkk hj
      rw [Nat.zero_add, Nat.zero_add] at h1
      obtain ⟨p, loc, h6, h7⟩ := hkids.get (hi i h2)
      obtain ⟨h8, h9⟩ := shift_append (j := j) (o := o) h7 h3
      have hx : ll.flatten[j]? = some ll.flatten[j] := List.getElem?_eq_getElem hj
      let κ' : Nat → List Val := fun n => if n = i then κ i ++ [.int (j - o : Nat)] else κ n ++ [.int j]
      have hκi : κ' i = κ i ++ [.int (j - o : Nat)] := if_pos rfl
      have hkids' : Kids docs κ' ((kids.map (·.append (.int j))).set i (p.append (.int (j - o : Nat)))) := by
        refine ⟨by rw [List.length_set]; exact happ.length, fun n q hq => ?_⟩
        rw [List.getElem?_set] at hq
        split at hq
        · rename_i hn
          subst hn
          split at hq
          · cases hq
            exact ⟨loc, hκi ▸ appended h7 _⟩
          · cases hq
        · rename_i hn
          obtain ⟨loc, hf⟩ := happ.fine n q hq
          have e : κ' n = κ n ++ [.int j] := if_neg fun e => hn e.symm
          exact ⟨loc, e ▸ hf⟩
      have hdown : down κ' = κ := by
        funext n
        show (κ' n).dropLast = κ n
        by_cases hn : n = i
        · subst hn; rw [hκi, List.dropLast_concat]
        · have e : κ' n = κ n ++ [.int j] := if_neg hn
          rw [e, List.dropLast_concat]
      have hkeyed : Keyed (ks ++ [.int j]) κ' := by
        refine ⟨fun n => ?_, fun n => ?_⟩ <;> by_cases hn : n = i
        · subst hn; rw [hκi]; exact (hκ.ok _).snoc rfl
        · have e : κ' n = κ n ++ [.int j] := if_neg hn
          rw [e]; exact (hκ.ok _).snoc rfl
        · subst hn; rw [hκi]; simp [hκ.length]
        · have e : κ' n = κ n ++ [.int j] := if_neg hn
          rw [e]; simp [hκ.length]
      refine ⟨.join [i], _, κ', ?_, hkids', hdown, hkeyed, .join (by simpa using hi i h2) ?_⟩
      · unfold resolveUnion unionGet seqGet
        simp only [Val.index?]
        rw [h1]
        dsimp only
        have e : (kids.map (·.append (.int j)))[i]? = some (p.append (.int j)) := by rw [List.getElem?_map, h6]; rfl
        rw [e]
        dsimp only
        rw [h8, if_pos rfl, h9]
      · have e1 : walk D (ks ++ [.int j]) = ll.flatten[j] := by rw [walk_snoc, hD, resolve_list, hx]; rfl
        have e2 : at_ docs κ' i = ll.flatten[j] := by
          have h4 : walk (docs.getD i .NONE) (κ i) = .list l := h4
          unfold at_
          rw [hκi, walk_snoc, h4, resolve_list, h5, hx]; rfl
        rw [List.map_singleton, e1, e2]
        exact hm _ (List.getElem_mem hj)

/-! ## Paths of the union -/

variable (D docs m sm)

/-- The parts of a union path that have been read as mappings and sequences. -/
inductive Opened : (Nat → List Val) → List Val → List (Part UVal) → Prop
  | nil {κ : Nat → List Val} : Opened κ [] []
  | snoc {κ : Nat → List Val} {ks : List Val} {ps : List (Part UVal)} {k : Val} {c : UVal} (h : Opened (down κ) ks ps)
    (hk : IsKey D ks k) (hc : OpenAt D docs m sm κ (ks ++ [k]) c) :
    Opened κ (ks ++ [k]) (ps ++ [{ key := k, raw := false, cache := some c }])

/-- The configuration and the root of a union path. -/
structure Base (u : UPath) : Prop where
  merge : u.cfg.mappingMerge = m
  mode : m ≠ .bad
  sequences : u.cfg.sequenceMerge = sm
  smode : sm ≠ .bad
  depth : u.cfg.mergeDepth = none
  root : OpenAt D docs m sm (fun _ => []) [] u.st.root

/-- At a mapping or sequence that has been read as such. -/
structure UOpen (ks : List Val) (u : UPath) : Prop where
  base : Base D docs m sm u
  parts : ∃ κ, Keyed ks κ ∧ Kids docs κ u.kids ∧ Opened D docs m sm κ ks u.st.parts

/-- Just below such a one, nothing read. -/
structure UNew (ks : List Val) (u : UPath) : Prop where
  base : Base D docs m sm u
  parts : ∃ κ ks0 k ps kids, ks = ks0 ++ [k] ∧ Keyed ks0 κ ∧ IsKey D ks0 k ∧ Opened D docs m sm κ ks0 ps ∧
    Kids docs κ kids ∧ u.kids = kids.map (·.append k) ∧ u.st.parts = ps ++ [{ key := k, raw := false, cache := none }]

/-- Just below such a one, with this value. -/
structure UHas (κ : Nat → List Val) (c : UVal) (ks : List Val) (u : UPath) : Prop where
  base : Base D docs m sm u
  keyed : Keyed ks κ
  kids : Kids docs κ u.kids
  parts : ∃ ks0 k ps, ks = ks0 ++ [k] ∧ IsKey D ks0 k ∧ Opened D docs m sm (down κ) ks0 ps ∧
    u.st.parts = ps ++ [{ key := k, raw := false, cache := some c }]

/-- Nothing was read, or what was read is what the key leads to. -/
def UAt (ks : List Val) (u : UPath) : Prop :=
  UNew D docs m sm ks u ∨ ∃ κ w, UHas D docs m sm κ w ks u ∧ JoinAt D docs m sm κ ks w

variable {D docs m sm}

theorem Opened.top {κ : Nat → List Val} {ks : List Val} {ps : List (Part UVal)} (h : Opened D docs m sm κ ks ps) :
    (ks = [] ∧ ps = []) ∨ ∃ w, PathSt.scan ps.reverse = .ok (some (ps.length, w)) ∧ OpenAt D docs m sm κ ks w := by
  cases h with
  | nil => exact .inl ⟨rfl, rfl⟩
  | @snoc _ ks ps k c h hk hc =>
    refine .inr ⟨c, ?_, hc⟩
    rw [List.reverse_append]
    simp [PathSt.scan]

theorem UHas.value {κ : Nat → List Val} {ks : List Val} {u : UPath} {w : UVal} (h : UHas D docs m sm κ w ks u) :
    u.uvalue = (.ok w, u) := by
  obtain ⟨hb, hκ, hkids, ks0, k, ps, hks, hk, ho, hp⟩ := h
  obtain ⟨cfg, ⟨root, parts⟩, kids⟩ := u
  dsimp only at hp
  subst hp
  unfold UPath.uvalue PathSt.value
  dsimp only
  rw [List.reverse_append]
  simp only [List.reverse_cons, List.reverse_nil, List.nil_append, List.cons_append, PathSt.scan,
    Bool.false_eq_true, if_false]
  rw [List.take_of_length_le (by simp), List.drop_of_length_le (by simp)]
  simp only [PathSt.fill, List.append_nil]

/-- The value of a union path below what has been read. -/
theorem UAt.value {ks : List Val} {u : UPath} (h : UAt D docs m sm ks u) :
    ∃ w u' κ, u.uvalue = (.ok w, u') ∧ JoinAt D docs m sm κ ks w ∧ UHas D docs m sm κ w ks u' := by
  rcases h with ⟨hb, κ, ks0, k, ps, kids0, hks, hκ, hk, ho, hkids, hu, hp⟩ | ⟨κ, w, h1, h2⟩
  · obtain ⟨cfg, ⟨root, parts⟩, kids⟩ := u
    dsimp only at hp hu
    subst hp hu hks
    unfold UPath.uvalue PathSt.value
    dsimp only
    rw [List.reverse_append]
    simp only [List.reverse_cons, List.reverse_nil, List.nil_append, List.cons_append, PathSt.scan,
      Bool.false_eq_true, if_false]
    rcases ho.top with ⟨h1, h2⟩ | ⟨v, h1, h2⟩
    · subst h1 h2
      have hκ0 : κ = fun _ => [] := by
        funext i
        have := hκ.length i
        simpa using this
      have hroot := hb.root
      rw [← hκ0] at hroot
      dsimp only at hroot
      obtain ⟨w, kids', κ', h3, h4, h5, h6, h7⟩ := step hκ hroot hk hkids
      refine ⟨w, { cfg := cfg, st := { root := root, parts := [{ key := k, raw := false, cache := some w }] }, kids := kids' }, κ',
        ?_, h7, ⟨hb.merge, hb.mode, hb.sequences, hb.smode, hb.depth, hb.root⟩, h6, h4, [], k, [], rfl, hk, .nil, rfl⟩
      simp only [List.reverse_nil, PathSt.scan, List.nil_append, PathSt.fill, h3]
      split <;> rfl
    · obtain ⟨w, kids', κ', h3, h4, h5, h6, h7⟩ := step hκ h2 hk hkids
      refine ⟨w, { cfg := cfg, st := { root := root, parts := ps ++ [{ key := k, raw := false, cache := some w }] }, kids := kids' },
        κ', ?_, h7, ⟨hb.merge, hb.mode, hb.sequences, hb.smode, hb.depth, hb.root⟩, h6, h4, ks0, k, ps, rfl, hk, h5 ▸ ho, rfl⟩
      rw [h1]
      simp only [List.drop_left, List.take_left, PathSt.fill, h3]
      split <;> rfl
  · exact ⟨w, u, κ, h1.value, h2, h1⟩

theorem UHas.setKids {κ : Nat → List Val} {c : UVal} {ks : List Val} {u : UPath} (h : UHas D docs m sm κ c ks u)
    {kids : List SPath} (hk : Kids docs κ kids) : UHas D docs m sm κ c ks { u with kids := kids } :=
  ⟨⟨h.base.merge, h.base.mode, h.base.sequences, h.base.smode, h.base.depth, h.base.root⟩, h.keyed, hk, h.parts⟩

theorem setValue_snoc {C : Type} (root : C) (ps : List (Part C)) (q : Part C) (v : C) :
    PathSt.setValue { root := root, parts := ps ++ [q] } v =
      { root := root, parts := ps ++ [{ q with cache := some v }] } := by
  unfold PathSt.setValue
  dsimp only
  rw [List.reverse_append]
  simp

/-- A container read at the place. -/
theorem UHas.open_ {κ : Nat → List Val} {c0 : UVal} {ks : List Val} {u : UPath} (h : UHas D docs m sm κ c0 ks u)
    {kids : List SPath} (hk : Kids docs κ kids) {c : UVal} (hc : OpenAt D docs m sm κ ks c) :
    UOpen D docs m sm ks { u with st := u.st.setValue c, kids := kids } := by
  obtain ⟨hb, hκ, -, ks0, k, ps, h1, h2, h3, h4⟩ := h
  obtain ⟨cfg, ⟨root, parts⟩, kids0⟩ := u
  dsimp only at h4
  subst h4 h1
  rw [setValue_snoc]
  exact ⟨⟨hb.merge, hb.mode, hb.sequences, hb.smode, hb.depth, hb.root⟩, κ, hκ, hk, .snoc h3 h2 hc⟩

/-- A value read at the place. -/
theorem UHas.set {κ : Nat → List Val} {c0 : UVal} {ks : List Val} {u : UPath} (h : UHas D docs m sm κ c0 ks u)
    {kids : List SPath} (hk : Kids docs κ kids) (c : UVal) :
    UHas D docs m sm κ c ks { u with st := u.st.setValue c, kids := kids } := by
  obtain ⟨hb, hκ, -, ks0, k, ps, h1, h2, h3, h4⟩ := h
  obtain ⟨cfg, ⟨root, parts⟩, kids0⟩ := u
  dsimp only at h4
  subst h4
  rw [setValue_snoc]
  exact ⟨⟨hb.merge, hb.mode, hb.sequences, hb.smode, hb.depth, hb.root⟩, hκ, hk, ks0, k, ps, h1, h2, h3, rfl⟩

theorem keptOf_map {mode : Merge} {α β : Type} (f : α → β) (l : List α) : (keptOf mode l).map f = keptOf mode (l.map f) := by
  cases mode <;> simp [keptOf, List.map_take, List.map_drop]

theorem keptOf_sub {mode : Merge} {α : Type} {l : List α} {a : α} (h : a ∈ keptOf mode l) : a ∈ l := by
  cases mode with
  | combine => exact h
  | last => exact List.mem_of_mem_drop h
  | first => exact List.mem_of_mem_take h
  | bad => exact List.mem_of_mem_take h

theorem mem_of_dedup {k : Val} : ∀ {l : List Val}, k ∈ UPath.dedup l → k ∈ l
  | x :: l, h => by
    simp only [UPath.dedup, List.mem_cons, List.mem_filter] at h ⊢
    exact h.imp_right fun h => mem_of_dedup h.1

theorem mappingKeys_kept {κ : Nat → List Val} {cs : List Nat} {kk : List (List (Val × Val))}
    (h : cs.map (at_ docs κ) = kk.map Val.dict) :
    UPath.mappingKeys (cs.map fun i => (i, (at_ docs κ i).dictKeys)) = UPath.dedup (kk.flatMap fun d => d.map Prod.fst) := by
  unfold UPath.mappingKeys
  congr 1
  have e1 : (cs.map fun i => (i, (at_ docs κ i).dictKeys)).flatMap Prod.snd = (cs.map (at_ docs κ)).flatMap Val.dictKeys := by
    rw [List.flatMap_map, List.flatMap_map]
  rw [e1, h, List.flatMap_map]
  rfl

/-- `mapping()` where the merged document is a mapping. -/
theorem UHas.mapping {κ : Nat → List Val} {ks : List Val} {u : UPath} {cs : List Nat}
    (h : UHas D docs m sm κ (.join cs) ks u) {u0 : UPath} (hu : u0.uvalue = (.ok (.join cs), u))
    (hj : JoinAt D docs m sm κ ks (.join cs)) {kvs : List (Val × Val)} (hD : walk D ks = .dict kvs) :
    ∃ u', u0.mapping L = (.ok { ks := kvs.map Prod.fst }, u') ∧ UOpen D docs m sm ks u' ∧
      ∀ k ∈ kvs.map Prod.fst, IsKey D ks k := by
  cases hj with
  | join hi hm =>
    rw [hD] at hm
    generalize hds : cs.map (at_ docs κ) = ds at hm
    cases hm with
    | leaf hl => cases hl
    | @dict _ dd hne hk hs hv =>
      have hkk : (keptOf m cs).map (at_ docs κ) = (keptOf m dd).map Val.dict := by rw [keptOf_map, hds, keptOf_map]
      have hM : TogetherDict m sm kvs (keptOf m dd) := ⟨hk, hs, hv⟩
      have hdict : ∀ i ∈ cs, i < docs.length ∧ ∃ d, at_ docs κ i = .dict d := by
        intro i hi'
        have : at_ docs κ i ∈ dd.map Val.dict := by rw [← hds]; exact List.mem_map_of_mem hi'
        obtain ⟨d, -, hd⟩ := List.mem_map.1 this
        exact ⟨hi i hi', d, hd.symm⟩
      have hcs : cs ≠ [] := by
        rintro rfl
        cases dd with
        | nil => exact hne rfl
        | cons _ _ => simp at hds
      have hloop : ∃ kids', mkMapping L u.cfg none cs u.kids =
          (.ok ((keptOf m cs).map fun i => (i, (at_ docs κ i).dictKeys)), kids') ∧ Kids docs κ kids' := by
        have hmode : mappingMode u.cfg none cs.length = m := by
          unfold mappingMode
          rw [h.base.depth]
          exact h.base.merge
        unfold mkMapping
        rw [hmode]
        dsimp only
        rw [if_neg h.base.mode]
        exact mappingLoop_all h.keyed.ok h.base.mode hcs h.kids hdict
      obtain ⟨kids', h1, h2⟩ := hloop
      refine ⟨_, ?_, h.open_ h2 (.mapping (fun i hi' => hi i (keptOf_sub hi')) hD hkk hM), fun k hk' => ?_⟩
      · unfold UPath.mapping
        rw [hu]
        dsimp only
        rw [h1]
        dsimp only
        rw [mappingKeys_kept hkk, ← hk]
      · rw [hk] at hk'
        obtain ⟨d, hd, hkd⟩ := List.mem_flatMap.1 (mem_of_dedup hk')
        obtain ⟨kv, hkv, rfl⟩ := List.mem_map.1 hkd
        obtain ⟨s, h3, h4⟩ := hs d hd kv hkv
        rw [h3]
        exact .name ⟨_, hD⟩ h4

theorem lengths {κ : Nat → List Val} : ∀ (cs : List Nat) (ll : List (List Val)), cs.map (at_ docs κ) = ll.map Val.list →
    UPath.seqTotal (cs.map fun i => (i, (at_ docs κ i).listLen)) = ll.flatten.length
  | [], [], _ => rfl
  | [], _ :: _, h => by simp at h
  | _ :: _, [], h => by simp at h
  | i :: cs, l :: ll, h => by
    simp only [List.map_cons, List.cons.injEq] at h
    have ih := lengths cs ll h.2
    have hl : (at_ docs κ i).listLen = l.length := by rw [h.1]; rfl
    unfold UPath.seqTotal at *
    rw [List.map_cons, List.map_cons, List.sum_cons, ih, List.flatten_cons, List.length_append, hl]

/-- `sequence()` where the merged document is a list. -/
theorem UHas.sequence {κ : Nat → List Val} {ks : List Val} {u : UPath} {cs : List Nat}
    (h : UHas D docs m sm κ (.join cs) ks u) {u0 : UPath} (hu : u0.uvalue = (.ok (.join cs), u))
    (hj : JoinAt D docs m sm κ ks (.join cs)) {n : Nat} (hD : jsonSequence (walk D ks) = .ok n) :
    ∃ u', u0.sequence L = (.ok n, u') ∧ UOpen D docs m sm ks u' ∧ ∀ j : Nat, j < n → IsKey D ks (.int j) := by
  cases hj with
  | join hi hm =>
    generalize hv : walk D ks = v at hm hD
    generalize hds : cs.map (at_ docs κ) = ds at hm
    cases hm with
    | leaf hl => cases v <;> first | (cases hl; done) | (cases hD; done)
    | dict _ _ _ _ => cases hD
    | @list ll hne hx =>
      cases hD
      have hkk : (keptOf sm cs).map (at_ docs κ) = (keptOf sm ll).map Val.list := by rw [keptOf_map, hds, keptOf_map]
      have hlist : ∀ i ∈ cs, i < docs.length ∧ ∃ d, at_ docs κ i = .list d := by
        intro i hi'
        have : at_ docs κ i ∈ ll.map Val.list := by rw [← hds]; exact List.mem_map_of_mem hi'
        obtain ⟨d, -, hd⟩ := List.mem_map.1 this
        exact ⟨hi i hi', d, hd.symm⟩
      have hsm := h.base.sequences
      obtain ⟨kids', h1, h2⟩ := sequenceLoop_rest (L := L) (cfg := u.cfg) h.keyed.ok h.base.depth
        (by rw [hsm]; exact h.base.smode) cs none [] (.inl rfl) (by cases u.cfg.sequenceMerge <;> rfl) h.kids hlist
      rw [hsm, List.nil_append, ← keptOf_map] at h1
      refine ⟨_, ?_, h.open_ h2 (.seq (fun i hi' => hi i (keptOf_sub hi')) hv hkk hx), fun j hj => .index hv hj⟩
      unfold UPath.sequence
      rw [hu]
      dsimp only
      rw [h1]
      dsimp only
      rw [lengths _ _ hkk]

/-- The first of the documents is like the merged one: the same text, number or truth value, also a list, also a mapping. -/
theorem head_like {v : Val} {ds : List Val} (h : Together m sm v ds) : ∃ d ds', ds = d :: ds' ∧ d.isNONE = false ∧
    d.isNull = false ∧ (v.isLeaf = true ∧ d = v ∨ (∃ xs ys, v = .list xs ∧ d = .list ys) ∨
      ∃ kvs kvs', v = .dict kvs ∧ d = .dict kvs') := by
  have hp := h.plain
  cases h with
  | leaf hl => exact ⟨_, _, rfl, hp.1, hp.2.1, .inl ⟨hl, rfl⟩⟩
  | @list ll hne _ =>
    cases ll with
    | nil => exact absurd rfl hne
    | cons d dd => exact ⟨_, _, rfl, rfl, rfl, .inr (.inl ⟨_, _, rfl, rfl⟩)⟩
  | @dict kvs dd hne _ _ _ =>
    cases dd with
    | nil => exact absurd rfl hne
    | cons d dd => exact ⟨_, _, rfl, rfl, rfl, .inr (.inr ⟨_, _, rfl, rfl⟩)⟩

theorem head_at {κ : Nat → List Val} {cs : List Nat} {v : Val} (h : Together m sm v (cs.map (at_ docs κ))) :
    ∃ i cs', cs = i :: cs' ∧ (at_ docs κ i).isNONE = false ∧ (at_ docs κ i).isNull = false ∧
      (v.isLeaf = true ∧ at_ docs κ i = v ∨ (∃ xs ys, v = .list xs ∧ at_ docs κ i = .list ys) ∨
        ∃ kvs kvs', v = .dict kvs ∧ at_ docs κ i = .dict kvs') := by
  obtain ⟨d, ds', h1, h2⟩ := head_like h
  cases cs with
  | nil => simp at h1
  | cons i cs =>
    simp only [List.map_cons, List.cons.injEq] at h1
    obtain ⟨rfl, -⟩ := h1
    exact ⟨i, cs, rfl, h2⟩

/-- `sequence()` where the merged document is no list. -/
theorem UHas.noSequence {κ : Nat → List Val} {ks : List Val} {u : UPath} {w : UVal} (h : UHas D docs m sm κ w ks u)
    {u0 : UPath} (hu : u0.uvalue = (.ok w, u)) (hj : JoinAt D docs m sm κ ks w) {e : Exc}
    (hD : jsonSequence (walk D ks) = .error e) :
    ∃ e' u', u0.sequence L = (.error e', u') ∧ e'.isSourceError = true ∧ UAt D docs m sm ks u' := by
  have hj' := hj
  cases hj with
  | none hv =>
    refine ⟨.sourceError "not a sequence", u, ?_, rfl, .inr ⟨κ, _, h, hj'⟩⟩
    unfold UPath.sequence
    rw [hu]
  | @join cs hi hm =>
    obtain ⟨i, cs', rfl, h1, h2, h3⟩ := head_at hm
    have he : ∃ e', jsonSequence (at_ docs κ i) = .error e' := by
      rcases h3 with ⟨-, h3⟩ | ⟨xs, ys, h3, -⟩ | ⟨kvs, kvs', -, h3⟩
      · rw [h3]; exact ⟨e, hD⟩
      · rw [h3] at hD; cases hD
      · rw [h3]; exact ⟨_, rfl⟩
    obtain ⟨e', he⟩ := he
    have herr : e'.isSourceError = true := by
      unfold jsonSequence at he
      split at he <;> cases he
      rfl
    obtain ⟨kids', h5, h6⟩ := sequenceLoop_no (L := L) (cfg := u.cfg) h.keyed.ok cs' h.kids (hi i (by simp)) h1 h2 he
    refine ⟨e', { u with kids := kids' }, ?_, herr, .inr ⟨κ, _, h.setKids h6, hj'⟩⟩
    unfold UPath.sequence
    rw [hu]
    dsimp only
    rw [h5]

/-- `primitive(type)` where the merged document can be read so. -/
theorem UHas.primitive {κ : Nat → List Val} {ks : List Val} {u : UPath} {w : UVal} (h : UHas D docs m sm κ w ks u)
    {u0 : UPath} (hu : u0.uvalue = (.ok w, u)) (hj : JoinAt D docs m sm κ ks w) {ty : PTy} (ht : ty ≠ .auto) {a : Val}
    (hD : parseJson L true ty (walk D ks) = .ok a) :
    ∃ u', u0.primitive L ty = (.ok a, u') ∧ UHas D docs m sm κ (.val a) ks u' := by
  have hleaf : (walk D ks).isLeaf = true := by
    generalize walk D ks = v at hD
    cases ty <;> first | exact absurd rfl ht | (cases v <;> first | rfl | (cases hD; done))
  cases hj with
  | none hv => rw [hv] at hleaf; cases hleaf
  | @join cs hi hm =>
    obtain ⟨i, cs', rfl, -, -, h2⟩ := head_at hm
    have h2 : at_ docs κ i = walk D ks := by
      rcases h2 with ⟨-, h2⟩ | ⟨xs, ys, h2, -⟩ | ⟨kvs, kvs', h2, -⟩
      · exact h2
      · rw [h2] at hleaf; cases hleaf
      · rw [h2] at hleaf; cases hleaf
    obtain ⟨kids', h3, h4⟩ := h.kids.read (L := L) (h.keyed.ok i) (hi i (by simp)) (fun _ _ v => parseNative L ty v)
      (fun strict v => parseJson L strict ty v) (fun cfg ks v => SPath.cfgPrimitive L cfg ks ty v)
    have h3 : onChild u.kids i (SPath.primitive L ty) = (parseJson L true ty (at_ docs κ i), kids') := h3
    rw [h2, hD] at h3
    refine ⟨_, ?_, h.set h4 (.val a)⟩
    unfold UPath.primitive
    rw [hu]
    dsimp only
    rw [h3]

/-- `mapping()` where the merged document is no mapping. -/
theorem UHas.noMapping {κ : Nat → List Val} {ks : List Val} {u : UPath} {w : UVal} (h : UHas D docs m sm κ w ks u)
    {u0 : UPath} (hu : u0.uvalue = (.ok w, u)) (hj : JoinAt D docs m sm κ ks w) {e : Exc}
    (hD : jsonMapping (walk D ks) = .error e) : ∃ e', (u0.mapping L).1 = .error e' := by
  cases hj with
  | none hv =>
    unfold UPath.mapping
    rw [hu]
    exact ⟨_, rfl⟩
  | @join cs hi hm =>
    obtain ⟨i, cs', rfl, h1, h2, h3⟩ := head_at hm
    have he : ∃ e', jsonMapping (at_ docs κ i) = .error e' := by
      rcases h3 with ⟨-, h3⟩ | ⟨xs, ys, -, h3⟩ | ⟨kvs, kvs', h3, -⟩
      · rw [h3]; exact ⟨e, hD⟩
      · rw [h3]; exact ⟨_, rfl⟩
      · rw [h3] at hD; cases hD
    obtain ⟨e', he⟩ := he
    refine ⟨e', ?_⟩
    have hmode : mappingMode u.cfg none (i :: cs').length = m := by
      unfold mappingMode
      rw [h.base.depth]
      exact h.base.merge
    obtain ⟨kids', h5⟩ := mappingLoop_no (L := L) (mode := m) h.keyed.ok cs' h.kids (hi i (by simp)) h1 h2 he
    have h6 : mkMapping L u.cfg none (i :: cs') u.kids = (.error e', kids') := by
      unfold mkMapping
      rw [hmode]
      dsimp only
      rw [if_neg h.base.mode]
      exact h5
    unfold UPath.mapping
    rw [hu]
    dsimp only
    rw [h6]

/-- `primitive(type)` where the merged document cannot be read so, though something is there. -/
theorem UHas.noPrimitive {κ : Nat → List Val} {ks : List Val} {u : UPath} {w : UVal} (h : UHas D docs m sm κ w ks u)
    {u0 : UPath} (hu : u0.uvalue = (.ok w, u)) (hj : JoinAt D docs m sm κ ks w) (hn : (walk D ks).isNONE = false) {ty : PTy}
    (ht : ty ≠ .auto) {e : Exc} (hD : parseJson L true ty (walk D ks) = .error e) :
    ∃ e', (u0.primitive L ty).1 = .error e' := by
  cases hj with
  | none hv => rw [hv] at hn; cases hn
  | @join cs hi hm =>
    obtain ⟨i, cs', rfl, h1, h2, h3⟩ := head_at hm
    have he : ∃ e', parseJson L true ty (at_ docs κ i) = .error e' := by
      rcases h3 with ⟨-, h3⟩ | ⟨xs, ys, -, h3⟩ | ⟨kvs, kvs', -, h3⟩
      · rw [h3]; exact ⟨e, hD⟩
      · rw [h3]; cases ty <;> first | exact absurd rfl ht | exact ⟨_, rfl⟩
      · rw [h3]; cases ty <;> first | exact absurd rfl ht | exact ⟨_, rfl⟩
    obtain ⟨e', he⟩ := he
    refine ⟨e', ?_⟩
    obtain ⟨kids', h5, -⟩ := h.kids.read (L := L) (h.keyed.ok i) (hi i (by simp)) (fun _ _ v => parseNative L ty v)
      (fun strict v => parseJson L strict ty v) (fun cfg ks v => SPath.cfgPrimitive L cfg ks ty v)
    have h5 : onChild u.kids i (SPath.primitive L ty) = (parseJson L true ty (at_ docs κ i), kids') := h5
    rw [he] at h5
    unfold UPath.primitive
    rw [hu]
    dsimp only
    rw [h5]

/-! ## The two paths -/

variable (D docs m sm)

/-- A path of the merged document and one of the union with the same keys. -/
def Pair (A : UPath → Prop) (ks : List Val) (p q : Path) : Prop :=
  ∃ a u loc, p = .base (.simple a) ∧ q = .base (.union u) ∧ FineJson true loc D ks a ∧ KeysOK ks ∧ A u

variable {D docs m sm}

theorem someKeys_simple (L : Lib) (a : SPath) : (Path.ops L).mapping (.base (.simple a)) =
    ((a.mapping L).1.map some, .base (.simple (a.mapping L).2)) := by
  simp only [Path.ops, Path.read, BPath.mapping, BPath.read]
  rcases SPath.mapping L a with ⟨r, y⟩
  cases r <;> rfl

theorem someKeys_union (L : Lib) (u : UPath) : (Path.ops L).mapping (.base (.union u)) =
    ((u.mapping L).1.map some, .base (.union (u.mapping L).2)) := by
  simp only [Path.ops, Path.read, BPath.mapping, BPath.read]
  rcases UPath.mapping L u with ⟨r, y⟩
  cases r <;> rfl

theorem value_ne {κ : Nat → List Val} {ks : List Val} {w : UVal} (h : JoinAt D docs m sm κ ks w) :
    w.isNONE = (walk D ks).isNONE ∧ (walk D ks).plainData = true ∧ (UPath.toVal w).plainData = true := by
  cases h with
  | none h => rw [h]; exact ⟨rfl, rfl, rfl⟩
  | join _ h => rw [h.plain.1]; exact ⟨rfl, h.plain.2.2.1, rfl⟩

theorem popParts {cfg : UnionCfg} {root : UVal} {ps : List (Part UVal)} {q : Part UVal} {kids kids' : List SPath}
    (h : UPath.popAll kids = .ok kids') :
    UPath.pop { cfg := cfg, st := { root := root, parts := ps ++ [q] }, kids := kids } =
      .ok { cfg := cfg, st := { root := root, parts := ps }, kids := kids' } := by
  unfold UPath.pop PathSt.pop
  dsimp only
  rw [List.reverse_append]
  simp [h]

theorem Base.pop {cfg : UnionCfg} {root : UVal} {parts ps : List (Part UVal)} {kids kids' : List SPath}
    (h : Base D docs m sm { cfg := cfg, st := { root := root, parts := parts }, kids := kids }) :
    Base D docs m sm { cfg := cfg, st := { root := root, parts := ps }, kids := kids' } :=
  ⟨h.merge, h.mode, h.sequences, h.smode, h.depth, h.root⟩

/-- Whatever was read can be left. -/
theorem leave {l : List Val} {k : Val} {u : UPath}
    (h : UOpen D docs m sm (l ++ [k]) u ∨ UNew D docs m sm (l ++ [k]) u ∨ ∃ κ c, UHas D docs m sm κ c (l ++ [k]) u) :
    ∃ u', u.pop = .ok u' ∧ UOpen D docs m sm l u' := by
  obtain ⟨cfg, ⟨root, parts⟩, kids⟩ := u
  have hlen : ∀ {κ : Nat → List Val}, Keyed (l ++ [k]) κ → ∀ i, (κ i).length = l.length + 1 := fun h i => by
    rw [h.length i]; simp
  rcases h with ⟨hb, κ, hκ, hkids, ho⟩ | ⟨hb, κ, ks0, k0, ps, kids0, hks, hκ, hk0, ho, hkids, hu, hp⟩ |
    ⟨κ, c, hb, hκ, hkids, ks0, k0, ps, hks, hk0, ho, hp⟩
  · obtain ⟨kids', h1, h2⟩ := hkids.pop (hlen hκ)
    dsimp only at ho h1
    have hd := hκ.down
    generalize hl : l ++ [k] = l' at ho
    cases ho with
    | nil => simp at hl
    | snoc ho hk hc =>
      obtain ⟨rfl, hk'⟩ := List.append_inj' hl rfl
      exact ⟨_, popParts h1, hb.pop, _, hd, h2, ho⟩
  · dsimp only at hp hu
    subst hp hu
    obtain ⟨rfl, hk'⟩ := List.append_inj' hks rfl
    cases hk'
    obtain ⟨kids', h1, h2⟩ := (hkids.append k).pop (n := l.length) (fun i => by simp [ext, hκ.length i])
    rw [down_ext] at h2
    exact ⟨_, popParts h1, hb.pop, κ, hκ, h2, ho⟩
  · dsimp only at hp
    subst hp
    obtain ⟨kids', h1, h2⟩ := hkids.pop (hlen hκ)
    obtain ⟨rfl, hk'⟩ := List.append_inj' hks rfl
    exact ⟨_, popParts h1, hb.pop, _, hκ.down, h2, ho⟩

variable (L D docs m sm)

/-- The merged document and the union of the documents are read alike. -/
def pace : Pace (Path.ops L) where
  Open ks := Pair D (UOpen D docs m sm ks) ks
  Key ks := Pair D (UAt D docs m sm ks) ks
  Fresh ks := Pair D (fun u => UAt D docs m sm ks u ∧ (walk D ks).isNONE = false) ks
  Loose ks := Pair D (fun u => UOpen D docs m sm ks u ∨ UNew D docs m sm ks u ∨ ∃ κ c, UHas D docs m sm κ c ks u) ks
  Named := Named D
  IsKey := IsKey D
  key_null := by intro l k h; cases h <;> exact ⟨rfl, rfl⟩
  named_key h hs := .name h hs
  fresh_key := by
    rintro l p q ⟨a, u, loc, rfl, rfl, hf, hl, h, -⟩
    exact ⟨a, u, loc, rfl, rfl, hf, hl, h⟩
  key_loose := by
    rintro l p q ⟨a, u, loc, rfl, rfl, hf, hl, h | ⟨κ, w, h, -⟩⟩
    · exact ⟨a, u, loc, rfl, rfl, hf, hl, .inr (.inl h)⟩
    · exact ⟨a, u, loc, rfl, rfl, hf, hl, .inr (.inr ⟨κ, w, h⟩)⟩
  open_loose := by
    rintro l p q ⟨a, u, loc, rfl, rfl, hf, hl, h⟩
    exact ⟨a, u, loc, rfl, rfl, hf, hl, .inl h⟩
  exists_ := by
    rintro l _ _ ⟨a, u, loc, rfl, rfl, hf, hl, h⟩
    obtain ⟨w, u', κ, h1, h2, h3⟩ := h.value
    obtain ⟨h4, h5⟩ := read_json (L := L) hl hf (fun _ _ v => .ok (!v.isNONE)) (fun _ v => .ok (!v.isNONE))
      (fun _ _ v => .ok (!v.isNONE))
    have e : u.exists_ = (.ok (!w.isNONE), u') := by unfold UPath.exists_; rw [h1]
    have e2 : (Path.ops L).exists_ (.base (.union u)) = (.ok (!w.isNONE), .base (.union u')) := by
      show (u.exists_.1, Path.base (.union u.exists_.2)) = _
      rw [e]
    rw [e2]
    refine ⟨!(walk D l).isNONE, h4, by rw [(value_ne h2).1], ⟨_, u', loc, rfl, rfl, h5, hl, .inr ⟨κ, w, h3, h2⟩⟩, fun hn => ?_⟩
    exact ⟨_, u', loc, rfl, rfl, h5, hl, .inr ⟨κ, w, h3, h2⟩, by simpa using hn⟩
  isNull := by
    rintro l _ _ ⟨a, u, loc, rfl, rfl, hf, hl, h, hn⟩
    obtain ⟨w, u', κ, h1, h2, h3⟩ := h.value
    obtain ⟨h4, h5⟩ := read_json (L := L) hl hf (fun _ _ v => .ok v.isNull) (fun _ v => .ok v.isNull)
      (fun _ _ v => .ok v.toVal.isNull)
    have e : u.isNull = (.ok (walk D l).isNull, u') := by
      unfold UPath.isNull
      rw [h1]
      cases h2 with
      | none h => rw [h]
      | join _ h => rw [h.plain.2.1]
    have e2 : (Path.ops L).isNull (.base (.union u)) = (.ok (walk D l).isNull, .base (.union u')) := by
      show (u.isNull.1, Path.base (.union u.isNull.2)) = _
      rw [e]
    rw [e2]
    exact ⟨_, h4, rfl, _, u', loc, rfl, rfl, h5, hl, .inr ⟨κ, w, h3, h2⟩, hn⟩
  value := by
    rintro l _ _ ⟨a, u, loc, rfl, rfl, hf, hl, h, hn⟩
    obtain ⟨w, u', κ, h1, h2, h3⟩ := h.value
    obtain ⟨h4, h5⟩ := read_json (L := L) hl hf (fun _ _ v => .ok v) (fun _ v => .ok v) (fun _ _ v => .ok v.toVal)
    have e : u.value = (.ok (UPath.toVal w), u') := by unfold UPath.value; rw [h1]
    have e2 : (Path.ops L).value (.base (.union u)) = (.ok (UPath.toVal w), .base (.union u')) := by
      show (u.value.1, Path.base (.union u.value.2)) = _
      rw [e]
    rw [e2]
    exact ⟨_, UPath.toVal w, h4, rfl, (value_ne h2).2, _, u', loc, rfl, rfl, h5, hl, .inr ⟨κ, w, h3, h2⟩, hn⟩
  primitive := by
    rintro l _ _ ty ht ⟨a, u, loc, rfl, rfl, hf, hl, h, hn⟩
    obtain ⟨w, u', κ, h1, h2, h3⟩ := h.value
    obtain ⟨h4, h5⟩ := read_json (L := L) hl hf (fun _ _ v => parseNative L ty v)
      (fun strict v => parseJson L strict ty v) (fun cfg ks v => SPath.cfgPrimitive L cfg ks ty v)
    have h4 : ((Path.ops L).primitive ty (.base (.simple a))).1 = parseJson L true ty (walk D l) := h4
    have e2 : (Path.ops L).primitive ty (.base (.union u)) = ((u.primitive L ty).1, .base (.union (u.primitive L ty).2)) := rfl
    rw [e2, h4]
    cases hD : parseJson L true ty (walk D l) with
    | ok x =>
      obtain ⟨u2, e, h6⟩ := h3.primitive h1 h2 ht hD
      rw [e]
      exact .inl ⟨x, rfl, rfl, _, u2, loc, rfl, rfl, h5, hl, .inr (.inr ⟨_, _, h6⟩)⟩
    | error x =>
      obtain ⟨e', he⟩ := h3.noPrimitive h1 h2 hn ht hD
      exact .inr ⟨x, e', rfl, he⟩
  mapping := by
    rintro l _ _ ⟨a, u, loc, rfl, rfl, hf, hl, h, hn⟩
    obtain ⟨w, u', κ, h1, h2, h3⟩ := h.value
    obtain ⟨h4, h5⟩ := read_json (L := L) hl hf (fun cfg ks v => defaultMapping cfg ks v) (fun _ v => jsonMapping v)
      (fun cfg _ v => cfgMapping L cfg v)
    have h4 : (SPath.mapping L a).1 = jsonMapping (walk D l) := h4
    have h5 : FineJson true loc D l (SPath.mapping L a).2 := h5
    rw [someKeys_union, someKeys_simple]
    dsimp only
    rw [h4]
    cases hx : jsonMapping (walk D l) with
    | error e =>
      obtain ⟨e', he⟩ := h3.noMapping (L := L) h1 h2 hx
      rw [he]
      exact .inr ⟨e, e', rfl, rfl⟩
    | ok x =>
      have hd : ∃ kvs, walk D l = .dict kvs ∧ x = { ks := kvs.map Prod.fst } := by
        generalize walk D l = v at hx
        unfold jsonMapping at hx
        split at hx
        · cases hx; exact ⟨_, rfl, rfl⟩
        · cases hx
      obtain ⟨kvs, hd, rfl⟩ := hd
      have key : ∃ u2, u.mapping L = (.ok { ks := kvs.map Prod.fst }, u2) ∧ UOpen D docs m sm l u2 ∧
          ∀ k ∈ kvs.map Prod.fst, IsKey D l k := by
        cases h2 with
        | none h => rw [hd] at h; cases h
        | join hi hm => exact h3.mapping h1 (.join hi hm) hd
      obtain ⟨u2, e, h6, h7⟩ := key
      rw [e]
      exact .inl ⟨_, rfl, rfl, ⟨⟨_, hd⟩, fun kv hkv => by cases hkv; exact h7⟩, _, u2, loc, rfl, rfl, h5, hl, h6⟩
  sequence := by
    rintro l _ _ ⟨a, u, loc, rfl, rfl, hf, hl, h, hn⟩
    obtain ⟨w, u', κ, h1, h2, h3⟩ := h.value
    obtain ⟨h4, h5⟩ := read_json (L := L) hl hf (fun _ _ v => defaultSequence v) (fun _ v => jsonSequence v)
      (fun _ _ v => cfgSequence L v)
    have h4 : ((Path.ops L).sequence (.base (.simple a))).1 = jsonSequence (walk D l) := h4
    have e2 : (Path.ops L).sequence (.base (.union u)) = ((u.sequence L).1, .base (.union (u.sequence L).2)) := rfl
    rw [e2, h4]
    cases hD : jsonSequence (walk D l) with
    | ok n =>
      have key : ∃ u2, u.sequence L = (.ok n, u2) ∧ UOpen D docs m sm l u2 ∧ ∀ j : Nat, j < n → IsKey D l (.int j) := by
        cases h2 with
        | none h => rw [h] at hD; cases hD
        | join hi hm => exact h3.sequence h1 (.join hi hm) hD
      obtain ⟨u2, e, h6, h7⟩ := key
      rw [e]
      exact .inl ⟨n, rfl, rfl, h7, _, u2, loc, rfl, rfl, h5, hl, h6⟩
    | error x =>
      obtain ⟨e', u2, e, h6, h7⟩ := h3.noSequence (L := L) h1 h2 hD
      rw [e]
      have hx : x.isSourceError = true := by
        unfold jsonSequence at hD
        split at hD <;> cases hD
        rfl
      exact .inr ⟨x, e', rfl, rfl, ⟨hx, h6⟩, _, u2, loc, rfl, rfl, h5, hl, h7, hn⟩
  hasSrc := by rintro l _ _ ⟨a, u, loc, rfl, rfl, hf, h⟩; exact ⟨rfl, rfl⟩
  append := by
    rintro l _ _ k hk ⟨a, u, loc, rfl, rfl, hf, hl, hb, κ, hκ, hkids, ho⟩
    obtain ⟨cfg, ⟨root, parts⟩, kids⟩ := u
    refine ⟨_, _, rfl, rfl, a.append k, _, loc, rfl, rfl, appended hf k, hl.snoc hk.ok, .inl
      ⟨⟨hb.merge, hb.mode, hb.sequences, hb.smode, hb.depth, hb.root⟩, κ, l, k, parts, kids, rfl, hκ, hk, ho, hkids, rfl, ?_⟩⟩
    show parts ++ [Part.ofKey k] = _
    unfold Part.ofKey
    rw [hk.ok]
    rfl
  pop := by
    rintro l _ _ k ⟨a, u, loc, rfl, rfl, hf, hl, h⟩
    obtain ⟨a', ha, hf'⟩ := popJson hf
    have e1 : (Path.ops L).pop (.base (.simple a)) = .ok (.base (.simple a')) := by
      simp only [Path.ops, BPath.pop, ha]
    obtain ⟨u', h1, h2⟩ := leave h
    have hl' := hl.init
    rw [List.dropLast_concat] at hl'
    refine ⟨_, .base (.union u'), e1, ?_, a', u', loc, rfl, rfl, hf', hl', h2⟩
    simp only [Path.ops, BPath.pop, h1]

end
end Mg
end Pilo
