import Verif.Merged
import Verif.Props.Lenient

/-!
# C107: a union of JSON documents is read as the merged document

`UnionSource([a, b, …])` of strict JSON documents (`pilo/source/union.py`).  Whatever form can be mapped without error from
the one document that `a`, `b`, … are together is mapped alike from the union, and whatever form can be mapped without
error from the union is mapped alike from the document.  The form may nest lists, tuples, dicts and
forms to any depth.
-/

namespace Pilo

/-- A form mapped without error from one source is mapped alike from another one that is read alike step by step. -/
theorem Follow.form {P : Type} {I : PathOps P} (X : Tread I) (W : LawfulPath I) {L : Lib} {C : Classes}
    (hC : Follow.Fitting C) {u : Unmapped} (hu : u = .str .ignore ∨ u = .str .none)
    (hm : Follow.Run (X.Open []) (X.Open []) (fun _ _ => X.Named []) (T.onPath I.mapping) (T.onPath I.mapping))
    (n id : Nat) (tags : List String) (reset raising : Bool) {p q : P} (hq : X.Open [] p q) {s : St P} (hl : Live s) :
    let A := Form.map I L C n id (.source (.ok p)) tags reset u raising s
    let B := Form.map I L C n id (.source (.ok q)) tags reset u raising s
    ∀ e, A.1 = .ok e → A.2.errors e = [] →
      ∃ e', B.1 = .ok e' ∧ B.2.errors e' = [] ∧ B.2.forms = A.2.forms ∧ B.2.stack = s.stack := by
  intro A B e he hes
  have hfree : C.All (ValueHooks True) := hC.all.imp fun _ h => h.1
  have hlex : C.All LexNode := hfree.imp fun _ h => h.lexNode
  have hulex : u.All LexNode := by rcases hu with rfl | rfl <;> exact .str
  have href := Ref.mapField (I := I) (L := L) hlex n
  have hA := RefE.formMap (I := I) hlex href id (.source (.ok p)) tags reset hulex raising s.env s.view s hl.agree
  have hB := RefE.formMap (I := I) hlex href id (.source (.ok q)) tags reset hulex raising s.env s.view s hl.agree
  have hbody : ∀ tags, Lax.Adding (Lex.formMapBody I C (Lex.mapField I L C n) id tags u) ∧
      Follow.Run (X.Open []) (X.Open []) Eq (Lex.formMapBody I C (Lex.mapField I L C n) id tags u)
        (Lex.formMapBody I C (Lex.mapField I L C n) id tags u) := fun tags =>
    ⟨(Closed.formMapBody (K := Lax.closed W L C) trivial (hC.fit W)
      (Closed.mapField (K := Lax.closed W L C) (hC.fit W) n) (id := id) trivial tags
      (by rcases hu with rfl | rfl <;> exact .str)).2.1,
      Follow.Run.formMapBody (Follow.RecRun.all X W hC n) hC W hm id tags hu⟩
  generalize hfm : Lex.mapField I L C n = fld at hA hB hbody
  generalize hbd : s.view = τ at hA hB
  generalize s.env = env at hA hB
  -- the lexical runs
  have key : ∀ τ', Lex.formMap I C fld id (.source (.ok p)) tags reset u raising env τ = (.ok [], τ') →
      ∃ σ', Lex.formMap I C fld id (.source (.ok q)) tags reset u raising env τ = (.ok [], σ') ∧
        τ'.forms = σ'.forms := by
    intro τ' h
    unfold Lex.formMap at h ⊢
    have e0 : (T.ctxGet? Env.tags : T P _) env τ = (.ok env.tags, τ) := rfl
    rw [T.bind_ok e0] at h ⊢
    rcases h1 : (Lex.formResetIf C id (pickTags tags env.tags) reset : T P Unit) env τ with ⟨x, τ1⟩
    cases x with
    | error x => rw [T.bind_error h1] at h; cases h
    | ok _ =>
      rw [T.bind_ok h1] at h ⊢
      rcases h2 : (T.ctxGet Env.src "src" : T P _) env τ1 with ⟨x, τ2⟩
      cases x with
      | error x => rw [T.bind_error h2] at h; cases h
      | ok c =>
        rw [T.bind_ok h2] at h ⊢
        have e3 : ∀ p, Lex.formMapAt I C fld id (.source (.ok p)) (pickTags tags env.tags) u raising c =
            (T.withErrs raising (T.withSource (.ok p) (Lex.formMapBody I C fld id (pickTags tags env.tags) u)) >>=
              fun x => T.pure x.2 : T P (List Err)) := fun p => rfl
        rw [e3] at h ⊢
        rcases h3 : T.withErrs raising (T.withSource (.ok p) (Lex.formMapBody I C fld id (pickTags tags env.tags) u))
          env τ2 with ⟨x, τ3⟩
        cases x with
        | error x =>
          rw [T.bind_error (T.bind_error h3)] at h; cases h
        | ok x =>
          obtain ⟨a, es⟩ := x
          have hes : es = [] ∧ τ' = τ3 := by
            rw [T.bind_ok (T.bind_ok h3)] at h
            unfold Lex.formFinish at h
            cases raising with
            | false => cases h; exact ⟨rfl, rfl⟩
            | true =>
              cases es with
              | nil => cases h; exact ⟨rfl, rfl⟩
              | cons _ _ => cases h
          obtain ⟨rfl, rfl⟩ := hes
          obtain ⟨a', σ', h4, -, h5⟩ := Follow.Run.start hq (hbody (pickTags tags env.tags)).2 (σ := τ2) rfl h3
            (hbody (pickTags tags env.tags)).1
          refine ⟨σ', ?_, h5⟩
          rw [T.bind_ok (T.bind_ok h4)]
          unfold Lex.formFinish
          cases raising <;> rfl
  have hra := hA.res
  have hrb := hB.res
  have hfa := hA.agree.forms
  have hfb := hB.agree.forms
  rcases hX : Lex.formMap I C fld id (.source (.ok p)) tags reset u raising env τ with ⟨x, τ'⟩
  rcases hY : Lex.formMap I C fld id (.source (.ok q)) tags reset u raising env τ with ⟨y, σ'⟩
  rw [hX] at hra hfa
  rw [hY] at hrb hfb
  have he : (formMap I C (mapField I L C n) id (.source (.ok p)) tags reset u raising s).1 = .ok e := he
  rw [he] at hra
  cases x with
  | error x => exact hra.elim
  | ok es =>
    have hra : A.2.errors e = es := hra
    rw [hes] at hra
    subst hra
    obtain ⟨σ2, h1, h2⟩ := key τ' hX
    rw [hY] at h1
    cases h1
    rcases hb1 : (formMap I C (mapField I L C n) id (.source (.ok q)) tags reset u raising s).1 with y | e'
    · rw [hb1] at hrb; exact hrb.elim
    · rw [hb1] at hrb
      exact ⟨e', hb1, hrb, hfb.trans (h2.symm.trans hfa.symm), hB.fr.stack⟩

section
variable {L : Lib} {D : Val} {docs : List Val} {m sm : Merge}

/-- `mapping()` at the root. -/
theorem Mg.rootMapping {kvs : List (Val × Val)} (hD : D = .dict kvs) {p q : Path} (h : (Mg.pace L D docs m sm).Open [] p q) :
    (∃ x, ((Path.ops L).mapping p).1 = .ok x) ∧ (∃ y, ((Path.ops L).mapping q).1 = .ok y) ∧ (Mg.pace L D docs m sm).Named [] ∧
      (Mg.pace L D docs m sm).Open [] ((Path.ops L).mapping p).2 ((Path.ops L).mapping q).2 := by
  obtain ⟨a, u, loc, rfl, rfl, hf, hl, h⟩ := h
  obtain ⟨h4, h5⟩ := Mg.read_json (L := L) hl hf (fun cfg ks v => defaultMapping cfg ks v) (fun _ v => jsonMapping v)
    (fun cfg _ v => cfgMapping L cfg v)
  have h5 : FineJson true loc D [] (SPath.mapping L a).2 := h5
  obtain ⟨hb, κ, hκ, hkids, hp⟩ := h
  have hroot := hb.root
  obtain ⟨cfg, ⟨root, parts⟩, kids⟩ := u
  dsimp only at hp hroot
  have hp0 : parts = [] := by
    generalize hl : ([] : List Val) = l at hp
    cases hp with
    | nil => rfl
    | snoc _ _ _ => simp at hl
  subst hp0
  rw [Mg.someKeys_union, Mg.someKeys_simple]
  have hw : Mg.walk D [] = .dict kvs := hD
  cases hroot with
  | seq hi hD' _ _ => rw [hw] at hD'; cases hD'
  | @mapping cs kvs' kk hi hD' hk hm =>
    have e : UPath.mapping L ⟨cfg, ⟨.mapping (cs.map fun i => (i, (Mg.at_ docs (fun _ => []) i).dictKeys)), []⟩, kids⟩ =
      (.ok { ks := UPath.mappingKeys (cs.map fun i => (i, (Mg.at_ docs (fun _ => []) i).dictKeys)) },
        ⟨cfg, ⟨.mapping (cs.map fun i => (i, (Mg.at_ docs (fun _ => []) i).dictKeys)), []⟩, kids⟩) := rfl
    rw [e]
    have h4 : (SPath.mapping L a).1 = jsonMapping (Mg.walk D []) := h4
    rw [hw] at h4
    dsimp only
    rw [h4]
    exact ⟨⟨_, rfl⟩, ⟨_, rfl⟩, ⟨_, hw⟩, _, _, loc, rfl, rfl, h5, hl, hb, κ, hκ, hkids, .nil⟩

theorem Mg.rootRun {kvs : List (Val × Val)} (hD : D = .dict kvs) :
    Follow.Run ((Mg.pace L D docs m sm).Open []) ((Mg.pace L D docs m sm).Open []) (fun _ _ => (Mg.pace L D docs m sm).Named [])
      (T.onPath (Path.ops L).mapping) (T.onPath (Path.ops L).mapping) := by
  refine .read fun {p q x} h _ => ?_
  obtain ⟨-, ⟨y, h2⟩, h3, h4⟩ := Mg.rootMapping hD h
  exact ⟨y, h2, h3, h4⟩

theorem Mg.rootBack {kvs : List (Val × Val)} (hD : D = .dict kvs) :
    Follow.Run ((Mg.pace L D docs m sm).back.Open []) ((Mg.pace L D docs m sm).back.Open [])
      (fun _ _ => (Mg.pace L D docs m sm).back.Named []) (T.onPath (Path.ops L).mapping) (T.onPath (Path.ops L).mapping) := by
  refine .read fun {p q x} h _ => ?_
  obtain ⟨⟨y, h2⟩, -, h3, h4⟩ := Mg.rootMapping hD h
  exact ⟨y, h2, h3, h4⟩

/-- The path of a strict JSON document. -/
def strictPath (loc : Option String) (v : Val) : SPath := .json true loc { root := v, parts := [] }

theorem Mg.fine (loc : Option String) (v : Val) : FineJson true loc v [] (strictPath loc v) := ⟨_, rfl, PathSt.Fine.init v⟩

/-- The path of a union of strict documents that are mappings. -/
theorem Mg.root {kvs : List (Val × Val)} {dd : List (Option String × List (Val × Val))} {cfg : UnionCfg}
    (hmode : m ≠ .bad) (hsm : sm ≠ .bad)
    (hcfg : cfg.mappingMerge = m ∧ cfg.sequenceMerge = sm ∧ cfg.mergeDepth = none)
    (hne : dd ≠ []) (hM : TogetherDict m sm kvs (dd.map Prod.snd)) (loc : Option String) :
    ∃ u, UPath.mk' L cfg (dd.map fun d => strictPath d.1 (.dict d.2)) = .ok u ∧
      (Mg.pace L (.dict kvs) (dd.map fun d => .dict d.2) m sm).Open [] (.base (.simple (strictPath loc (.dict kvs))))
        (.base (.union u)) := by
  have hkids : Mg.Kids (dd.map fun d => Val.dict d.2) (fun _ => []) (dd.map fun d => strictPath d.1 (.dict d.2)) := by
    refine ⟨by simp, fun i p hp => ?_⟩
    rw [List.getElem?_map] at hp
    cases hi : dd[i]? with
    | none => rw [hi] at hp; cases hp
    | some d =>
      rw [hi] at hp
      cases hp
      refine ⟨d.1, ?_⟩
      have : (dd.map fun d => Val.dict d.2).getD i .NONE = .dict d.2 := by
        rw [List.getD_eq_getElem?_getD, List.getElem?_map, hi]; rfl
      rw [this]
      exact Mg.fine _ _
  have hat : (List.range dd.length).map (Mg.at_ (dd.map fun d => Val.dict d.2) fun _ => []) =
      (dd.map Prod.snd).map Val.dict := by
    apply List.ext_getElem
    · simp
    · intro i h1 h2
      simp [Mg.at_, Mg.walk]
      have : i < dd.length := by simpa using h1
      rw [List.getElem?_eq_getElem this]; rfl
  have hdict : ∀ i ∈ List.range dd.length, i < (dd.map fun d => Val.dict d.2).length ∧
      ∃ d, Mg.at_ (dd.map fun d => Val.dict d.2) (fun _ => []) i = .dict d := by
    intro i hi
    refine ⟨by simpa using hi, ?_⟩
    have : Mg.at_ (dd.map fun d => Val.dict d.2) (fun _ => []) i ∈ (dd.map Prod.snd).map Val.dict := by
      rw [← hat]; exact List.mem_map_of_mem hi
    obtain ⟨d, -, hd⟩ := List.mem_map.1 this
    exact ⟨d, hd.symm⟩
  obtain ⟨kids', h1, h2⟩ := Mg.mappingLoop_all (L := L) (mode := .combine) (κ := fun _ => []) (fun _ => rfl) (by decide)
    (cs := List.range dd.length) (by simpa using hne) hkids hdict
  have h1 : mappingLoop L .combine (List.range dd.length) [] (dd.map fun d => strictPath d.1 (.dict d.2)) =
    (.ok ((List.range dd.length).map fun i => (i, (Mg.at_ (dd.map fun d => Val.dict d.2) (fun _ => []) i).dictKeys)), kids') := h1
  refine ⟨⟨cfg, ⟨.mapping ((List.range dd.length).map fun i =>
    (i, (Mg.at_ (dd.map fun d => Val.dict d.2) (fun _ => []) i).dictKeys)), []⟩, kids'⟩, ?_, _, _, loc, rfl, rfl, Mg.fine _ _, rfl,
    ⟨hcfg.1, hmode, hcfg.2.1, hsm, hcfg.2.2, ?_⟩, fun _ => [], ⟨fun _ => rfl, fun _ => rfl⟩, h2, .nil⟩
  · unfold UPath.mk' mkMapping mappingMode
    rw [if_neg (by simpa using hne)]
    dsimp only
    rw [if_neg (by decide), List.length_map, h1]
  · exact .mapping (fun i hi => (hdict i hi).1) rfl hat hM

variable {C : Classes}

/-- C107.  Let `kvs` be what the mappings `dd` are together, with `mapping_merge` for the mappings in them and
`sequence_merge` for the lists in them.  The union of the documents `dd` can be made, and `form.map(JsonSource(kvs, strict=True))` ends normally
without errors if and only if `form.map` of the union in the same context does; then both leave the same forms.

Missing, because the code does not do it (see the end of this file): documents with `null`s, names with dots, `Decimal` and
other fields that look at `path.value`; fields with other hooks than functions of the value, and the errors of data that is refused, are not compared.  -/
theorem C107_merged_partial (hC : Follow.Fitting C) {u : Unmapped} (hu : u = .str .ignore ∨ u = .str .none)
    (hmode : m ≠ .bad) (hsm : sm ≠ .bad) {kvs : List (Val × Val)} {dd : List (Option String × List (Val × Val))}
    (hne : dd ≠ []) (hM : TogetherDict m sm kvs (dd.map Prod.snd)) (loc : Option String) (n id : Nat) (tags : List String)
    (reset raising : Bool) {s : St Path} (hl : Live s) :
    ∃ q, UPath.mk' L { mappingMerge := m, sequenceMerge := sm }
        (dd.map fun d => SPath.json true d.1 { root := .dict d.2, parts := [] }) = .ok q ∧
      let I := Path.ops L
      let A := Form.map I L C n id (.source (.ok (.base (.simple (.json true loc { root := .dict kvs, parts := [] }))))) tags
        reset u raising s
      let B := Form.map I L C n id (.source (.ok (.base (.union q)))) tags reset u raising s
      (∀ e, A.1 = .ok e → A.2.errors e = [] →
        ∃ e', B.1 = .ok e' ∧ B.2.errors e' = [] ∧ B.2.forms = A.2.forms ∧ B.2.stack = s.stack) ∧
      ∀ e', B.1 = .ok e' → B.2.errors e' = [] →
        ∃ e, A.1 = .ok e ∧ A.2.errors e = [] ∧ A.2.forms = B.2.forms ∧ A.2.stack = s.stack := by
  obtain ⟨q, h1, h2⟩ := Mg.root (L := L) (cfg := { mappingMerge := m, sequenceMerge := sm }) hmode hsm
    ⟨rfl, rfl, rfl⟩ hne hM loc
  exact ⟨q, h1, Follow.form (Mg.pace L _ _ m sm).fwd (Path.lawful L) hC hu (Mg.rootRun rfl) n id tags reset raising h2 hl,
    Follow.form (Mg.pace L _ _ m sm).back (Path.lawful L) hC hu (Mg.rootBack rfl) n id tags reset raising h2 hl⟩

end

theorem Mg.get_mem {kvs : List (Val × Val)} (hk : ∀ kv ∈ kvs, ∃ s, kv.1 = Val.str s) {k v : Val}
    (h : dictGet? kvs k = some v) : (k, v) ∈ kvs := by
  unfold dictGet? at h
  cases hf : kvs.find? (fun p => k.pyEq p.1) with
  | none => rw [hf] at h; cases h
  | some kv =>
    rw [hf] at h
    cases h
    have h1 := List.mem_of_find?_eq_some hf
    have h2 := List.find?_some hf
    obtain ⟨s, hs⟩ := hk kv h1
    rw [hs, pyEq_str_left] at h2
    rw [h2, ← hs]
    exact h1

namespace Demo

/-- `{"lines": [{"sku": "ab", "qty": 3}], "counts": {"x": 1}}`. -/
def partA : List (Val × Val) := [(.str "lines", .list [.dict lineData]), (.str "counts", .dict [(.str "x", .int 1)])]

/-- `{"sku": "cd", "qty": 1}`. -/
def lineMore : List (Val × Val) := [(.str "sku", .str "cd"), (.str "qty", .int 1)]

/-- `{"counts": {"x": 5, "y": 2}, "lines": [{"sku": "cd", "qty": 1}], "gift": true}`. -/
def partB : List (Val × Val) :=
  [(.str "counts", .dict [(.str "x", .int 5), (.str "y", .int 2)]), (.str "lines", .list [.dict lineMore]), (.str "gift", .bool true)]

/-- `{"lines": [{"sku": "ab", "qty": 3}, {"sku": "cd", "qty": 1}], "counts": {"x": 1, "y": 2}, "gift": true}`. -/
def bothParts : List (Val × Val) :=
  [(.str "lines", .list [.dict lineData, .dict lineMore]), (.str "counts", .dict [(.str "x", .int 1), (.str "y", .int 2)]),
    (.str "gift", .bool true)]

theorem line_together : Together .combine .combine (.dict lineData) [.dict lineData] := by
  refine Together.dict (dd := [lineData]) (by simp) (by decide +kernel) ?_ ?_
  · intro d hd kv hkv
    simp only [keptOf, List.mem_singleton] at hd
    subst hd
    simp only [lineData, List.mem_cons, List.not_mem_nil, or_false] at hkv
    rcases hkv with rfl | rfl <;> exact ⟨_, rfl, by decide +kernel⟩
  · intro k v h
    have := Mg.get_mem (by
      intro kv hkv
      simp only [lineData, List.mem_cons, List.not_mem_nil, or_false] at hkv
      rcases hkv with rfl | rfl <;> exact ⟨_, rfl⟩) h
    simp only [lineData, List.mem_cons, List.not_mem_nil, or_false, Prod.mk.injEq] at this
    rcases this with ⟨rfl, rfl⟩ | ⟨rfl, rfl⟩ <;> exact .leaf rfl

theorem more_together : Together .combine .combine (.dict lineMore) [.dict lineMore] := by
  refine Together.dict (dd := [lineMore]) (by simp) (by decide +kernel) ?_ ?_
  · intro d hd kv hkv
    simp only [keptOf, List.mem_singleton] at hd
    subst hd
    simp only [lineMore, List.mem_cons, List.not_mem_nil, or_false] at hkv
    rcases hkv with rfl | rfl <;> exact ⟨_, rfl, by decide +kernel⟩
  · intro k v h
    have := Mg.get_mem (by
      intro kv hkv
      simp only [lineMore, List.mem_cons, List.not_mem_nil, or_false] at hkv
      rcases hkv with rfl | rfl <;> exact ⟨_, rfl⟩) h
    simp only [lineMore, List.mem_cons, List.not_mem_nil, or_false, Prod.mk.injEq] at this
    rcases this with ⟨rfl, rfl⟩ | ⟨rfl, rfl⟩ <;> exact .leaf rfl

theorem counts_together : Together .combine .combine (.dict [(.str "x", .int 1), (.str "y", .int 2)])
    [.dict [(.str "x", .int 1)], .dict [(.str "x", .int 5), (.str "y", .int 2)]] := by
  refine Together.dict (dd := [[(.str "x", .int 1)], [(.str "x", .int 5), (.str "y", .int 2)]]) (by simp)
    (by decide +kernel) ?_ ?_
  · intro d hd kv hkv
    simp only [keptOf, List.mem_cons, List.not_mem_nil, or_false] at hd
    rcases hd with rfl | rfl <;> simp only [List.mem_cons, List.not_mem_nil, or_false] at hkv
    · subst hkv; exact ⟨_, rfl, by decide +kernel⟩
    · rcases hkv with rfl | rfl <;> exact ⟨_, rfl, by decide +kernel⟩
  · intro k v h
    have := Mg.get_mem (by
      intro kv hkv
      simp only [List.mem_cons, List.not_mem_nil, or_false] at hkv
      rcases hkv with rfl | rfl <;> exact ⟨_, rfl⟩) h
    simp only [List.mem_cons, List.not_mem_nil, or_false, Prod.mk.injEq] at this
    rcases this with ⟨rfl, rfl⟩ | ⟨rfl, rfl⟩ <;> exact .leaf rfl

theorem parts_together : TogetherDict .combine .combine bothParts [partA, partB] where
  keys := by decide +kernel
  names := by
    intro d hd kv hkv
    simp only [List.mem_cons, List.not_mem_nil, or_false] at hd
    rcases hd with rfl | rfl <;> simp only [partA, partB, List.mem_cons, List.not_mem_nil, or_false] at hkv
    · rcases hkv with rfl | rfl <;> exact ⟨_, rfl, by decide +kernel⟩
    · rcases hkv with rfl | rfl | rfl <;> exact ⟨_, rfl, by decide +kernel⟩
  vals := by
    intro k v h
    have := Mg.get_mem (by
      intro kv hkv
      simp only [bothParts, List.mem_cons, List.not_mem_nil, or_false] at hkv
      rcases hkv with rfl | rfl | rfl <;> exact ⟨_, rfl⟩) h
    simp only [bothParts, List.mem_cons, List.not_mem_nil, or_false, Prod.mk.injEq] at this
    rcases this with ⟨rfl, rfl⟩ | ⟨rfl, rfl⟩ | ⟨rfl, rfl⟩
    · refine Together.list (ll := [[.dict lineData], [.dict lineMore]]) (by simp) fun x hx => ?_
      simp only [keptOf, List.flatten_cons, List.flatten_nil, List.append_nil, List.mem_append, List.mem_singleton] at hx
      rcases hx with rfl | rfl
      · exact line_together
      · exact more_together
    · exact counts_together
    · exact .leaf rfl

theorem orders_fitting : Follow.Fitting orders where
  all := by
    intro cls f hf
    match cls with
    | 0 =>
      simp only [orders, classLine, List.mem_cons, List.not_mem_nil, or_false] at hf
      rcases hf with rfl | rfl
      · exact .mk ⟨(undecorated (by intro _ _ _ _ _ h; cases h)).1.calm, trivial⟩ .string
      · exact .mk ⟨(undecorated (by intro _ _ _ _ _ h; cases h)).1.calm, trivial⟩ .integer
    | 1 =>
      simp only [orders, classOrder, List.mem_cons, List.not_mem_nil, or_false] at hf
      rcases hf with rfl | rfl | rfl | rfl
      · exact .mk ⟨(undecorated (by intro _ _ _ _ _ h; cases h)).1.calm, rfl⟩
          (.list (.mk ⟨(undecorated' (by intro _ _ _ _ _ h; cases h)).1.calm, .inl rfl⟩ (.subform .str)))
      · exact .mk ⟨HookFree.calm ⟨.inr ⟨_, rfl⟩, rfl, rfl, rfl, rfl, rfl, rfl, by intro _ _ _ _ _ h; cases h⟩, trivial⟩ .string
      · exact .mk ⟨(undecorated (by intro _ _ _ _ _ h; cases h)).1.calm, rfl, rfl⟩
          (.dict (.mk ⟨(undecorated' (by intro _ _ _ _ _ h; cases h)).1.calm, trivial⟩ .string)
            (.mk ⟨(undecorated' (by intro _ _ _ _ _ h; cases h)).1.calm, trivial⟩ .integer))
      · exact .mk ⟨HookFree.calm ⟨.inl rfl, rfl, rfl, rfl, rfl, rfl, rfl, by intro _ _ _ _ _ h; cases h⟩, trivial⟩ .boolean
    | n + 2 => simp [orders] at hf
  src := by
    intro cls f hf
    match cls with
    | 0 =>
      simp only [orders, classLine, List.mem_cons, List.not_mem_nil, or_false] at hf
      rcases hf with rfl | rfl <;> exact ⟨_, rfl, by decide +kernel⟩
    | 1 =>
      simp only [orders, classOrder, List.mem_cons, List.not_mem_nil, or_false] at hf
      rcases hf with rfl | rfl | rfl | rfl <;> exact ⟨_, rfl, by decide +kernel⟩
    | n + 2 => simp [orders] at hf

/-- The form mapped from `v`. -/
def fromDoc (C : Classes) (v : Val) : Except Exc Nat × St Path :=
  Form.map (Path.ops lib) lib C 6 0 (.source (.ok (.base (.simple (.json true none { root := v, parts := [] }))))) [] false
    (.str .ignore) false (holding 1 [])

/-- The form mapped from the union of `vs`. -/
def fromUnion (C : Classes) (cfg : UnionCfg) (vs : List Val) : Except Exc Nat × St Path :=
  match UPath.mk' lib cfg (vs.map fun v => .json true none { root := v, parts := [] }) with
  | .ok q => Form.map (Path.ops lib) lib C 6 0 (.source (.ok (.base (.union q)))) [] false (.str .ignore) false (holding 1 [])
  | .error e => (.error e, holding 1 [])

/-- The two parts of the order, as a union, leave what the whole order leaves. -/
example : ∃ q, UPath.mk' lib { mappingMerge := .combine, sequenceMerge := .combine }
      [.json true none { root := .dict partA, parts := [] }, .json true none { root := .dict partB, parts := [] }] = .ok q ∧
    let A := Form.map (Path.ops lib) lib orders 6 0 (.source (.ok (.base (.simple
      (.json true none { root := .dict bothParts, parts := [] }))))) [] false (.str .ignore) false (holding 1 [])
    let B := Form.map (Path.ops lib) lib orders 6 0 (.source (.ok (.base (.union q)))) [] false (.str .ignore) false
      (holding 1 [])
    ∃ e', B.1 = .ok e' ∧ B.2.errors e' = [] ∧ B.2.forms = A.2.forms ∧ B.2.stack = [rootFrame] := by
  have hA : (fromDoc orders (.dict bothParts)).1 = .ok 0 ∧ (fromDoc orders (.dict bothParts)).2.errors 0 = [] := by
    decide +kernel
  obtain ⟨q, h1, h2⟩ := C107_merged_partial (L := lib) (C := orders) orders_fitting (u := .str .ignore) (.inl rfl)
    (m := .combine) (sm := .combine) (by decide) (by decide) (kvs := bothParts) (dd := [(none, partA), (none, partB)]) (by simp) parts_together none 6 0 []
    false false (holding_live 1 [])
  exact ⟨q, h1, h2.1 0 hA.1 hA.2⟩

/-- That is a form with both lines and both counts. -/
example : (fromDoc orders (.dict bothParts)).2.forms.map FormObj.items =
    [[(.str "lines", .list [.form 1, .form 2]), (.str "counts", .dict [(.str "x", .int 1), (.str "y", .int 2)]),
      (.str "gift", .bool true)], [(.str "sku", .str "ab"), (.str "qty", .int 3)],
      [(.str "sku", .str "cd"), (.str "qty", .int 1)]] := by decide +kernel

/-- `{"gift": true}`, which is no order: the lines are missing. -/
theorem gift_together : TogetherDict .combine .combine [(.str "gift", .bool true)] [[(.str "gift", .bool true)], []] where
  keys := by decide +kernel
  names := by
    intro d hd kv hkv
    simp only [List.mem_cons, List.not_mem_nil, or_false] at hd
    rcases hd with rfl | rfl <;> simp only [List.mem_cons, List.not_mem_nil, or_false] at hkv
    subst hkv; exact ⟨_, rfl, by decide +kernel⟩
  vals := by
    intro k v h
    have := Mg.get_mem (by
      intro kv hkv
      simp only [List.mem_cons, List.not_mem_nil, or_false] at hkv
      subst hkv; exact ⟨_, rfl⟩) h
    simp only [List.mem_cons, List.not_mem_nil, or_false, Prod.mk.injEq] at this
    obtain ⟨rfl, rfl⟩ := this
    exact .leaf rfl

/-- What is refused as a document is refused as a union. -/
example : ∃ q, UPath.mk' lib { mappingMerge := .combine, sequenceMerge := .combine }
      [.json true none { root := .dict [(.str "gift", .bool true)], parts := [] },
        .json true none { root := .dict [], parts := [] }] = .ok q ∧
    let B := Form.map (Path.ops lib) lib orders 6 0 (.source (.ok (.base (.union q)))) [] false (.str .ignore) false
      (holding 1 [])
    ∀ e', B.1 = .ok e' → B.2.errors e' ≠ [] := by
  have hA : (fromDoc orders (.dict [(.str "gift", .bool true)])).1 = .ok 0 ∧
      (fromDoc orders (.dict [(.str "gift", .bool true)])).2.errors 0 ≠ [] := by decide +kernel
  obtain ⟨q, h1, h2⟩ := C107_merged_partial (L := lib) (C := orders) orders_fitting (u := .str .ignore) (.inl rfl)
    (m := .combine) (sm := .combine) (by decide) (by decide) (kvs := [(.str "gift", .bool true)]) (dd := [(none, [(.str "gift", .bool true)]), (none, [])])
    (by simp) gift_together none 6 0 [] false false (holding_live 1 [])
  refine ⟨q, h1, fun e' he hes => ?_⟩
  obtain ⟨e, h3, h4, -⟩ := h2.2 e' he hes
  have h5 : (fromDoc orders (.dict [(.str "gift", .bool true)])).1 = .ok e := h3
  rw [hA.1] at h5
  cases h5
  exact hA.2 h4

/-! ### Where it ends -/

/-- A form with one field. -/
def oneField (f : Field) : Classes
  | 1 => { fields := [f] }
  | _ => { fields := [] }

/-- The errors, if `map` returns them, and the entries. -/
def outcome (r : Except Exc Nat × St Path) : Option (List ErrKind) × List (List (Val × Val)) :=
  (match r.1 with
    | .ok e => some ((r.2.errors e).map Err.kind)
    | .error _ => none, r.2.forms.map FormObj.items)

/-- `null` is no null in a union: a nullable string cannot be read. -/
theorem C107_null :
    let C := oneField (.mk { name := some "a", src := .str "a", nullable := .bool true } (.string {}))
    let v := Val.dict [(.str "a", .none)]
    outcome (fromDoc C v) = (some [], [[(.str "a", .none)]]) ∧
      (outcome (fromUnion C { mappingMerge := .combine } [v])).1 ≠ some [] := by decide +kernel

/-- A name with dots reaches below a mapping in a document, not in a union. -/
theorem C107_dots :
    let C := oneField (.mk { name := some "a", src := .str "a.b" } (.string {}))
    let v := Val.dict [(.str "a", .dict [(.str "b", .str "x")])]
    outcome (fromDoc C v) = (some [], [[(.str "a", .str "x")]]) ∧
      (outcome (fromUnion C { mappingMerge := .combine } [v])).1 ≠ some [] := by decide +kernel

/-- A `Decimal` reads a number from a document, not from a union. -/
theorem C107_decimal :
    let C := oneField (field "a" (.decimal {}))
    let v := Val.dict [(.str "a", .int 2)]
    outcome (fromDoc C v) = (some [], [[(.str "a", .decimal (.fin 2))]]) ∧
      (outcome (fromUnion C { mappingMerge := .combine } [v])).1 ≠ some [] := by decide +kernel

end Demo
end Pilo
