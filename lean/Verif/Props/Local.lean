import Verif.Props.PositionalDemo

/-!
# C59: mapping depends on the data under the declared keys only
-/

namespace Pilo
open Positional Twin
variable {L : Lib} {C : Classes}

/-- The keys at which a native mapping is looked at for the `src` `k`: `k` itself, and what comes before a dot or
before a call. -/
def Consults (k p : String) : Prop :=
  p = k ∨ ∃ c rest, k.toList = p.toList ++ c :: rest ∧ (c = '.' ∨ c = '(')

/-- The two mappings have the same at every key that is looked at for `k`. -/
def AgreeFor (k : String) (d d' : List (Val × Val)) : Prop :=
  ∀ p, Consults k p → dictGet? d (.str p) = dictGet? d' (.str p)

theorem AgreeFor.call {k t : String} {d d' : List (Val × Val)} (h : AgreeFor k d d')
    (e : k.toList = t.toList ++ ['(', ')']) : AgreeFor t d d' := by
  intro p hp
  rcases hp with rfl | ⟨c, rest, h1, h2⟩
  · exact h _ (.inr ⟨'(', [')'], e, .inr rfl⟩)
  · exact h _ (.inr ⟨c, rest ++ ['(', ')'], by rw [e, h1]; simp, h2⟩)

theorem splitDots_head (cs : List Char) : ∃ w ws, splitDots cs = w :: ws ∧ (w = cs ∨ ∃ rest, cs = w ++ '.' :: rest) := by
  induction cs with
  | nil => exact ⟨[], [], rfl, .inl rfl⟩
  | cons c cs ih =>
    obtain ⟨w, ws, h1, h2⟩ := ih
    unfold splitDots
    by_cases hc : c = '.'
    · rw [if_pos hc]
      exact ⟨[], _, rfl, .inr ⟨cs, by rw [hc]; rfl⟩⟩
    · rw [if_neg hc, h1]
      refine ⟨c :: w, ws, rfl, ?_⟩
      rcases h2 with rfl | ⟨rest, rfl⟩
      · exact .inl rfl
      · exact .inr ⟨rest, rfl⟩

theorem resolveAtom_agree {ks : List Val} {d d' : List (Val × Val)} {a : String}
    (h : dictGet? d (.str a) = dictGet? d' (.str a)) (hat : L.attrs (.dict d) a = L.attrs (.dict d') a) :
    resolveAtom L {} ks (.dict d) (.str a) = resolveAtom L {} ks (.dict d') (.str a) := by
  have h1 : asItem (.dict d) (.str a) = asItem (.dict d') (.str a) := by
    unfold asItem getItem
    simp only [Val.hashable, h]
  have h2 : asAttr L (.dict d) (.str a) = asAttr L (.dict d') (.str a) := by
    unfold asAttr pyGetAttr
    dsimp only
    rw [hat]
  unfold resolveAtom
  rw [h1, h2]
  rfl

theorem resolve_agree {ks : List Val} {d d' : List (Val × Val)} (hat : ∀ a, L.attrs (.dict d) a = L.attrs (.dict d') a)
    {k : String} (h : AgreeFor k d d') :
    resolveDefault L {} ks (.dict d) (.str k) = resolveDefault L {} ks (.dict d') (.str k) := by
  have hplain : ∀ s : String, AgreeFor s d d' → resolvePlain L {} ks (.dict d) s = resolvePlain L {} ks (.dict d') s := by
    intro s hs
    have h1 := resolveAtom_agree (L := L) (ks := ks) (hs s (.inl rfl)) (hat s)
    have h2 : resolveAtoms L {} ks (.dict d) (dotSplit s) = resolveAtoms L {} ks (.dict d') (dotSplit s) := by
      obtain ⟨w, ws, h3, h4⟩ := splitDots_head s.toList
      have h5 : Consults s (String.ofList w) := by
        rcases h4 with rfl | ⟨rest, h4⟩
        · left; rw [String.ofList_toList]
        · exact .inr ⟨'.', rest, by rw [String.toList_ofList]; exact h4, .inl rfl⟩
      unfold dotSplit
      rw [h3]
      simp only [List.map_cons, resolveAtoms]
      rw [resolveAtom_agree (hs _ h5) (hat _)]
    unfold resolvePlain
    rw [h1, h2]
  have hrev : ∀ (m : Nat) (cs : List Char), cs.length ≤ m → AgreeFor (String.ofList cs.reverse) d d' →
      resolveRev L {} ks (.dict d) cs = resolveRev L {} ks (.dict d') cs := by
    intro m
    induction m with
    | zero =>
      intro cs hm hs
      have : cs = [] := List.length_eq_zero_iff.1 (by omega)
      subst this
      rw [resolveRev.eq_2 _ _ _ _ _ (by intro r e; cases e), resolveRev.eq_2 _ _ _ _ _ (by intro r e; cases e), hplain _ hs]
    | succ m ih =>
      intro cs hm hs
      by_cases hc : ∃ rest, cs = ')' :: '(' :: rest
      · obtain ⟨rest, rfl⟩ := hc
        rw [resolveRev.eq_1, resolveRev.eq_1, ih rest (by simp only [List.length_cons] at hm; omega) (hs.call (by simp))]
      · have hc' : ∀ rest, cs = ')' :: '(' :: rest → False := fun rest e => hc ⟨rest, e⟩
        rw [resolveRev.eq_2 _ _ _ _ _ hc', resolveRev.eq_2 _ _ _ _ _ hc', hplain _ hs]
  unfold resolveDefault
  exact hrev _ k.toList.reverse (Nat.le_refl _) (by rw [List.reverse_reverse, String.ofList_toList]; exact h)

/-- C59. A form of classes whose hooks are functions of the value is mapped from two dictionaries which have the same at the keys that are looked
at for the `src` of the declared, selected fields: the forms end up the same, with the same errors and exceptions.
Nothing is asked of the other keys, of the order of the keys, or of what dictionaries and their values look like
below.  (`attrs`: the two dictionaries have the same attributes, as instances of one class do.)

`unmapped` capturing, groups and fields without a `src` of their own look at all keys and are not covered. -/
theorem C59_local (hC : C.All (ValueHooks True)) (n id : Nat) (tags : List String) (reset raising : Bool) {cls : Nat}
    {d d' : List (Val × Val)} (hat : ∀ a, L.attrs (.dict d) a = L.attrs (.dict d') a) {s : St Path} (hl : Live s)
    (hc : (s.forms[id]?).map FormObj.cls = some cls)
    (hd : ∀ f ∈ (C cls).fields, selected (s.tagsFor tags) f = true →
      (∀ gs, f.kind ≠ .group gs) ∧ ∃ k, f.core.src = .str k ∧ AgreeFor k d d') :
    let A := Form.map (Path.ops L) L C n id (.data (.dict d)) tags reset (.str .ignore) raising s
    let B := Form.map (Path.ops L) L C n id (.data (.dict d')) tags reset (.str .ignore) raising s
    A.2.forms = B.2.forms ∧
    match A.1, B.1 with
    | .ok e, .ok e' => (A.2.errors e).map bareErr = (B.2.errors e').map bareErr
    | .error x, .error y => bare x = bare y
    | _, _ => False := by
  have h := form_reads (L := L) hC bare_dict bare_dict (x := .dict d) (y := .dict d') rfl rfl n id tags reset raising
    (v := .dict d) (w := .dict d') rfl rfl hl (fun _ _ => rfl) (fun _ _ => rfl) (fun f hf hsel => by
      obtain ⟨h1, k, h2, h3⟩ := hd f hf hsel
      exact ⟨k, h2, h1, resolve_agree hat h3⟩) hc
  exact ⟨h.1, h.2.2.2⟩

theorem dictGet?_perm {d d' : List (Val × Val)} (hp : d.Perm d') (hn : (d.map Prod.fst).Nodup) (p : String) :
    dictGet? d (.str p) = dictGet? d' (.str p) := by
  have get : ∀ {d : List (Val × Val)}, (d.map Prod.fst).Nodup → ∀ v, dictGet? d (.str p) = some v ↔ (.str p, v) ∈ d := by
    intro d hn v
    constructor
    · intro h
      unfold dictGet? at h
      cases hf : d.find? fun q => (Val.str p).pyEq q.1 with
      | none => rw [hf] at h; cases h
      | some q =>
        rw [hf] at h
        cases h
        have h1 := List.mem_of_find?_eq_some hf
        have h2 : (Val.str p).pyEq q.1 = true := by simpa using List.find?_some hf
        replace h2 := pyEq_str.1 h2
        obtain ⟨q1, q2⟩ := q
        dsimp only at h2
        subst h2
        exact h1
    · intro h
      unfold dictGet?
      cases hf : d.find? fun q => (Val.str p).pyEq q.1 with
      | none => exact absurd (pyEq_str.2 rfl) (by simpa using List.find?_eq_none.1 hf _ h)
      | some q =>
        have h1 := List.mem_of_find?_eq_some hf
        have h2 : (Val.str p).pyEq q.1 = true := by simpa using List.find?_some hf
        replace h2 := pyEq_str.1 h2
        have := List.inj_on_of_nodup_map hn h1 h h2
        rw [this]
  have hn' : (d'.map Prod.fst).Nodup := (hp.map Prod.fst).nodup_iff.1 hn
  refine Option.ext fun v => ?_
  rw [get hn, get hn']
  exact hp.mem_iff

/-- C59. The order in which a dictionary has its keys does not matter. -/
theorem C59_order (hC : C.All (ValueHooks True)) (n id : Nat) (tags : List String) (reset raising : Bool) {cls : Nat}
    {d d' : List (Val × Val)} (hp : d.Perm d') (hn : (d.map Prod.fst).Nodup)
    (hat : ∀ a, L.attrs (.dict d) a = L.attrs (.dict d') a) {s : St Path} (hl : Live s)
    (hc : (s.forms[id]?).map FormObj.cls = some cls)
    (hd : ∀ f ∈ (C cls).fields, selected (s.tagsFor tags) f = true →
      (∀ gs, f.kind ≠ .group gs) ∧ ∃ k, f.core.src = .str k) :
    let A := Form.map (Path.ops L) L C n id (.data (.dict d)) tags reset (.str .ignore) raising s
    let B := Form.map (Path.ops L) L C n id (.data (.dict d')) tags reset (.str .ignore) raising s
    A.2.forms = B.2.forms ∧
    match A.1, B.1 with
    | .ok e, .ok e' => (A.2.errors e).map bareErr = (B.2.errors e').map bareErr
    | .error x, .error y => bare x = bare y
    | _, _ => False :=
  C59_local hC n id tags reset raising hat hl hc fun f hf hsel => by
    obtain ⟨h1, k, h2⟩ := hd f hf hsel
    exact ⟨h1, k, h2, fun p _ => dictGet?_perm hp hn p⟩

/-! ## Examples -/

section
open Demo

/-- A dictionary for class `G` with more in it than is declared. -/
def rich : List (Val × Val) := [(.str "x", .int 1), (.str "xs", .list [.int 4, .str "y"]),
  (.str "f", .dict [(.str "a", .int 2)]), (.int 3, .none)]

/-- The declared part, in another order. -/
def lean : List (Val × Val) := [(.str "f", .dict [(.str "a", .int 2)]), (.str "xs", .list [.int 4, .str "y"])]

theorem consults_ident {k p : String} (hk : Ident k) (hp' : '(' ∉ k.toList) (h : Consults k p) : p = k := by
  rcases h with h | ⟨c, rest, h1, rfl | rfl⟩
  · exact h
  · exact absurd (by rw [h1]; simp) hk.noDot
  · exact absurd (by rw [h1]; simp) hp'

example := C59_local (L := lib) (C := table) (table_mono.imp fun _ h => h.1) 10 0 [] false false (cls := 1)
  (d := rich) (d' := lean) (fun _ => rfl) (holding_live 1 []) rfl (by
    intro f hf _
    simp only [table, classG, List.mem_cons, List.not_mem_nil, or_false] at hf
    rcases hf with rfl | rfl
    · refine ⟨(by intro gs h; cases h), "f", rfl, fun p hp => ?_⟩
      rw [consults_ident ⟨by decide, by decide⟩ (by decide) hp]
      rfl
    · refine ⟨(by intro gs h; cases h), "xs", rfl, fun p hp => ?_⟩
      rw [consults_ident ⟨by decide, by decide⟩ (by decide) hp]
      rfl)

example := C59_order (L := lib) (C := table) (table_mono.imp fun _ h => h.1) 10 0 [] false false (cls := 1)
  (List.Perm.swap (Val.str "f", Val.dict [(.str "a", .int 2)]) (Val.str "xs", Val.list [.int 4, .str "y"]) [])
  (by simp) (fun _ => rfl) (holding_live 1 []) rfl (by
    intro f hf _
    simp only [table, classG, List.mem_cons, List.not_mem_nil, or_false] at hf
    rcases hf with rfl | rfl
    · exact ⟨(by intro gs h; cases h), "f", rfl⟩
    · exact ⟨(by intro gs h; cases h), "xs", rfl⟩)

/-- What happens: the item `"y"` is reported. -/
example : after (Form.map (Path.ops lib) lib table 10 0 (.data (.dict rich)) [] false (.str .ignore) false (holding 1 []))
    ["f"] = (.ok [(.invalid "\"y\" is not an integer", "xs[1]")], [some (.form 1)]) := by decide +kernel

/-- A `src` with a dot is looked up as it is first, so that key matters, too. -/
example : Consults "a.b" "a.b" ∧ Consults "a.b" "a" ∧ ¬ Consults "a.b" "b" := by
  refine ⟨.inl rfl, .inr ⟨'.', ['b'], by decide, .inl rfl⟩, ?_⟩
  rintro (h | ⟨c, rest, h, -⟩)
  · exact absurd h (by decide)
  · have h1 := congrArg List.head? h
    exact absurd h1 (by simp)

/-- A class with a group, of integers by any key. -/
def groupTable : Classes := fun _ => { fields := [.mk { name := some "g", src := .none } (.group [(.re fun s => some (.str s), .mk {} (.integer {}))])] }

/-- A group looks at all keys, so more of them make more content. -/
theorem C59_counterexample_group :
    after (Form.map (Path.ops lib) lib groupTable 10 0 (.data (.dict [(.str "a", .int 1)])) [] false
      (.str .ignore) false (holding 0 [])) ["g"] = (.ok [], [some (.list [.tuple [.str "a", .str "a", .int 1]])]) ∧
    after (Form.map (Path.ops lib) lib groupTable 10 0 (.data (.dict [(.str "a", .int 1), (.str "b", .int 2)])) [] false
      (.str .ignore) false (holding 0 [])) ["g"] =
        (.ok [], [some (.list [.tuple [.str "a", .str "a", .int 1], .tuple [.str "b", .str "b", .int 2]])]) := by
  decide +kernel

end
end Pilo
