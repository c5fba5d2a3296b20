import Verif.Props.Resolve
import Verif.Props.Forms
import Verif.Demo

/-!
# C44: config sources read sections, sub-mappings and lists
-/

namespace Pilo
namespace Config
variable {L : Lib}

/-! ## The specification -/

/-- A character of the name of a sub-mapping. -/
def NameChar (L : Lib) (c : Char) : Prop := L.isWord c = true ∨ c = '_'
/-- A character of a key of a sub-mapping. -/
def KeyChar (L : Lib) (c : Char) : Prop := L.isWord c = true ∨ c = '_' ∨ c = '-' ∨ c = '.'

/-- The option text begins with `name[key]`. -/
def Indexed (L : Lib) (option name key : String) : Prop :=
  (name.toList ≠ [] ∧ ∀ c ∈ name.toList, NameChar L c) ∧ (key.toList ≠ [] ∧ ∀ c ∈ key.toList, KeyChar L c) ∧
  ∃ rest, option.toList = name.toList ++ '[' :: key.toList ++ ']' :: rest

/-- The brackets are not word characters. -/
def Sane (L : Lib) : Prop := L.isWord '[' = false ∧ L.isWord ']' = false

/-- The value of the last option `name[key]`, if any. -/
def LastIndexed (L : Lib) (items : List (String × String)) (name key : String) (r : Option String) : Prop :=
  match r with
  | none => ∀ x ∈ items, ¬ Indexed L x.1 name key
  | some v => ∃ pre post o, items = pre ++ (o, v) :: post ∧ Indexed L o name key ∧
      ∀ x ∈ post, ¬ Indexed L x.1 name key

/-- What a name denotes in a section: the mapping of the options `name[key]`, if there are any; else the option;
else the default; else nothing. -/
inductive Entry (L : Lib) (items : List (String × String)) (defaults : Option (List (Val × Val))) (name : String) :
    Val → Prop where
  | sub {x : String × String} {key : String} {d : List (Val × Val)} (hx : x ∈ items) (hk : Indexed L x.1 name key)
      (hd : ∀ key, ∃ r, LastIndexed L items name key r ∧ dictGet? d (.str key) = r.map Val.str) :
      Entry L items defaults name (.dict d)
  | option {pre post : List (String × String)} {v : String} (hs : ∀ x ∈ items, ∀ key, ¬ Indexed L x.1 name key)
      (h : items = pre ++ (L.lower name, v) :: post) (hp : ∀ x ∈ pre, x.1 ≠ L.lower name) :
      Entry L items defaults name (.str v)
  | dflt {df : List (Val × Val)} {v : Val} (hs : ∀ x ∈ items, ∀ key, ¬ Indexed L x.1 name key)
      (h : ∀ x ∈ items, x.1 ≠ L.lower name) (hd : defaults = some df) (hv : dictGet? df (.str name) = some v) :
      Entry L items defaults name v
  | absent (hs : ∀ x ∈ items, ∀ key, ¬ Indexed L x.1 name key) (h : ∀ x ∈ items, x.1 ≠ L.lower name)
      (hd : ∀ df, defaults = some df → dictGet? df (.str name) = none) : Entry L items defaults name .NONE

/-- The items of an option text: its non-blank lines, stripped, if it has several lines; else its words. -/
inductive Items (L : Lib) (s : String) : List String → Prop where
  | lines (h : '\n' ∈ s.toList) : Items L s (((L.splitlines s).map L.strip).filter fun l => l != "")
  | words {ws : List String} (h : '\n' ∉ s.toList) (hw : L.shlexSplit s = some ws) : Items L s ws

/-! ## Options that name a sub-mapping -/

theorem takeWhile_of {p : Char → Bool} {a b : List Char} {c : Char} (ha : ∀ x ∈ a, p x = true) (hc : p c = false) :
    (a ++ c :: b).takeWhile p = a ∧ (a ++ c :: b).dropWhile p = c :: b := by
  induction a with
  | nil => simp [hc]
  | cons x a ih =>
    have h1 := ha x (by simp)
    have h2 := ih fun y hy => ha y (by simp [hy])
    simp [h1, h2]

theorem dropWhile_split {p : Char → Bool} (cs : List Char) : cs = cs.takeWhile p ++ cs.dropWhile p :=
  (List.takeWhile_append_dropWhile ..).symm

theorem takeWhile_all {p : Char → Bool} {cs : List Char} : ∀ c ∈ cs.takeWhile p, p c = true := by
  induction cs with
  | nil => simp
  | cons x cs ih =>
    intro c hc
    rw [List.takeWhile_cons] at hc
    split at hc
    · rename_i hx
      rcases List.mem_cons.1 hc with rfl | h
      · exact hx
      · exact ih c h
    · cases hc

theorem nameChar_iff {c : Char} : (L.isWord c || c == '_') = true ↔ NameChar L c := by
  simp [NameChar]

theorem keyChar_iff {c : Char} : (L.isWord c || c == '_' || c == '-' || c == '.') = true ↔ KeyChar L c := by
  simp [KeyChar, or_assoc]

theorem subMatch_sound {o n k : String} (h : subMatch L o = some (n, k)) : Indexed L o n k := by
  unfold subMatch at h
  dsimp only at h
  have e1 := dropWhile_split (p := fun c => L.isWord c || c == '_') o.toList
  have a1 := takeWhile_all (p := fun c => L.isWord c || c == '_') (cs := o.toList)
  generalize o.toList.takeWhile (fun c => L.isWord c || c == '_') = name at h e1 a1
  generalize o.toList.dropWhile (fun c => L.isWord c || c == '_') = rest at h e1
  split at h
  · cases h
  · rename_i rest' hne
    have e2 := dropWhile_split (p := fun c => L.isWord c || c == '_' || c == '-' || c == '.') rest'
    have a2 := takeWhile_all (p := fun c => L.isWord c || c == '_' || c == '-' || c == '.') (cs := rest')
    generalize rest'.takeWhile (fun c => L.isWord c || c == '_' || c == '-' || c == '.') = key at h e2 a2
    generalize rest'.dropWhile (fun c => L.isWord c || c == '_' || c == '-' || c == '.') = rest'' at h e2
    split at h
    · cases h
    · rename_i tl hne2
      simp only [Option.some.injEq, Prod.mk.injEq] at h
      obtain ⟨rfl, rfl⟩ := h
      refine ⟨⟨?_, ?_⟩, ⟨?_, ?_⟩, tl, ?_⟩
      · simpa using hne
      · intro c hc
        exact nameChar_iff.1 (a1 c (by simpa using hc))
      · simpa using hne2
      · intro c hc
        exact keyChar_iff.1 (a2 c (by simpa using hc))
      · rw [e1, e2]; simp
    · cases h
  · cases h

theorem subMatch_complete (hL : Sane L) {o n k : String} (h : Indexed L o n k) : subMatch L o = some (n, k) := by
  obtain ⟨⟨h1, h2⟩, ⟨h3, h4⟩, rest, h5⟩ := h
  unfold subMatch
  dsimp only
  rw [h5]
  rw [List.append_assoc, List.cons_append]
  obtain ⟨t1, t2⟩ := takeWhile_of (p := fun c => L.isWord c || c == '_') (a := n.toList) (c := '[') (b := k.toList ++ ']' :: rest)
    (fun x hx => nameChar_iff.2 (h2 x hx)) (by simp [hL.1])
  rw [t1, t2]
  obtain ⟨t3, t4⟩ := takeWhile_of (p := fun c => L.isWord c || c == '_' || c == '-' || c == '.') (a := k.toList) (c := ']')
    (b := rest) (fun x hx => keyChar_iff.2 (h4 x hx)) (by simp [hL.2])
  cases hn : n.toList with
  | nil => exact (h1 hn).elim
  | cons a as =>
    simp only [t3, t4]
    cases hk : k.toList with
    | nil => exact (h3 hk).elim
    | cons b bs =>
      simp only [← hn, ← hk, String.ofList_toList]

theorem subMatch_iff (hL : Sane L) {o n k : String} : subMatch L o = some (n, k) ↔ Indexed L o n k :=
  ⟨subMatch_sound, subMatch_complete hL⟩

/-- The options of one sub-mapping. -/
def hits (L : Lib) (items : List (String × String)) (name : String) : List (String × String) :=
  items.filterMap fun (o, v) =>
    match subMatch L o with
    | some (n, k) => if n == name then some (k, v) else none
    | none => none

theorem mem_hits (hL : Sane L) {items : List (String × String)} {name k v : String} :
    (k, v) ∈ hits L items name ↔ ∃ o, (o, v) ∈ items ∧ Indexed L o name k := by
  unfold hits
  rw [List.mem_filterMap]
  constructor
  · rintro ⟨⟨o, w⟩, h1, h2⟩
    dsimp only at h2
    split at h2
    · rename_i n k' hm
      split at h2
      · rename_i hn
        simp only [Option.some.injEq, Prod.mk.injEq] at h2
        obtain ⟨rfl, rfl⟩ := h2
        rw [beq_iff_eq] at hn
        subst hn
        exact ⟨o, h1, subMatch_sound hm⟩
      · cases h2
    · cases h2
  · rintro ⟨o, h1, h2⟩
    refine ⟨(o, v), h1, ?_⟩
    dsimp only
    rw [subMatch_complete hL h2]
    simp

theorem hits_append (items items' : List (String × String)) (name : String) :
    hits L (items ++ items') name = hits L items name ++ hits L items' name := by
  simp [hits]

theorem hits_one (hL : Sane L) {o v name key : String} (h : Indexed L o name key) : hits L [(o, v)] name = [(key, v)] := by
  simp [hits, subMatch_complete hL h]

/-- The dict a fold of assignments builds. -/
theorem built_get (hs : List (String × String)) : ∀ (d : List (Val × Val)) (key : String),
    dictGet? (hs.foldl (fun d kv => dictSet d (.str kv.1) (.str kv.2)) d) (.str key) =
      match (hs.filter fun h => h.1 = key).getLast? with
      | some h => some (.str h.2)
      | none => dictGet? d (.str key) := by
  induction hs with
  | nil => intro d key; rfl
  | cons h hs ih =>
    intro d key
    rw [List.foldl_cons, ih, dictGet?_dictSet]
    by_cases hk : h.1 = key
    · rw [List.filter_cons_of_pos (by simpa using hk)]
      cases hl : hs.filter (fun h => h.1 = key) with
      | nil => simp [hk]
      | cons a as =>
        rw [List.getLast?_cons_cons]
        cases hz : (a :: as).getLast? with
        | none => simp at hz
        | some z => rfl
    · rw [List.filter_cons_of_neg (by simpa using hk)]
      simp [hk]

theorem lastIndexed (hL : Sane L) (items : List (String × String)) (name key : String) :
    LastIndexed L items name key (((hits L items name).filter fun h => h.1 = key).getLast?.map Prod.snd) := by
  rw [← List.reverse_reverse items]
  induction items.reverse with
  | nil => intro x hx; cases hx
  | cons x items ih =>
    obtain ⟨o, v⟩ := x
    rw [List.reverse_cons]
    generalize items.reverse = items at ih
    rw [hits_append, List.filter_append, List.getLast?_append]
    by_cases hx : Indexed L o name key
    · rw [hits_one hL hx]
      simp only [decide_true, List.filter_cons_of_pos, List.filter_nil, List.getLast?_singleton, Option.some_or,
        Option.map_some]
      exact ⟨items, [], o, rfl, hx, by simp⟩
    · have : (hits L [(o, v)] name).filter (fun h => h.1 = key) = [] := by
        rw [List.filter_eq_nil_iff]
        rintro ⟨k', v'⟩ hm hk
        obtain ⟨o', h1, h2⟩ := (mem_hits hL).1 hm
        simp only [List.mem_singleton, Prod.mk.injEq] at h1
        obtain ⟨rfl, rfl⟩ := h1
        simp only [decide_eq_true_eq] at hk
        subst hk
        exact hx h2
      rw [this]
      simp only [List.getLast?_nil, Option.none_or]
      generalize ((hits L items name).filter fun h => h.1 = key).getLast?.map Prod.snd = r at ih
      cases r with
      | none =>
        intro y hy
        rcases List.mem_append.1 hy with h | h
        · exact ih y h
        · simp only [List.mem_singleton] at h
          subst h
          exact hx
      | some w =>
        obtain ⟨pre, post, o', h1, h2, h3⟩ := ih
        refine ⟨pre, post ++ [(o, v)], o', by rw [h1]; simp, h2, ?_⟩
        intro y hy
        rcases List.mem_append.1 hy with h | h
        · exact h3 y h
        · simp only [List.mem_singleton] at h
          subst h
          exact hx

theorem subMapping_eq (items : List (String × String)) (name : String) : subMapping L items name =
    if (hits L items name).isEmpty then none
    else some ((hits L items name).foldl (fun d kv => dictSet d (.str kv.1) (.str kv.2)) []) := rfl

/-! ## One key of a section -/

/-- A section finds what the name denotes. -/
theorem section_entry (hL : Sane L) (d : CfgData) (sec : String) (df : Option (List (Val × Val))) (s : String)
    (cfg : ConfigCfg) (hd : cfg.data = d) :
    ∃ v, resolveConfig L cfg (.sect sec df) (.str s) = .ok (.val v) ∧ Entry L (d.items sec) df s v := by
  subst hd
  unfold resolveConfig cfgGet
  dsimp only
  unfold sectionGet
  dsimp only
  rw [subMapping_eq]
  have none_of : (hits L (cfg.data.items sec) s).isEmpty = true → ∀ x ∈ cfg.data.items sec, ∀ key, ¬ Indexed L x.1 s key := by
    intro h x hx key hk
    have : (key, x.2) ∈ hits L (cfg.data.items sec) s := (mem_hits hL).2 ⟨x.1, hx, hk⟩
    rw [List.isEmpty_iff.1 h] at this
    cases this
  by_cases hh : (hits L (cfg.data.items sec) s).isEmpty = true
  · rw [if_pos hh]
    dsimp only
    cases hf : (cfg.data.items sec).find? (fun p => p.1 == L.lower s) with
    | some p =>
      refine ⟨.str p.2, rfl, ?_⟩
      obtain ⟨h1, pre, post, h2, h3⟩ := List.find?_eq_some_iff_append.1 hf
      rw [beq_iff_eq] at h1
      refine .option (none_of hh) (pre := pre) (post := post) (by rw [h2, ← h1]) ?_
      intro x hx hxe
      have := h3 x hx
      simp [hxe] at this
    | none =>
      have hno : ∀ x ∈ cfg.data.items sec, x.1 ≠ L.lower s := by
        intro x hx hxe
        have := List.find?_eq_none.1 hf x hx
        simp [hxe] at this
      cases df with
      | none => exact ⟨.NONE, rfl, .absent (none_of hh) hno (by intro _ h; cases h)⟩
      | some df =>
        cases hv : dictGet? df (.str s) with
        | none => exact ⟨.NONE, by simp only [hv], .absent (none_of hh) hno (by intro _ h; cases h; exact hv)⟩
        | some v => exact ⟨v, by simp only [hv], .dflt (none_of hh) hno rfl hv⟩
  · rw [if_neg hh]
    refine ⟨_, rfl, ?_⟩
    cases hl : hits L (cfg.data.items sec) s with
    | nil => simp [hl] at hh
    | cons h hs =>
      obtain ⟨o, ho, hi⟩ := (mem_hits hL (items := cfg.data.items sec) (name := s) (k := h.1) (v := h.2)).1 (by rw [hl]; simp)
      refine .sub ho hi fun key => ⟨_, lastIndexed hL (cfg.data.items sec) s key, ?_⟩
      rw [← hl, built_get]
      cases (((hits L (cfg.data.items sec) s).filter fun h => h.1 = key).getLast?) <;> rfl

theorem Entry.str {items : List (String × String)} {df : Option (List (Val × Val))} {s t : String} {v : Val}
    (h : Entry L items df s v) (ht : Entry L items df s (.str t)) : v = .str t := by
  generalize hw : Val.str t = w at ht
  cases ht with
  | sub => cases hw
  | absent => cases hw
  | option hs1 h1 hp1 =>
    cases hw
    rename_i pre1 post1
    cases h with
    | sub hx hk => exact (hs1 _ hx _ hk).elim
    | option hs2 h2 hp2 =>
      rename_i pre2 post2 v2
      rw [h1] at h2
      rcases List.append_eq_append_iff.1 h2 with ⟨a, h3, h4⟩ | ⟨a, h3, h4⟩
      · cases a with
        | nil => simp at h4; rw [h4.1]
        | cons x a =>
          simp only [List.cons_append, List.cons.injEq] at h4
          exact (hp2 x (by rw [h3]; simp) (by rw [← h4.1])).elim
      · cases a with
        | nil => simp at h4; rw [h4.1]
        | cons x a =>
          simp only [List.cons_append, List.cons.injEq] at h4
          exact (hp1 x (by rw [h3]; simp) (by rw [← h4.1])).elim
    | dflt hs2 h2 => exact (h2 (L.lower s, t) (by rw [h1]; simp) rfl).elim
    | absent hs2 h2 => exact (h2 (L.lower s, t) (by rw [h1]; simp) rfl).elim
  | dflt hs1 h1 hd1 hv1 =>
    subst hw
    cases h with
    | sub hx hk => exact (hs1 _ hx _ hk).elim
    | option hs2 h2 hp2 =>
      rename_i v2
      exact (h1 (L.lower s, v2) (by rw [h2]; simp) rfl).elim
    | dflt hs2 h2 hd2 hv2 =>
      rw [hd1] at hd2
      cases hd2
      rw [hv1] at hv2
      cases hv2
      rfl
    | absent hs2 h2 hd2 => rw [hd2 _ hd1] at hv1; cases hv1

/-! ## C44 -/

/-- The path of a config source, after a history of moves and reads. -/
def after (L : Lib) (cfg : ConfigCfg) (ops : List PathOp) : SPath :=
  ops.foldl (SPath.act L) (.config cfg { root := cfg.rootVal, parts := [] })

theorem rootVal_section {cfg : ConfigCfg} {sec : String} (h : cfg.sectionName = some sec) (hs : sec ≠ "") :
    cfg.rootVal = .sect sec cfg.defaults := by
  unfold ConfigCfg.rootVal
  rw [h]
  simp [hs]

/-- C44, string keys (an integer key is an error: `C44_integer_counterexample`). On a config source with a section, a
key resolves, after any history, to what it denotes: its sub-mapping if there is one, else the option, else the
default, else nothing. -/
theorem C44_key_partial (hL : Sane L) {cfg : ConfigCfg} {sec : String} (h : cfg.sectionName = some sec) (hs : sec ≠ "")
    {ops : List PathOp} {s : String} (hk : histKeys ops = [.str s]) :
    ∃ v, (SPath.value L (after L cfg ops)).1 = .ok v ∧ Entry L (cfg.data.items sec) cfg.defaults s v := by
  obtain ⟨v, h1, h2⟩ := section_entry hL cfg.data sec cfg.defaults s cfg rfl
  refine ⟨v, ?_, h2⟩
  unfold after
  rw [C19_config, hk, rootVal_section h hs]
  simp only [PathSt.spec, Val.isIntLike, Val.isStr, List.all_cons, List.all_nil, Bool.or_true, Bool.and_self, if_true,
    PathSt.follow, h1]
  rfl

/-- C44. A key of a sub-mapping resolves to the value of the last option of that name and key; else to nothing. -/
theorem C44_sub (hL : Sane L) {cfg : ConfigCfg} {sec : String} (h : cfg.sectionName = some sec) (hs : sec ≠ "")
    {ops : List PathOp} {s k : String} (hk : histKeys ops = [.str s, .str k])
    (hx : ∃ x ∈ cfg.data.items sec, ∃ key, Indexed L x.1 s key) :
    ∃ r, LastIndexed L (cfg.data.items sec) s k r ∧
      (SPath.value L (after L cfg ops)).1 = .ok ((r.map Val.str).getD .NONE) := by
  obtain ⟨v, h1, h2⟩ := section_entry hL cfg.data sec cfg.defaults s cfg rfl
  obtain ⟨x, hx, key, hi⟩ := hx
  cases h2 with
  | option hn => exact (hn x hx key hi).elim
  | dflt hn => exact (hn x hx key hi).elim
  | absent hn => exact (hn x hx key hi).elim
  | @sub _ _ d _ _ hd =>
    obtain ⟨r, h3, h4⟩ := hd k
    refine ⟨r, h3, ?_⟩
    unfold after
    rw [C19_config, hk, rootVal_section h hs]
    have h5 : resolveConfig L cfg (.val (.dict d)) (.str k) = .ok (.val ((r.map Val.str).getD .NONE)) := by
      unfold resolveConfig cfgGet getItem
      dsimp only
      rw [h4]
      cases r <;> rfl
    simp only [PathSt.spec, Val.isIntLike, Val.isStr, List.all_cons, List.all_nil, Bool.or_true, Bool.and_self, if_true,
      PathSt.follow, h1, h5]
    rfl

/-- The item of a list at an index, from the end if negative. -/
def At (ws : List String) (i : Int) (w : String) : Prop :=
  (∃ n : Nat, i = n ∧ ws[n]? = some w) ∨
    (∃ n : Nat, 0 < n ∧ i = -(n : Int) ∧ n ≤ ws.length ∧ ws[ws.length - n]? = some w)

theorem cfgWords_items {t : String} {ws : List String} (h : Items L t ws) : cfgWords L t = .ok ws := by
  unfold cfgWords
  cases h with
  | lines h =>
    rw [if_pos (by simpa using h)]
  | words h hw => rw [if_neg (by simpa using h), hw]

/-- C44. A string indexed by an integer is the corresponding word, or line if there are several; out of range there is
nothing; and the string has that many items. -/
theorem C44_item (hL : Sane L) {cfg : ConfigCfg} {sec : String} (h : cfg.sectionName = some sec) (hs : sec ≠ "")
    {ops : List PathOp} {s t : String} {i : Int} (hk : histKeys ops = [.str s, .int i])
    (ht : Entry L (cfg.data.items sec) cfg.defaults s (.str t)) {ws : List String} (hw : Items L t ws) :
    (∀ w, At ws i w → (SPath.value L (after L cfg ops)).1 = .ok (.str w)) ∧
    ((∀ w, ¬ At ws i w) → (SPath.value L (after L cfg ops)).1 = .ok .NONE) := by
  obtain ⟨v, h1, h2⟩ := section_entry hL cfg.data sec cfg.defaults s cfg rfl
  obtain rfl := h2.str ht
  have e : (SPath.value L (after L cfg ops)).1 = .ok (((seqGet? ws i).map Val.str).getD .NONE) := by
    unfold after
    rw [C19_config, hk, rootVal_section h hs]
    have h5 : resolveConfig L cfg (.val (.str t)) (.int i) = .ok (.val (((seqGet? ws i).map Val.str).getD .NONE)) := by
      unfold resolveConfig cfgGet
      dsimp only
      rw [cfgWords_items hw]
      dsimp only [Val.index?]
      cases seqGet? ws i <;> rfl
    simp only [PathSt.spec, Val.isIntLike, Val.isStr, List.all_cons, List.all_nil, Bool.or_true, Bool.true_or,
      Bool.and_self, if_true, PathSt.follow, h1, h5]
    rfl
  rw [e]
  constructor
  · intro w hw'
    rw [seqGet_some.2 hw']
    rfl
  · intro hn
    cases hg : seqGet? ws i with
    | none => rfl
    | some w => exact (hn w (seqGet_some.1 hg)).elim

/-- C44. The number of items of a string. -/
theorem C44_sequence (hL : Sane L) {cfg : ConfigCfg} {sec : String} (h : cfg.sectionName = some sec) (hs : sec ≠ "")
    {ops : List PathOp} {s t : String} (hk : histKeys ops = [.str s])
    (ht : Entry L (cfg.data.items sec) cfg.defaults s (.str t)) {ws : List String} (hw : Items L t ws) :
    (SPath.sequence L (after L cfg ops)).1 = .ok ws.length := by
  obtain ⟨v, h1, h2⟩ := section_entry hL cfg.data sec cfg.defaults s cfg rfl
  obtain rfl := h2.str ht
  have := ((FineCfg.hist (L := L) (cfg := cfg) ops).withValue
    (L := L) (fun _ _ v => defaultSequence v) (fun _ v => jsonSequence v) (fun _ _ v => cfgSequence L v)).1
  unfold after SPath.sequence
  rw [this, hk, rootVal_section h hs]
  simp only [PathSt.spec, Val.isIntLike, Val.isStr, List.all_cons, List.all_nil, Bool.or_true, Bool.and_self, if_true,
    PathSt.follow, h1, cfgSequence, cfgWords_items hw]

/-! ## Examples -/

namespace Ex

/-- Split at a character. -/
def splitAt (c : Char) : List Char → List Char → List String
  | [], cur => [String.ofList cur.reverse]
  | x :: xs, cur => if x = c then String.ofList cur.reverse :: splitAt c xs [] else splitAt c xs (x :: cur)

/-- A library that knows lines and words. -/
def lib : Lib := { Demo.lib with
  splitlines := fun s => splitAt '\n' s.toList []
  strip := fun s => String.ofList ((s.toList.dropWhile (· == ' ')).reverse.dropWhile (· == ' ')).reverse
  shlexSplit := fun s => some ((splitAt ' ' s.toList []).filter (· ≠ "")) }

theorem sane : Sane lib := by constructor <;> decide +kernel

/-- ```
[sec]
host[a] = 1
host[b] = 2
host[a] = 3      (as `items` might list it twice)
words = x y z
lines =
  p q

  r
``` -/
def cfg : ConfigCfg where
  data := ⟨[("sec", [("host[a]", "1"), ("host[b]", "2"), ("host[a]", "3"), ("words", "x y z"), ("lines", "\n  p q\n\n  r")])]⟩
  sectionName := some "sec"
  defaults := some [(.str "extra", .int 7)]

def at_ (ks : List Val) : Except Exc Val := (SPath.value lib (after lib cfg (ks.map PathOp.append))).1

example : at_ [.str "host", .str "a"] = .ok (.str "3") := by decide +kernel
example : at_ [.str "host", .str "c"] = .ok .NONE := by decide +kernel
example : at_ [.str "words"] = .ok (.str "x y z") := by decide +kernel
example : at_ [.str "words", .int 1] = .ok (.str "y") := by decide +kernel
example : at_ [.str "words", .int (-1)] = .ok (.str "z") := by decide +kernel
example : at_ [.str "words", .int 3] = .ok .NONE := by decide +kernel
example : at_ [.str "lines", .int 1] = .ok (.str "r") := by decide +kernel
example : at_ [.str "extra"] = .ok (.int 7) := by decide +kernel
example : at_ [.str "nope"] = .ok .NONE := by decide +kernel
example : Indexed lib "host[a]" "host" "a" := by
  have : subMatch lib "host[a]" = some ("host", "a") := by decide +kernel
  exact subMatch_sound this
example : Items lib "x y z" ["x", "y", "z"] := .words (by decide +kernel) (by decide +kernel)

/-- C44 is false for integer keys of a section: they are an error rather than absent. -/
theorem C44_integer_counterexample : at_ [.int 0] = .error (.attributeError "'int' object has no attribute 'lower'") := by
  decide +kernel

end Ex
end Config
end Pilo
