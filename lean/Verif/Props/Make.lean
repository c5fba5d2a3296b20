import Verif.Source.Make
import Verif.Props.Mount
import Verif.Dots

/-!
# C98, C99: making sources
-/

namespace Pilo
variable {L : Lib}

/-! ## C98: unions and mounts -/

/-- Item by item. -/
inductive Paired {α β : Type} (R : α → β → Prop) : List α → List β → Prop where
  | nil : Paired R [] []
  | cons {a : α} {b : β} {as : List α} {bs : List β} (h : R a b) (hs : Paired R as bs) : Paired R (a :: as) (b :: bs)

theorem Paired.mem {α β : Type} {R : α → β → Prop} {as : List α} {bs : List β} (h : Paired R as bs) {a : α} (ha : a ∈ as) :
    ∃ b ∈ bs, R a b := by
  induction h with
  | nil => cases ha
  | cons h _ ih =>
    rcases List.mem_cons.1 ha with rfl | ha
    · exact ⟨_, List.mem_cons_self, h⟩
    · obtain ⟨b, hb, hr⟩ := ih ha
      exact ⟨b, List.mem_cons_of_mem _ hb, hr⟩

/-- A plain source over `v`: no aliases, no ignores, no location. -/
def plainSource (v : Val) : SSrc := .dflt v { aliases := none, ignores := [], location := none }

/-- What an argument of `MountSource` stands for: a source for itself, `None` and dicts for plain sources. -/
inductive Mountable : SrcVal BSrc → BSrc → Prop where
  | source (s : BSrc) : Mountable (.source s) s
  | null : Mountable (.val .none) (.simple (plainSource .none))
  | dict (kvs : List (Val × Val)) : Mountable (.val (.dict kvs)) (.simple (plainSource (.dict kvs)))
  | form (i : Nat) : Mountable (.val (.form i)) (.simple (plainSource (.form i)))

/-- What an item given to `UnionSource` stands for: a source for itself, a mapping for a plain source. -/
inductive Unitable : SrcVal SSrc → SSrc → Prop where
  | source (s : SSrc) : Unitable (.source s) s
  | dict (kvs : List (Val × Val)) : Unitable (.val (.dict kvs)) (plainSource (.dict kvs))
  | form (i : Nat) : Unitable (.val (.form i)) (plainSource (.form i))

theorem makeMount_cons {repr : Val → String} {key : String} {a : SrcVal BSrc} {s : BSrc} (h : Mountable a s)
    (rest : List (String × SrcVal BSrc)) :
    makeMount repr ((key, a) :: rest) = match makeMount repr rest with
      | .ok srcs => .ok ((key, s) :: srcs)
      | .error e => .error e := by
  cases h <;> rfl

theorem makeMount_bad {repr : Val → String} {key : String} {v : Val} (h : ∀ s, ¬ Mountable (.val v) s)
    (rest : List (String × SrcVal BSrc)) :
    makeMount repr ((key, .val v) :: rest) = .error (.typeError (key ++ "=" ++ repr v ++ " is not None, dict or Source")) := by
  cases v with
  | none => exact (h _ .null).elim
  | dict kvs => exact (h _ (.dict kvs)).elim
  | form i => exact (h _ (.form i)).elim
  | _ => rfl

/-- C98, mounts: keyword arguments that are sources, dicts or `None` make a `MountSource` with each source under
its name; dicts and `None` are wrapped in plain sources. -/
theorem C98_mount {repr : Val → String} {args : List (String × SrcVal BSrc)} (h : ∀ x ∈ args, ∃ s, Mountable x.2 s) :
    ∃ srcs, makeMount repr args = .ok srcs ∧ Paired (fun x y => y.1 = x.1 ∧ Mountable x.2 y.2) args srcs := by
  induction args with
  | nil => exact ⟨[], rfl, .nil⟩
  | cons x rest ih =>
    obtain ⟨srcs, h1, h2⟩ := ih fun y hy => h y (List.mem_cons_of_mem _ hy)
    obtain ⟨s, hs⟩ := h x List.mem_cons_self
    refine ⟨(x.1, s) :: srcs, ?_, .cons ⟨rfl, hs⟩ h2⟩
    rw [show x :: rest = (x.1, x.2) :: rest from rfl, makeMount_cons hs, h1]

/-- C98, mounts: anything else is refused with a `TypeError` that names the first such argument. -/
theorem C98_mount_refuses {repr : Val → String} {pre post : List (String × SrcVal BSrc)} {key : String} {v : Val}
    (h : ∀ x ∈ pre, ∃ s, Mountable x.2 s) (hv : ∀ s, ¬ Mountable (.val v) s) :
    makeMount repr (pre ++ (key, .val v) :: post)
      = .error (.typeError (key ++ "=" ++ repr v ++ " is not None, dict or Source")) := by
  induction pre with
  | nil => exact makeMount_bad hv post
  | cons x rest ih =>
    obtain ⟨s, hs⟩ := h x List.mem_cons_self
    rw [List.cons_append, show x = (x.1, x.2) from rfl, makeMount_cons hs, ih fun y hy => h y (List.mem_cons_of_mem _ hy)]

theorem Mountable.unique {a : SrcVal BSrc} {s t : BSrc} (h : Mountable a s) (h' : Mountable a t) : s = t := by
  cases h <;> cases h' <;> rfl

theorem makeMount_ok {repr : Val → String} {args : List (String × SrcVal BSrc)} : ∀ {srcs : List (String × BSrc)},
    makeMount repr args = .ok srcs → Paired (fun x y => y.1 = x.1 ∧ Mountable x.2 y.2) args srcs := by
  induction args with
  | nil => intro srcs h; cases h; exact .nil
  | cons x rest ih =>
    intro srcs h
    by_cases hx : ∃ s, Mountable x.2 s
    · obtain ⟨s, hs⟩ := hx
      rw [show x :: rest = (x.1, x.2) :: rest from rfl, makeMount_cons hs] at h
      split at h
      · rename_i srcs' h'
        cases h
        exact .cons ⟨rfl, hs⟩ (ih h')
      · cases h
    · obtain ⟨key, a⟩ := x
      cases a with
      | source s => exact (hx ⟨s, .source s⟩).elim
      | val v =>
        rw [makeMount_bad fun s hs => hx ⟨s, hs⟩] at h
        cases h

theorem SSrc.path_keys (s : SSrc) : s.path.keys = [] := by cases s <;> rfl

theorem SSrc.path_wf (s : SSrc) : (BPath.simple s.path).WF := by
  cases s <;> exact fun q h => nomatch h

theorem BSrc.path_union {cfg : UnionCfg} {srcs : List SSrc} {p : BPath} (h : (BSrc.union cfg srcs).path L = .ok p) :
    ∃ q, UPath.mk' L cfg (srcs.map SSrc.path) = .ok q ∧ p = .union q := by
  unfold BSrc.path at h
  cases hq : UPath.mk' L cfg (srcs.map SSrc.path) with
  | ok q => simp only [hq] at h; cases h; exact ⟨q, rfl, rfl⟩
  | error e => simp only [hq] at h; cases h

theorem BSrc.path_wf {s : BSrc} {p : BPath} (h : s.path L = .ok p) : p.WF ∧ p.keys = [] := by
  cases s with
  | simple s =>
    cases h
    exact ⟨s.path_wf, s.path_keys⟩
  | union cfg srcs =>
    obtain ⟨q, hq, rfl⟩ := BSrc.path_union h
    refine UPath.mk'_wf L ?_ hq
    intro c hc
    obtain ⟨s, _, rfl⟩ := List.mem_map.1 hc
    rw [s.path_keys]
    rfl

theorem mountPaths_ok {srcs : List (String × BSrc)} : ∀ {ps : List (String × BPath)}, mountPaths L srcs = .ok ps →
    Paired (fun x y => y.1 = x.1 ∧ x.2.path L = .ok y.2) srcs ps := by
  induction srcs with
  | nil => intro ps h; cases h; exact .nil
  | cons x rest ih =>
    intro ps h
    obtain ⟨key, s⟩ := x
    unfold mountPaths at h
    cases hs : s.path L with
    | error e => simp only [hs] at h; cases h
    | ok p =>
      simp only [hs] at h
      cases hr : mountPaths L rest with
      | error e => simp only [hr] at h; cases h
      | ok ps' =>
        simp only [hr] at h
        cases h
        exact .cons ⟨rfl, hs⟩ (ih hr)

theorem Paired.names {α β : Type} {R : α → β → Prop} {xs : List (String × α)} {ys : List (String × β)}
    (h : Paired (fun x y => y.1 = x.1 ∧ R x.2 y.2) xs ys) : ys.map Prod.fst = xs.map Prod.fst := by
  induction h with
  | nil => rfl
  | cons h _ ih => rw [List.map_cons, List.map_cons, ih, h.1]

theorem Paired.back {α β : Type} {R : α → β → Prop} {as : List α} {bs : List β} (h : Paired R as bs) {b : β} (hb : b ∈ bs) :
    ∃ a ∈ as, R a b := by
  induction h with
  | nil => cases hb
  | cons h _ ih =>
    rcases List.mem_cons.1 hb with rfl | hb
    · exact ⟨_, List.mem_cons_self, h⟩
    · obtain ⟨a, ha, hr⟩ := ih hb
      exact ⟨a, List.mem_cons_of_mem _ ha, hr⟩

theorem mountPath_of {srcs : List (String × BSrc)} {p0 : MPath} (hn : (srcs.map Prod.fst).Nodup)
    (h : mountPath L srcs = .ok p0) (ops : List PathOp) :
    ∃ ps, mountPaths L srcs = .ok ps ∧ MPath.Of L ps ops (ops.foldl (MPath.act L) p0) := by
  unfold mountPath at h
  cases hp : L.py3 with
  | true => simp only [hp, if_true, MPath.mk'] at h; cases h
  | false =>
    simp only [hp, Bool.false_eq_true, if_false] at h
    cases hs : mountPaths L srcs with
    | error e => simp only [hs] at h; cases h
    | ok ps =>
      simp only [hs] at h
      have he := mountPaths_ok hs
      refine ⟨ps, rfl, ?_, ?_, p0, h, rfl⟩
      · intro x hx
        obtain ⟨_, _, _, h2⟩ := he.back hx
        exact BSrc.path_wf h2
      · rw [he.names (R := fun s p => BSrc.path L s = .ok p)]
        exact hn

/-- C98, mounts: below the name of an argument, a path of the `MountSource` answers as a path of the source that
the argument stands for, after any history of moves and reads.  (`is_null` asks whether the value is null.)  What is missing: under
Python 3 there are no such paths (`C98_mount_counterexample`). -/
theorem C98_mount_reads_partial {repr : Val → String} {args : List (String × SrcVal BSrc)} (hn : (args.map Prod.fst).Nodup)
    {srcs : List (String × BSrc)} (hm : makeMount repr args = .ok srcs) {p0 : MPath} (hp : mountPath L srcs = .ok p0)
    {name : String} {a : SrcVal BSrc} (ha : (name, a) ∈ args) {s : BSrc} (hs : Mountable a s) :
    ∃ q0, s.path L = .ok q0 ∧ ∀ (ops : List PathOp) (ks : List Val),
      let p := ops.foldl (MPath.act L) p0
      let q := (route name [] ops).foldl (BPath.act L) q0
      p.keys = .str name :: ks →
      q.keys = ks ∧ (p.value L).1 = (q.value L).1 ∧ (p.exists_ L).1 = (q.exists_ L).1 ∧
      (p.isNull L).1 = (q.value L).1.map Val.isNull ∧ (p.mapping L).1 = (q.mapping L).1 ∧
      (p.sequence L).1 = (q.sequence L).1 ∧ ∀ ty, (p.primitive L ty).1 = (q.primitive L ty).1 := by
  have he := makeMount_ok hm
  have hn' : (srcs.map Prod.fst).Nodup := by rw [he.names (R := Mountable)]; exact hn
  obtain ⟨⟨key, s'⟩, h1, h2, h3⟩ := he.mem ha
  cases h2
  cases hs.unique h3
  obtain ⟨ps, hps, _⟩ := mountPath_of hn' hp []
  obtain ⟨⟨key, q0⟩, h4, h5, h6⟩ := (mountPaths_ok hps).mem h1
  cases h5
  refine ⟨q0, h6, fun ops ks hk => ?_⟩
  obtain ⟨ps', hps', ho⟩ := mountPath_of hn' hp ops
  rw [hps] at hps'
  cases hps'
  exact MPath.C43_route_partial ho h4 hk

/-- C98 fails under Python 3: a `MountSource` can be made, but has no paths. -/
theorem C98_mount_counterexample (h : L.py3 = true) (srcs : List (String × BSrc)) :
    ∃ m, mountPath L srcs = .error (.attributeError m) := by
  unfold mountPath MPath.mk'
  rw [h]
  exact ⟨_, rfl⟩

theorem unionLoop_cons {repr : Val → String} {a : SrcVal SSrc} {s : SSrc} (h : Unitable a s) (i : Nat)
    (rest : List (SrcVal SSrc)) :
    unionLoop repr true i (a :: rest)
      = ((unionLoop repr true (i + 1) rest).1, .source s :: (unionLoop repr true (i + 1) rest).2) := by
  cases h <;> rfl

theorem unionLoop_pre {repr : Val → String} {pre : List (SrcVal SSrc)} {srcs : List SSrc} (h : Paired Unitable pre srcs)
    (post : List (SrcVal SSrc)) : ∀ i,
    unionLoop repr true i (pre ++ post) = ((unionLoop repr true (i + pre.length) post).1,
      srcs.map .source ++ (unionLoop repr true (i + pre.length) post).2) := by
  induction h with
  | nil => intro i; rfl
  | cons h _ ih =>
    intro i
    rw [List.cons_append, unionLoop_cons h, ih, List.length_cons, show ∀ n, i + 1 + n = i + (n + 1) from fun n => by omega]
    rfl

theorem sourcesOf_map (srcs : List SSrc) : sourcesOf (srcs.map .source) = srcs := by
  induction srcs with
  | nil => rfl
  | cons s rest ih => simp only [List.map_cons, sourcesOf, ih]

/-- C98, unions: a list of sources and mappings makes a `UnionSource` of those sources and of plain sources over
the mappings, in order; the merges that are not given are the common one.  The caller's list then holds
the sources. -/
theorem C98_union {repr : Val → String} {items : List (SrcVal SSrc)} {srcs : List SSrc} (h : Paired Unitable items srcs)
    (merge : Merge) (mm sm : Option Merge) (depth : Option Nat) :
    ∃ cfg : UnionCfg, makeUnion repr items true merge mm sm depth = (.ok (.union cfg srcs), srcs.map .source) ∧
      (∀ m, mm = some m → cfg.mappingMerge = m) ∧ (mm = none → cfg.mappingMerge = merge) ∧
      (∀ m, sm = some m → cfg.sequenceMerge = m) ∧ (sm = none → cfg.sequenceMerge = merge) ∧
      cfg.mergeDepth = depth := by
  have hl := unionLoop_pre (repr := repr) h [] 0
  rw [List.append_nil] at hl
  have hl' : unionLoop repr true 0 items = (none, srcs.map .source) := by rw [hl]; simp [unionLoop]
  refine ⟨_, by unfold makeUnion; rw [hl']; simp only [sourcesOf_map]; rfl, ?_⟩
  refine ⟨?_, ?_, ?_, ?_, rfl⟩
  · rintro m rfl; rfl
  · rintro rfl; rfl
  · rintro m rfl; rfl
  · rintro rfl; rfl

/-- C98, unions: the first item that is neither a source nor a mapping is refused with a `TypeError` that gives its
index; the mappings before it have been replaced in the caller's list. -/
theorem C98_union_refuses {repr : Val → String} {pre post : List (SrcVal SSrc)} {srcs : List SSrc} {v : Val}
    (h : Paired Unitable pre srcs) (hv : ∀ s, ¬ Unitable (.val v) s) (merge : Merge) (mm sm : Option Merge)
    (depth : Option Nat) :
    makeUnion repr (pre ++ .val v :: post) true merge mm sm depth
      = (.error (.typeError ("src[" ++ toString pre.length ++ "]=" ++ repr v ++ " is not Source or mapping")),
         srcs.map .source ++ .val v :: post) := by
  have hb : unionLoop repr true pre.length (.val v :: post)
      = (some (.typeError ("src[" ++ toString pre.length ++ "]=" ++ repr v ++ " is not Source or mapping")),
         .val v :: post) := by
    cases v with
    | dict kvs => exact (hv _ (.dict kvs)).elim
    | form i => exact (hv _ (.form i)).elim
    | _ => rfl
  unfold makeUnion
  rw [unionLoop_pre h, Nat.zero_add, hb]

/-- C98, unions: the paths of a union that was made start as C39-C42 say. -/
theorem C98_union_path {cfg : UnionCfg} {srcs : List SSrc} {p : BPath} (h : (BSrc.union cfg srcs).path L = .ok p) :
    ∃ q, p = .union q ∧ ∀ ops : List PathOp, UPath.Of L cfg (srcs.map SSrc.path) (ops.foldl (UPath.act L) q) := by
  obtain ⟨q, hq, rfl⟩ := BSrc.path_union h
  refine ⟨q, rfl, fun ops => ⟨fun c hc => ?_, q, ops, hq, rfl⟩⟩
  obtain ⟨s, _, rfl⟩ := List.mem_map.1 hc
  rw [s.path_keys]
  rfl

/-- A tuple will do only when there is nothing to wrap: the first mapping in it raises. -/
theorem C98_union_tuple {repr : Val → String} (srcs : List SSrc) (kvs : List (Val × Val))
    (post : List (SrcVal SSrc)) (merge : Merge) (mm sm : Option Merge) (depth : Option Nat) :
    (makeUnion repr (srcs.map .source ++ .val (.dict kvs) :: post) false merge mm sm depth).1
      = .error (.typeError "'tuple' object does not support item assignment") := by
  have hl : ∀ i, unionLoop repr false i (srcs.map .source ++ .val (.dict kvs) :: post)
      = (some (.typeError "'tuple' object does not support item assignment"),
         srcs.map .source ++ .val (.dict kvs) :: post) := by
    induction srcs with
    | nil => intro i; rfl
    | cons s rest ih => intro i; simp only [List.map_cons, List.cons_append, unionLoop, ih]
  unfold makeUnion
  rw [hl]

/-! ## C99: config sources -/

/-- C99: a filled parser makes a `ConfigSource` over its options, unless `preserve_case` is asked for, or
`preserve_whitespace` without a location. -/
theorem C99_partial (d : CfgData) (sec loc : Option String) (dfl : Option (List (Val × Val))) (ws : Bool)
    (raw : List String) (h : ws = true → loc ≠ none) :
    ∃ cfg : ConfigCfg, makeConfig (.parser d) sec loc dfl ws false raw = .ok (.config cfg) ∧ cfg.data = d ∧
      cfg.sectionName = sec ∧ cfg.location = loc ∧ cfg.defaults = dfl ∧ cfg.preserveWhitespace = ws ∧ cfg.raw = raw := by
  refine ⟨{ data := d, sectionName := sec, location := loc, defaults := dfl, preserveWhitespace := ws, raw := raw },
    ?_, rfl, rfl, rfl, rfl, rfl, rfl⟩
  unfold makeConfig
  cases ws with
  | false => rfl
  | true =>
    cases loc with
    | none => exact (h rfl rfl).elim
    | some l => rfl

/-- C99: `preserve_whitespace` needs a location. -/
theorem C99_whitespace (c : ConfigArg) (sec : Option String) (dfl : Option (List (Val × Val))) (pc : Bool)
    (raw : List String) :
    makeConfig c sec none dfl true pc raw = .error (.valueError "preserve_white_space=True without location") := rfl

/-- C99 fails for texts: whatever the text and the options are, a `ConfigSource` of a text raises; it is an
`AttributeError` when the options are in order. -/
theorem C99_text_counterexample (x : String) (sec loc : Option String) (dfl : Option (List (Val × Val))) (ws pc : Bool)
    (raw : List String) :
    (∀ s, makeConfig (.text x) sec loc dfl ws pc raw ≠ .ok s) ∧
    ((ws = true → loc ≠ none) → ∃ m, makeConfig (.text x) sec loc dfl ws pc raw = .error (.attributeError m)) := by
  constructor
  · intro s h
    unfold makeConfig at h
    split at h
    · cases h
    · cases pc <;> cases h
  · intro h
    unfold makeConfig
    rw [if_neg]
    · cases pc
      · exact ⟨_, rfl⟩
      · exact ⟨_, rfl⟩
    · cases ws with
      | false => simp
      | true =>
        cases loc with
        | none => exact (h rfl rfl).elim
        | some l => simp

/-- C99 fails for `from_file`: for a file that can be read it raises an `AttributeError`. -/
theorem C99_file_counterexample {read : String → Except Exc String} {path x : String} (h : read path = .ok x)
    (sec : Option String) (dfl : Option (List (Val × Val))) (ws pc : Bool) (raw : List String) :
    ∃ m, configFromFile read path sec dfl ws pc raw = .error (.attributeError m) := by
  unfold configFromFile
  rw [h]
  exact (C99_text_counterexample x sec (some path) dfl ws pc raw).2 fun _ => by simp

/-- C99 fails for `preserve_case`: with it no `ConfigSource` can be made at all. -/
theorem C99_case_counterexample (c : ConfigArg) (sec loc : Option String) (dfl : Option (List (Val × Val))) (ws : Bool)
    (raw : List String) (s : SSrc) : makeConfig c sec loc dfl ws true raw ≠ .ok s := by
  cases c with
  | text x => exact (C99_text_counterexample x sec loc dfl ws true raw).1 s
  | parser d =>
    unfold makeConfig
    split
    · exact nofun
    · exact nofun

/-! ## C21: the ignores of a native source that was made -/

/-- C21, ignores as they are given: dotted texts.  When a key is appended so that the keys of the path are the parts
of one of them, the value read there is absent, whatever was read before. -/
theorem C21_made_ignored_partial {data : Val} {aliases : Option (List (Val × Val))} {igs : List String}
    {loc : Option String} {cfg : DefaultCfg} (hm : makeDefault data aliases (some igs) loc = .dflt data cfg)
    {st : PathSt Val} (ht : st.Tidy) {k : Val} {ig : String} (hig : ig ∈ igs) {ns : List String} (hd : Dotted ig ns)
    (hks : st.keys ++ [k] = ns.map Val.str) : (SPath.value L (SPath.append (.dflt cfg st) k)).1 = .ok .NONE := by
  refine C21_ignored_partial ht ?_ hks
  unfold makeDefault at hm
  cases hm
  exact List.mem_map.2 ⟨ig, hig, dotSplit_iff.2 hd⟩

namespace Demo
open MPath

/-- `MountSource(env={'a': 1}, none=None, file=JsonSource(...))`. -/
def mountArgs : List (String × SrcVal BSrc) :=
  [("env", .val (.dict [(.str "a", .int 1)])), ("none", .val .none),
   ("file", .source (.simple (.json (.dict [(.str "b", .int 2)]) true none)))]

example : ∀ x ∈ mountArgs, ∃ s, Mountable x.2 s := by
  intro x hx
  simp only [mountArgs, List.mem_cons, List.not_mem_nil, or_false] at hx
  rcases hx with rfl | rfl | rfl
  · exact ⟨_, .dict _⟩
  · exact ⟨_, .null⟩
  · exact ⟨_, .source _⟩

/-- Under `env` the mount answers as the dict does. -/
example : (match makeMount (fun _ => "?") mountArgs with
    | .ok srcs => match mountPath { lib with py3 := false } srcs with
      | .ok p => (match [PathOp.append (.str "env"), .append (.str "a")].foldl (MPath.act { lib with py3 := false }) p with
        | q => match (q.value { lib with py3 := false }).1 with
          | .ok (.int i) => i == 1
          | _ => false)
      | .error _ => false
    | .error _ => false) = true := by decide +kernel

/-- `MountSource(env={}, file='x.json', other=3)`. -/
example : makeMount (fun _ => "'x.json'") ([("env", .val (.dict []))] ++ ("file", .val (.str "x.json")) :: [("other", .val (.int 3))])
    = .error (.typeError "file='x.json' is not None, dict or Source") :=
  C98_mount_refuses (by intro x hx; cases List.mem_singleton.1 hx; exact ⟨_, .dict []⟩) (by intro s h; cases h)

/-- `UnionSource([{'a': 1}, JsonSource(...)], merge='combine')`. -/
example : Paired Unitable [.val (.dict [(.str "a", .int 1)]), .source (.json .none true none)]
    [plainSource (.dict [(.str "a", .int 1)]), .json .none true none] :=
  .cons (.dict _) (.cons (.source _) .nil)

/-- A list is not a mapping. -/
example (s : SSrc) : ¬ Unitable (.val (.list [.int 1])) s := by intro h; cases h

/-- `DefaultSource({'a': {'b': 1}}, ignores=['a.b'])`. -/
def ignoring : SSrc := makeDefault (.dict [(.str "a", .dict [(.str "b", .int 1)])]) none (some ["a.b"])

example : Dotted "a.b" ["a", "b"] := ⟨rfl, by simp, by decide⟩

/-- Key by key the ignored path is absent ... -/
example : (match (SPath.value lib ((ignoring.path.append (.str "a")).append (.str "b"))).1 with
    | .ok v => v.isNONE | .error _ => false) = true := by decide +kernel

/-- ... but the same path written as one dotted key is not ignored. -/
theorem C21_dotted_counterexample : (match (SPath.value lib (ignoring.path.append (.str "a.b"))).1 with
    | .ok (.int i) => i == 1 | _ => false) = true := by decide +kernel

/-- A parser with a location, and one without. -/
example : (true = true → (some "x.ini" : Option String) ≠ none) ∧ (false = true → (none : Option String) ≠ none) := by simp

end Demo
end Pilo
