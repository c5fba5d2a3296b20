import Verif.Keeps
import Verif.Demo
import Verif.ValEq

/-!
# C23, C25, C26, C31: the container fields work item by item

The specifications below say which computations are run, in which order, and what is made of their results.
They hold for any hooks, sources and contexts.
-/

namespace Pilo
variable {P : Type} {α β : Type} {I : PathOps P} {L : Lib} {C : Classes} {rec : Rec P}

/-- Run computations one after the other and collect their results. -/
def inOrder : List (M P α) → M P (List α)
  | [] => M.pure []
  | m :: ms => do
    let a ← m
    let as ← inOrder ms
    M.pure (a :: as)

theorem inOrder_cons (m : M P α) (ms : List (M P α)) :
    inOrder (m :: ms) = (m >>= fun a => inOrder ms >>= fun as => M.pure (a :: as)) := rfl

/-- `with ctx(src=k): m`. -/
def atKey (I : PathOps P) (k : Val) (m : M P α) : M P α := withPush I (pushKey I k) m

/-- The values that are not one of the sentinels `NONE`, `ERROR`, `NOT_SET`. -/
def usable (vs : List Val) : List Val := vs.filter fun v => !v.isIgnore

theorem M.ext {m m' : M P α} (h : ∀ s, m s = m' s) : m = m' := funext h

theorem M.bind_assoc (m : M P α) (f : α → M P β) {γ : Type} (g : β → M P γ) :
    ((m >>= f) >>= g) = (m >>= fun a => f a >>= g) := by
  funext s
  rcases hm : m s with ⟨r, s'⟩
  cases r with
  | error e => rw [M.bind_error hm, M.bind_error (M.bind_error hm)]
  | ok a =>
    rw [M.bind_ok hm]
    rcases h2 : f a s' with ⟨r2, s2⟩
    cases r2 with
    | ok _ => rw [M.bind_ok h2, M.bind_ok (M.bind_ok hm |>.trans h2)]
    | error e => rw [M.bind_error h2, M.bind_error (M.bind_ok hm |>.trans h2)]

theorem M.pure_bind (a : α) (f : α → M P β) : (M.pure a >>= f) = f a := rfl

/-! ## C23 -/

/-- The items of a list field, before the failed ones are dropped. -/
def listItems (I : PathOps P) (rec : Rec P) (f : Field) (from_ n : Nat) : M P (List Val) :=
  inOrder ((List.range' from_ n).map fun (i : Nat) => atKey I (.int i) (rec f .NONE))

theorem listLoop_eq (f : Field) (n : Nat) :
    ∀ i, listLoop I rec f i n = (listItems I rec f i n >>= fun rs => M.pure (usable rs)) := by
  induction n with
  | zero => intro i; rfl
  | succ n ih =>
    intro i
    unfold listLoop
    rw [ih]
    unfold listItems
    rw [List.range'_succ, List.map_cons, inOrder_cons]
    simp only [M.bind_assoc, M.pure_bind]
    refine congrArg _ (funext fun a => congrArg _ (funext fun as => ?_))
    unfold usable
    cases h : a.isIgnore <;> simp [h]

theorem inOrder_length {ms : List (M P α)} :
    ∀ {s s' : St P} {rs : List α}, inOrder ms s = (.ok rs, s') → rs.length = ms.length := by
  induction ms with
  | nil => intro s s' rs h; cases h; rfl
  | cons m ms ih =>
    intro s s' rs h
    unfold inOrder at h
    rcases hm : m s with ⟨r, s1⟩
    cases r with
    | error e => rw [M.bind_error hm] at h; cases h
    | ok a =>
      rw [M.bind_ok hm] at h
      rcases h2 : inOrder ms s1 with ⟨r2, s2⟩
      cases r2 with
      | error e => rw [M.bind_error h2] at h; cases h
      | ok as =>
        rw [M.bind_ok h2] at h
        cases h
        simp [ih h2]

/-- Step `i` of an ordered run: the state it starts from, its result and the state it ends in. -/
inductive Steps : List (M P α) → St P → List α → St P → Prop where
  | nil {s} : Steps [] s [] s
  | cons {m ms s a s1 as s2} (h : m s = (.ok a, s1)) (hs : Steps ms s1 as s2) :
      Steps (m :: ms) s (a :: as) s2

theorem inOrder_steps {ms : List (M P α)} :
    ∀ {s s' : St P} {rs : List α}, inOrder ms s = (.ok rs, s') ↔ Steps ms s rs s' := by
  induction ms with
  | nil =>
    intro s s' rs
    constructor
    · intro h; cases h; exact .nil
    · intro h; cases h; rfl
  | cons m ms ih =>
    intro s s' rs
    unfold inOrder
    rcases hm : m s with ⟨r, s1⟩
    cases r with
    | error e =>
      rw [M.bind_error hm]
      constructor
      · intro h; cases h
      · intro h
        cases h with
        | cons h _ => rw [hm] at h; cases h
    | ok a =>
      rw [M.bind_ok hm]
      rcases h2 : inOrder ms s1 with ⟨r2, s2⟩
      cases r2 with
      | error e =>
        rw [M.bind_error h2]
        constructor
        · intro h; cases h
        · intro h
          cases h with
          | cons h hs =>
            rw [hm] at h; cases h
            rw [ih.2 hs] at h2; cases h2
      | ok as =>
        rw [M.bind_ok h2]
        constructor
        · intro h; cases h; exact .cons hm (ih.1 h2)
        · intro h
          cases h with
          | cons h hs =>
            rw [hm] at h; cases h
            rw [ih.2 hs] at h2; cases h2
            rfl

/-- C23. When the source has a sequence of length `n`, `List._parse` maps the item field at `0`, …, `n-1`,
in this order and each in the context the previous one left; if none of these raises, the value is the list of
the usable results. -/
theorem C23_list (c : FieldCore) (f : Field) (lo hi : Option Nat) (allow : Bool) {n : Nat} {s s1 : St P}
    (hseq : readPath I.sequence s = (.ok n, s1)) :
    kindParse I L C rec (.mk c (.list f lo hi allow)) s =
      (inOrder ((List.range n).map fun (i : Nat) => atKey I (.int i) (rec f .NONE)) >>= fun rs =>
        M.pure (.list (usable rs))) s1 := by
  change listParse I rec f allow s = _
  unfold listParse seqTry
  have h1 : M.tryCatch (do let n ← readPath I.sequence; M.pure (.ok n) : M P (Except Exc Nat)) (fun e => do
      let hs ← pathHasSrc I
      if !hs then M.raise (.attributeError "'MountPath' object has no attribute 'src'")
      else if e.isSourceError then M.pure (.error e)
      else M.raise e) s = (.ok (.ok n), s1) := by
    unfold M.tryCatch
    rw [M.bind_ok hseq]
    rfl
  rw [M.bind_ok h1]
  simp only [listLoop_eq, listItems, List.range_eq_range', M.bind_assoc, M.pure_bind]

/-- C23, lengths: at most as many items as the sequence has, and exactly as many when every item maps. -/
theorem C23_lengths (c : FieldCore) (f : Field) (lo hi : Option Nat) (allow : Bool) {n : Nat}
    {s s1 s2 : St P} {v : Val} (hseq : readPath I.sequence s = (.ok n, s1))
    (h : kindParse I L C rec (.mk c (.list f lo hi allow)) s = (.ok v, s2)) :
    ∃ rs, Steps ((List.range n).map fun (i : Nat) => atKey I (.int i) (rec f .NONE)) s1 rs s2 ∧
      rs.length = n ∧ v = .list (usable rs) ∧ (usable rs).length ≤ n ∧
      ((∀ r ∈ rs, r.isIgnore = false) → v = .list rs) := by
  rw [C23_list c f lo hi allow hseq] at h
  rcases h2 : inOrder ((List.range n).map fun (i : Nat) => atKey I (.int i) (rec f .NONE)) s1 with ⟨r, s3⟩
  cases r with
  | error e => rw [M.bind_error h2] at h; cases h
  | ok rs =>
    rw [M.bind_ok h2] at h
    cases h
    have hl := inOrder_length h2
    simp only [List.length_map, List.length_range] at hl
    refine ⟨rs, inOrder_steps.1 h2, hl, rfl, ?_, ?_⟩
    · unfold usable; rw [← hl]; exact List.length_filter_le _ _
    · intro hall
      unfold usable
      rw [List.filter_eq_self.2 (by intro a ha; simp [hall a ha])]

/-! ## C25 -/

theorem tupleLoop_eq (fs : List Field) :
    ∀ i, tupleLoop I rec i fs =
      (inOrder ((fs.zipIdx i).map fun x => atKey I (.int x.2) (rec x.1 .NONE)) >>= fun rs =>
        M.pure (usable rs)) := by
  induction fs with
  | nil => intro i; rfl
  | cons f fs ih =>
    intro i
    unfold tupleLoop
    rw [ih, List.zipIdx_cons, List.map_cons, inOrder_cons]
    simp only [M.bind_assoc, M.pure_bind]
    refine congrArg _ (funext fun a => congrArg _ (funext fun as => ?_))
    unfold usable
    cases h : a.isIgnore <;> simp [h]

/-- C25. `Tuple._parse` on a sequence of length `n`: with another arity than the fields it reports one
invalid value and yields `ERROR`; otherwise field `i` is mapped at item `i`, in order, and the usable results
make the tuple. -/
theorem C25_tuple (c : FieldCore) (fs : List Field) {n : Nat} {s s1 : St P}
    (hseq : readPath I.sequence s = (.ok n, s1)) :
    kindParse I L C rec (.mk c (.tuple fs)) s =
      if n = fs.length then
        (inOrder (fs.zipIdx.map fun x => atKey I (.int x.2) (rec x.1 .NONE)) >>= fun rs =>
          M.pure (.tuple (usable rs))) s1
      else (invalid I ("Must have exactly " ++ toString fs.length ++ " items") >>= fun _ =>
          M.pure Val.ERROR) s1 := by
  change tupleParse I rec fs s = _
  unfold tupleParse
  refine (M.bind_ok hseq).trans ?_
  by_cases hn : n = fs.length
  · simp only [hn, ne_eq, not_true, if_false, if_true, tupleLoop_eq, M.bind_assoc, M.pure_bind]
  · simp only [hn, ne_eq, not_false_iff, if_true, if_false]
    rfl

/-- C25, arity: a value is always a tuple; when all items map it has exactly the arity, item `i` being what
field `i` made of item `i`. -/
theorem C25_arity (c : FieldCore) (fs : List Field) {s s1 s2 : St P} {v : Val}
    (hseq : readPath I.sequence s = (.ok fs.length, s1))
    (h : kindParse I L C rec (.mk c (.tuple fs)) s = (.ok v, s2)) :
    ∃ rs, Steps (fs.zipIdx.map fun x => atKey I (.int x.2) (rec x.1 .NONE)) s1 rs s2 ∧
      rs.length = fs.length ∧ v = .tuple (usable rs) ∧
      ((∀ r ∈ rs, r.isIgnore = false) → v = .tuple rs) := by
  rw [C25_tuple c fs hseq, if_pos rfl] at h
  rcases h2 : inOrder (fs.zipIdx.map fun x => atKey I (.int x.2) (rec x.1 .NONE)) s1 with ⟨r, s3⟩
  cases r with
  | error e => rw [M.bind_error h2] at h; cases h
  | ok rs =>
    rw [M.bind_ok h2] at h
    cases h
    refine ⟨rs, inOrder_steps.1 h2, by simpa using inOrder_length h2, rfl, ?_⟩
    intro hall
    unfold usable
    rw [List.filter_eq_self.2 (by intro a ha; simp [hall a ha])]

/-! ## C26 -/

/-- Does the key filter, if there is one, accept the key? -/
def keyPasses (I : PathOps P) (L : Lib) (C : Classes) (rec : Rec P)
    (kfl : Option (Hook (Val → Prog))) (k : Val) : M P Bool :=
  match kfl with
  | none => M.pure true
  | some h => do let r ← callHook1 I L C rec h k; M.pure r.truthy

/-- What `Dict._parse` does with one source key: `none` when the key is filtered out or the value or the
key does not map. -/
def dictEntry (I : PathOps P) (L : Lib) (C : Classes) (rec : Rec P) (kf vf : Field)
    (kfl : Option (Hook (Val → Prog))) (k : Val) : M P (Option (Val × Val)) := do
  let keep ← keyPasses I L C rec kfl k
  if keep then do
    let v ← atKey I k (rec vf .NONE)
    if v.isIgnore then M.pure none
    else do
      let k' ← rec kf k
      if k'.isIgnore then M.pure none
      else if k'.hashable then M.pure (some (k', v))
      else M.raise (.typeError "unhashable type")
  else M.pure none

/-- The dict made of entries; later ones win on equal keys, at the place of the first. -/
def dictOf (es : List (Option (Val × Val))) : List (Val × Val) :=
  (es.filterMap id).foldl (fun d kv => dictSet d kv.1 kv.2) []

theorem dictLoop_eq (kf vf : Field) (kfl : Option (Hook (Val → Prog))) (ks : List Val) :
    ∀ acc, dictLoop I L C rec kf vf kfl ks acc =
      (inOrder (ks.map (dictEntry I L C rec kf vf kfl)) >>= fun es =>
        M.pure ((es.filterMap id).foldl (fun d kv => dictSet d kv.1 kv.2) acc)) := by
  induction ks with
  | nil => intro acc; rfl
  | cons k ks ih =>
    intro acc
    unfold dictLoop
    rw [List.map_cons, inOrder_cons, M.bind_assoc]
    unfold dictEntry
    have hk : keepKey I L C rec kfl k = keyPasses I L C rec kfl k := by cases kfl <;> rfl
    rw [hk, M.bind_assoc]
    refine congrArg _ (funext fun keep => ?_)
    cases keep with
    | false =>
      simp only [Bool.not_false, if_true, Bool.false_eq_true, if_false, M.pure_bind, ih, M.bind_assoc]
      rfl
    | true =>
      simp only [Bool.not_true, Bool.false_eq_true, if_false, if_true, M.bind_assoc]
      refine congrArg _ (funext fun v => ?_)
      cases hv : v.isIgnore with
      | true =>
        simp only [if_true, M.pure_bind, ih]
        rfl
      | false =>
        simp only [Bool.false_eq_true, if_false, M.bind_assoc]
        refine congrArg _ (funext fun k' => ?_)
        cases hk' : k'.isIgnore with
        | true =>
          simp only [if_true, M.pure_bind, ih]
          rfl
        | false =>
          cases hh : k'.hashable with
          | true =>
            simp only [Bool.false_eq_true, Bool.not_true, if_false, if_true, M.pure_bind, ih]
            rfl
          | false =>
            simp only [Bool.false_eq_true, Bool.not_false, if_false, if_true]
            rfl

/-- C26. `Dict._parse` on a mapping with keys `ks` handles the keys in order; the value is the dict of the
entries. -/
theorem C26_dict (c : FieldCore) (kf vf : Field) (kfl : Option (Hook (Val → Prog))) (req : Required)
    (mx : Option Nat) {ks : List Val} {s s1 : St P}
    (hmap : readPath I.mapping s = (.ok (some { ks := ks, iterErr := none }), s1)) :
    kindParse I L C rec (.mk c (.dict kf vf kfl req mx)) s =
      (inOrder (ks.map (dictEntry I L C rec kf vf kfl)) >>= fun es =>
        M.pure (.dict (dictOf es))) s1 := by
  change dictParse I L C rec _ kf vf kfl s = _
  unfold dictParse
  refine (M.bind_ok hmap).trans ?_
  simp only [iterKeys, M.pure_bind, dictLoop_eq, M.bind_assoc]
  rfl

/-- C26, the constraints: with a set of required keys and a non-zero bound (or none), the dict passes
exactly when it has all required keys and not more than the bound. -/
theorem C26_constraints_partial (kvs : List (Val × Val)) (req : List Val) (mx : Option Nat)
    (hm : mx ≠ some 0) (s : St P) :
    dictValidate I L (.set req) mx (.dict kvs) s = (.ok true, s) ↔
      (∀ k ∈ req, k.inList (kvs.map Prod.fst) = true) ∧ (∀ m, mx = some m → kvs.length ≤ m) := by
  have hne : ∀ (msg : String) (s1 s2 : St P), rejectWith I msg s1 ≠ (.ok true, s2) := by
    intro msg s1 s2 h
    unfold rejectWith at h
    rcases h1 : invalid I msg s1 with ⟨r, s3⟩
    cases r with
    | ok _ => rw [M.bind_ok h1] at h; cases h
    | error e => rw [M.bind_error h1] at h; cases h
  have hmiss : ∃ l, missingKeys (.set req) (.dict kvs) = .ok l ∧
      (l = [] ↔ ∀ k ∈ req, k.inList (kvs.map Prod.fst) = true) := by
    cases req with
    | nil => exact ⟨[], rfl, by simp⟩
    | cons a as =>
      refine ⟨_, rfl, ?_⟩
      rw [List.filter_eq_nil_iff]
      simp
  obtain ⟨l, hl, hl'⟩ := hmiss
  unfold dictValidate
  rw [hl]
  refine Iff.trans (b := _) (by rw [show (M.ofExcept (.ok l) : M P _) = M.pure l from rfl, M.pure_bind]) ?_
  cases l with
  | cons x xs =>
    simp only [List.isEmpty_cons, Bool.not_false, if_true]
    constructor
    · intro h
      cases hj : L.joinKeys (x :: xs) with
      | some t => rw [hj] at h; exact absurd h (hne _ _ _)
      | none => rw [hj] at h; cases h
    · intro h
      exact absurd (hl'.2 h.1) (by simp)
  | nil =>
    simp only [List.isEmpty_nil, Bool.not_true, Bool.false_eq_true, if_false]
    have hreq := hl'.1 rfl
    cases mx with
    | none =>
      simp only
      exact ⟨fun _ => ⟨hreq, by simp⟩, fun _ => rfl⟩
    | some m =>
      cases m with
      | zero => exact absurd rfl hm
      | succ m =>
        simp only
        rw [show (M.ofExcept (pyLen (.dict kvs)) : M P _) = M.pure kvs.length from rfl, M.pure_bind]
        by_cases hlt : m + 1 < kvs.length
        · rw [if_pos hlt]
          constructor
          · intro h; exact absurd h (hne _ _ _)
          · intro h; have := h.2 _ rfl; omega
        · rw [if_neg hlt]
          refine ⟨fun _ => ⟨hreq, ?_⟩, fun _ => rfl⟩
          intro m' hm'
          cases hm'
          omega

/-- C26 fails for `max_keys=0`: any number of keys passes. -/
theorem C26_max_keys_zero (kvs : List (Val × Val)) (s : St P) :
    dictValidate I L (.list []) (some 0) (.dict kvs) s = (.ok true, s) := rfl

/-- C26 fails for `required_keys` given as a non-empty list: the check raises `AttributeError`. -/
theorem C26_required_list (k : Val) (ks : List Val) (mx : Option Nat) (v : Val) (s : St P) :
    (dictValidate I L (.list (k :: ks)) mx v s).1 =
      .error (.attributeError "'list' object has no attribute 'difference'") := rfl

/-! ## C31 -/

/-- Does a `Group` source match a key, and with which captures?  Only strings are matched by patterns. -/
def GSrc.captures : GSrc → Val → Option Val
  | .str s, k => if (Val.str s).pyEq k then some .none else Option.none
  | .re m, .str s => m s
  | .re _, _ => Option.none

/-- The first pair that matches, with the captures. -/
def firstMatch (fs : List (GSrc × Field)) (k : Val) : Option (Field × Val) :=
  fs.findSome? fun x => (x.1.captures k).map fun cap => (x.2, cap)

/-- What `Group._parse` does with one source key: nothing if no pair matches; else map the field there. -/
def groupEntry (I : PathOps P) (rec : Rec P) (fs : List (GSrc × Field)) (k : Val) :
    M P (Option (Option Val)) :=
  match firstMatch fs k with
  | none => M.pure none
  | some (f, cap) => do
    let v ← atKey I k (rec f .NONE)
    M.pure (some (if v.isIgnore then none else some (.tuple [k, cap, v])))

theorem groupMatch_eq (fs : List (GSrc × Field)) (x : String) :
    groupMatch fs (.str x) = .ok (firstMatch fs (.str x)) := by
  induction fs with
  | nil => rfl
  | cons y ys ih =>
    obtain ⟨g, f⟩ := y
    unfold firstMatch at *
    rw [List.findSome?_cons]
    cases g with
    | str t =>
      cases h : (Val.str t).pyEq (.str x) with
      | true => simp [groupMatch, GSrc.captures, h]
      | false =>
        have hc : (GSrc.str t).captures (.str x) = Option.none := by simp [GSrc.captures, h]
        simp only [groupMatch, h, hc, Option.map_none, ih, Bool.false_eq_true, if_false]
    | re m =>
      cases h : m x with
      | some c => simp [groupMatch, GSrc.captures, h]
      | none =>
        have hc : (GSrc.re m).captures (.str x) = Option.none := by simp [GSrc.captures, h]
        simp only [groupMatch, h, hc, Option.map_none, ih]

/-- The list `Group._parse` makes: `none` when no key matched. -/
def groupOf (es : List (Option (Option Val))) : Option (List Val) :=
  if es.any Option.isSome then some (es.filterMap fun e => e.join) else none

theorem groupLoop_eq (fs : List (GSrc × Field)) (ks : List String) :
    ∀ matched acc, groupLoop I rec fs (ks.map Val.str) matched acc =
      (inOrder (ks.map fun k => groupEntry I rec fs (.str k)) >>= fun es =>
        M.pure (if matched || es.any Option.isSome then
          some (acc ++ es.filterMap fun e => e.join) else none)) := by
  induction ks with
  | nil => intro matched acc; cases matched <;> simp [groupLoop, inOrder, M.pure_bind]
  | cons k ks ih =>
    intro matched acc
    simp only [List.map_cons, inOrder_cons, M.bind_assoc]
    unfold groupLoop groupEntry
    rw [groupMatch_eq]
    cases hm : firstMatch fs (.str k) with
    | none =>
      have : (M.ofExcept (.ok (none : Option (Field × Val))) : M P _) = M.pure none := rfl
      rw [this]
      simp only [M.pure_bind, ih]
      rfl
    | some fc =>
      obtain ⟨f, cap⟩ := fc
      have : (M.ofExcept (.ok (some (f, cap))) : M P _) = M.pure (some (f, cap)) := rfl
      rw [this]
      simp only [M.pure_bind, M.bind_assoc]
      refine congrArg _ (funext fun v => ?_)
      cases hv : v.isIgnore with
      | true =>
        simp only [if_true, ih]
        refine congrArg _ (funext fun es => ?_)
        simp
      | false =>
        simp only [Bool.false_eq_true, if_false, ih]
        refine congrArg _ (funext fun es => ?_)
        simp

/-- C31. `Group._parse` on a mapping whose keys are strings handles the keys in source order, each with the
first pair that matches it; when none matches the value is `NONE`, for which the default is used
(`fieldStart`). -/
theorem C31_group (c : FieldCore) (fs : List (GSrc × Field)) {ks : List String} {s s1 : St P}
    (hmap : readPath I.mapping s = (.ok (some { ks := ks.map Val.str, iterErr := none }), s1)) :
    kindParse I L C rec (.mk c (.group fs)) s =
      (inOrder (ks.map fun k => groupEntry I rec fs (.str k)) >>= fun es =>
        M.pure (match groupOf es with
          | some vs => .list vs
          | none => .NONE)) s1 := by
  change groupParse I L C rec _ fs s = _
  unfold groupParse
  refine (M.bind_ok hmap).trans ?_
  simp only [iterKeys, M.pure_bind, groupLoop_eq, M.bind_assoc]
  refine congrFun (congrArg _ (funext fun es => ?_)) s1
  unfold groupOf
  cases h : es.any Option.isSome <;> simp

/-! ## Examples -/

namespace Demo

/-- A context in which `ctx.src_path` is at the root of native data. -/
def at_ (v : Val) : St Path :=
  (pushSource (.ok ((Path.ops lib).native v none)) { errors := some 0, form := some 0 }
    { St.init with errs := [⟨false, []⟩], forms := [⟨0, [], none⟩] }).2

/-- Result and collected errors of mapping a field in that context. -/
def mapAt (f : Field) (v : Val) : Except Exc Val × List (List (ErrKind × String)) :=
  let r := mapField (Path.ops lib) lib classes 5 f .NONE (at_ v)
  (r.1, r.2.errs.map fun b => b.items.map fun e => (e.kind, e.path))

/-- Length of the sequence at the root. -/
def seqLen (v : Val) : Option Nat :=
  match (readPath (Path.ops lib).sequence (at_ v)).1 with
  | .ok n => some n
  | .error _ => none

/-- Keys of the mapping at the root. -/
def mapKeys (v : Val) : Option (List Val) :=
  match (readPath (Path.ops lib).mapping (at_ v)).1 with
  | .ok (some kv) => some kv.ks
  | _ => none

def ints : Field := .mk {} (.list (.mk {} (.integer {})) none none false)
def pair : Field := .mk {} (.tuple [.mk {} (.integer {}), .mk {} (.string {})])
def counts : Field := .mk {} (.dict (.mk {} (.string {})) (.mk {} (.integer {})) none (.set [.str "a"]) (some 2))
def grp : Field := .mk {} (.group [(.str "a", .mk {} (.integer {})),
  (.re fun s => if s.startsWith "x" then some (.str (s.drop 1).toString) else none, .mk {} (.string {}))])

end Demo

example : Demo.seqLen (.list [.int 1, .str "x", .str "3"]) = some 3 := by decide +kernel
example : Demo.mapAt Demo.ints (.list [.int 1, .str "x", .str "3"]) =
    (.ok (.list [.int 1, .int 3]), [[(.invalid "\"x\" is not an integer", "1")]]) := by decide +kernel
example : Demo.mapAt Demo.pair (.tuple [.int 1, .str "x"]) =
    (.ok (.tuple [.int 1, .str "x"]), [[]]) := by decide +kernel
example : (Demo.mapAt Demo.pair (.tuple [.int 1])).1 = .ok .ERROR := by decide +kernel
/-- An item that fails shifts the later ones. -/
example : (Demo.mapAt Demo.pair (.tuple [.str "z", .str "x"])).1 = .ok (.tuple [.str "x"]) := by
  decide +kernel
example : Demo.mapKeys (.dict [(.str "a", .int 1), (.str "b", .str "z"), (.str "c", .int 3)]) =
    some [.str "a", .str "b", .str "c"] := by decide +kernel
example : (Demo.mapAt Demo.counts (.dict [(.str "a", .int 1), (.str "b", .str "z"), (.str "c", .int 3)])).1 =
    .ok (.dict [(.str "a", .int 1), (.str "c", .int 3)]) := by decide +kernel
example : (Demo.mapAt Demo.counts (.dict [(.str "c", .int 3)])).1 = .ok .ERROR := by decide +kernel
example : Demo.mapAt Demo.grp (.dict [(.str "xy", .str "u"), (.str "b", .str "z"), (.str "a", .int 3)]) =
    (.ok (.list [.tuple [.str "xy", .str "y", .str "u"], .tuple [.str "a", .none, .int 3]]), [[]]) := by
  decide +kernel
example : Demo.mapAt Demo.grp (.dict [(.str "b", .str "z")]) =
    (.ok .NOT_SET, [[(.missing, "")]]) := by decide +kernel

end Pilo
