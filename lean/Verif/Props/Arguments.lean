import Verif.Closed
import Verif.Props.Builders
import Verif.Props.Construct

/-!
# C73, C74, C75: positional arguments of `Group`, `List`, `SubForm` and `Tuple`, and the `Type` field

`pilo/fields.py:233-239,1031-1052,1072-1084,1263-1297,1320-1341,1385-1443`.
-/

namespace Pilo
variable {P : Type} {I : PathOps P} {L : Lib} {W : LawfulPath I} {C : Classes} {rec : Rec P}
  {s : St P} {r : Nat} {q : P} {text : String} {b : ErrBuf} {compile : String → Except Exc Regex}
  {args : List Arg} {kw : Kwargs} {f : Field}

/-! ## C73 -/

mutual
/-- The argument itself; for a list, what its items stand for, in reading order. -/
def Arg.leaves : Arg → List Arg
  | .list xs => Arg.allLeaves xs
  | .val v => [.val v]
  | .field f => [.field f]
  | .form c => [.form c]
  | .regex r => [.regex r]
  | .call p => [.call p]
  | .tuple xs => [.tuple xs]
  | .set xs => [.set xs]
/-- The same for several arguments. -/
def Arg.allLeaves : List Arg → List Arg
  | [] => []
  | x :: xs => x.leaves ++ Arg.allLeaves xs
end

/-- What one argument, not a list, says about a key: the field for it, and the captures. A bare field stands for the key that
is its `src`. -/
def Arg.answers (k : String) : Arg → Option (Field × Val)
  | .field f => if f.core.src = .str k then some (f, .none) else none
  | .tuple [.val (.str x), .field f] => if x = k then some (f, .none) else none
  | .tuple [.regex r, .field f] => (r.run k).map fun m => (f, .str m.whole)
  | _ => none

/-- The arguments, other than lists, that a `Group` has a use for. -/
inductive Arg.Entry : Arg → Prop
  | bare {f : Field} {x : String} : f.core.src = .str x → Entry (.field f)
  | pair (x : String) (f : Field) : Entry (.tuple [.val (.str x), .field f])
  | regex (r : Regex) (f : Field) : Entry (.tuple [.regex r, .field f])

/-- The arguments, other than lists, that the model covers: a bare field whose `src` is not set or a text; a pair of a text
or pattern and a field; a tuple not of two items; anything that is neither a field nor a tuple. -/
inductive Arg.Covered : Arg → Prop
  | entry {a : Arg} : a.Entry → Covered a
  | unset {f : Field} : f.core.src.isIgnore = true → Covered (.field f)
  | tuple {xs : List Arg} : xs.length ≠ 2 → Covered (.tuple xs)
  | other {a : Arg} : a.isField = false → (∀ xs, a ≠ .tuple xs) → Covered a

theorem pairMatch (x : String) (f : Field) (k : String) :
    firstMatch [(.str x, f)] (.str k) = if x = k then some (f, .none) else none := by
  unfold firstMatch
  by_cases hk : x = k
  · subst hk
    simp [GSrc.captures, pyEq_str_right.2]
  · have : (Val.str x).pyEq (.str k) = false := by
      cases h : (Val.str x).pyEq (.str k) with
      | false => rfl
      | true => cases pyEq_str_right.1 h; exact absurd rfl hk
    simp [GSrc.captures, this, hk]

/-- One leaf. -/
theorem groupItem_leaf {a : Arg} (hl : ∀ xs, a ≠ .list xs) {ps : List (GSrc × Field)} (h : groupItem a = .ok ps) :
    a.Entry ∧ ∀ k, firstMatch ps (.str k) = a.answers k := by
  cases a with
  | list xs => exact absurd rfl (hl xs)
  | field f =>
    unfold groupItem at h
    split at h
    case h_1 x hx =>
      cases h
      refine ⟨.bare hx, fun k => ?_⟩
      show firstMatch _ _ = if f.core.src = .str k then some (f, .none) else none
      rw [hx, pairMatch]
      simp
    case h_2 => split at h <;> cases h
  | tuple xs =>
    unfold groupItem at h
    split at h
    case h_1 x f =>
      cases h
      refine ⟨.pair _ _, fun k => ?_⟩
      exact pairMatch x f k
    case h_2 r f =>
      cases h
      refine ⟨.regex _ _, fun k => ?_⟩
      unfold firstMatch Arg.answers
      cases hk : r.run k <;> simp [GSrc.captures, hk]
    case h_3 => cases h
    case h_4 => cases h
  | val v => cases h
  | form v => cases h
  | regex v => cases h
  | call v => cases h
  | set v => cases h

theorem leaves_self {a : Arg} (hl : ∀ xs, a ≠ .list xs) : a.leaves = [a] := by
  cases a <;> first | rfl | exact absurd rfl (hl _)

theorem firstMatch_append (ps qs : List (GSrc × Field)) (k : Val) :
    firstMatch (ps ++ qs) k = (firstMatch ps k).or (firstMatch qs k) := by
  unfold firstMatch
  rw [List.findSome?_append]

mutual
theorem groupItem_spec (a : Arg) {ps : List (GSrc × Field)} (h : groupItem a = .ok ps) :
    (∀ x ∈ a.leaves, x.Entry) ∧ ∀ k, firstMatch ps (.str k) = a.leaves.findSome? (Arg.answers k) := by
  match a with
  | .list xs =>
    unfold groupItem at h
    unfold Arg.leaves
    exact groupItems_spec xs h
  | .val v => cases h
  | .form v => cases h
  | .regex v => cases h
  | .call v => cases h
  | .field f =>
    obtain ⟨h1, h2⟩ := groupItem_leaf (by intro _ h; cases h) h
    refine ⟨by simpa [Arg.leaves] using h1, fun k => ?_⟩
    rw [h2 k]
    unfold Arg.leaves
    rw [List.findSome?_cons]
    cases Arg.answers k (.field f) <;> rfl
  | .tuple xs =>
    obtain ⟨h1, h2⟩ := groupItem_leaf (by intro _ h; cases h) h
    refine ⟨by simpa [Arg.leaves] using h1, fun k => ?_⟩
    rw [h2 k]
    unfold Arg.leaves
    rw [List.findSome?_cons]
    cases Arg.answers k (.tuple xs) <;> rfl
theorem groupItems_spec (xs : List Arg) {ps : List (GSrc × Field)} (h : groupItems xs = .ok ps) :
    (∀ x ∈ Arg.allLeaves xs, x.Entry) ∧ ∀ k, firstMatch ps (.str k) = (Arg.allLeaves xs).findSome? (Arg.answers k) := by
  match xs with
  | [] =>
    unfold groupItems at h
    cases h
    unfold Arg.allLeaves
    exact ⟨by simp, fun _ => rfl⟩
  | x :: xs =>
    unfold groupItems at h
    obtain ⟨p, h1, h⟩ := bind_inv h
    obtain ⟨q, h2, h⟩ := bind_inv h
    cases h
    obtain ⟨a1, a2⟩ := groupItem_spec x h1
    obtain ⟨b1, b2⟩ := groupItems_spec xs h2
    unfold Arg.allLeaves
    refine ⟨fun y hy => ?_, fun k => ?_⟩
    · rcases List.mem_append.1 hy with hy | hy
      · exact a1 y hy
      · exact b1 y hy
    · rw [firstMatch_append, a2, b2, List.findSome?_append]
end

theorem groupItem_entry {a : Arg} (h : a.Entry) : ∃ ps, groupItem a = .ok ps := by
  cases h with
  | @bare f x hx =>
    unfold groupItem
    rw [hx]
    exact ⟨_, rfl⟩
  | pair x f => exact ⟨_, rfl⟩
  | regex r f => exact ⟨_, rfl⟩

theorem groupItem_covered {a : Arg} (hl : ∀ xs, a ≠ .list xs) (h : a.Covered) :
    (∃ ps, groupItem a = .ok ps) ∨ ¬ a.Entry ∧ ∃ msg, groupItem a = .error (.valueError msg) := by
  cases h with
  | entry h => exact .inl (groupItem_entry h)
  | @unset f h =>
    refine .inr ⟨?_, ?_⟩
    · rintro ⟨hx⟩
      rw [hx] at h
      cases h
    · unfold groupItem
      split
      case h_1 hx => rw [hx] at h; cases h
      case h_2 => rw [if_pos h]; exact ⟨_, rfl⟩
  | @tuple xs h =>
    refine .inr ⟨?_, ?_⟩
    · intro he
      cases he <;> exact h rfl
    · unfold groupItem
      split
      · exact absurd rfl h
      · exact absurd rfl h
      · exact absurd rfl h
      · exact ⟨_, rfl⟩
  | other h1 h2 =>
    refine .inr ⟨?_, ?_⟩
    · intro he
      cases he <;> first | (cases h1; done) | exact h2 _ rfl
    · cases a <;> first | exact absurd rfl (hl _) | exact absurd rfl (h2 _) | exact ⟨_, rfl⟩ | cases h1

mutual
theorem groupItem_total (a : Arg) (h : ∀ x ∈ a.leaves, x.Covered) :
    (∃ ps, groupItem a = .ok ps) ∨ (∃ x ∈ a.leaves, ¬ x.Entry) ∧ ∃ msg, groupItem a = .error (.valueError msg) := by
  match a with
  | .list xs =>
    unfold Arg.leaves at h ⊢
    unfold groupItem
    exact groupItems_total xs h
  | .val v => exact .inr ⟨⟨_, List.mem_singleton.2 rfl, by intro h; cases h⟩, _, rfl⟩
  | .form v => exact .inr ⟨⟨_, List.mem_singleton.2 rfl, by intro h; cases h⟩, _, rfl⟩
  | .regex v => exact .inr ⟨⟨_, List.mem_singleton.2 rfl, by intro h; cases h⟩, _, rfl⟩
  | .call v => exact .inr ⟨⟨_, List.mem_singleton.2 rfl, by intro h; cases h⟩, _, rfl⟩
  | .set v => exact .inr ⟨⟨_, List.mem_singleton.2 rfl, by intro h; cases h⟩, _, rfl⟩
  | .field f =>
    rcases groupItem_covered (by intro _ h; cases h) (h _ (List.mem_singleton.2 rfl)) with h | ⟨h1, h2⟩
    · exact .inl h
    · exact .inr ⟨⟨_, List.mem_singleton.2 rfl, h1⟩, h2⟩
  | .tuple xs =>
    rcases groupItem_covered (by intro _ h; cases h) (h _ (List.mem_singleton.2 rfl)) with h | ⟨h1, h2⟩
    · exact .inl h
    · exact .inr ⟨⟨_, List.mem_singleton.2 rfl, h1⟩, h2⟩
theorem groupItems_total (xs : List Arg) (h : ∀ x ∈ Arg.allLeaves xs, x.Covered) :
    (∃ ps, groupItems xs = .ok ps) ∨
    (∃ x ∈ Arg.allLeaves xs, ¬ x.Entry) ∧ ∃ msg, groupItems xs = .error (.valueError msg) := by
  match xs with
  | [] =>
    unfold groupItems
    exact .inl ⟨_, rfl⟩
  | x :: xs =>
    unfold Arg.allLeaves at h ⊢
    unfold groupItems
    rcases groupItem_total x (fun y hy => h y (List.mem_append_left _ hy)) with ⟨ps, h1⟩ | ⟨⟨y, hy, h1⟩, msg, h2⟩
    · rcases groupItems_total xs (fun y hy => h y (List.mem_append_right _ hy)) with ⟨qs, h3⟩ | ⟨⟨y, hy, h3⟩, msg, h4⟩
      · exact .inl ⟨ps ++ qs, by rw [h1, h3]; rfl⟩
      · exact .inr ⟨⟨y, List.mem_append_right _ hy, h3⟩, msg, by rw [h1, h4]; rfl⟩
    · exact .inr ⟨⟨y, List.mem_append_left _ hy, h1⟩, msg, by rw [h2]; rfl⟩
end

theorem readOptions_default {o : Options} (h : readOptions kw = .ok o) {p : Prog} (hd : kw.lookup "default" = some (.call p)) :
    o.default = some (.callable p) := by
  unfold readOptions at h
  split at h
  case isFalse => cases h
  case isTrue =>
    obtain ⟨_, -, h⟩ := bind_inv h
    obtain ⟨_, -, h⟩ := bind_inv h
    obtain ⟨d, hd', h⟩ := bind_inv h
    obtain ⟨_, -, h⟩ := bind_inv h
    obtain ⟨_, -, h⟩ := bind_inv h
    obtain ⟨_, -, h⟩ := bind_inv h
    obtain ⟨_, -, h⟩ := bind_inv h
    cases h
    unfold Kwargs.option at hd'
    rw [hd] at hd'
    cases hd'
    rfl

theorem readOptions_value {o : Options} (h : readOptions kw = .ok o) {v : Val} (hv : v ≠ .NOT_SET)
    (hd : kw.lookup "default" = some (.val v)) : o.default = some (.value v) := by
  unfold readOptions at h
  split at h
  case isFalse => cases h
  case isTrue =>
    obtain ⟨_, -, h⟩ := bind_inv h
    obtain ⟨_, -, h⟩ := bind_inv h
    obtain ⟨d, hd', h⟩ := bind_inv h
    obtain ⟨_, -, h⟩ := bind_inv h
    obtain ⟨_, -, h⟩ := bind_inv h
    obtain ⟨_, -, h⟩ := bind_inv h
    obtain ⟨_, -, h⟩ := bind_inv h
    cases h
    unfold Kwargs.option at hd'
    rw [hd] at hd'
    split at hd'
    · rename_i h; cases h
    · rename_i h; cases h; exact absurd rfl hv
    · rename_i h
      cases h
      cases v with
      | func i => cases hd'
      | _ => cases hd'; rfl

/-- C73, what a group is made of.  Whatever the positional arguments of `Group(...)`, lists nested to any depth included: if
the call raises nothing, each argument (each item, for a list) is a field with a `src`, or a pair of a text or pattern and a
field; and the field for a key is the one the first of these, in reading order, has for it. -/
theorem C73_entries (h : Field.newGroup args kw = .ok f) :
    (∀ a ∈ Arg.allLeaves args, a.Entry) ∧
    ∃ ps, f.kind = .group ps ∧ ∀ k, firstMatch ps (.str k) = (Arg.allLeaves args).findSome? (Arg.answers k) := by
  obtain ⟨ps, h1, h⟩ := bind_inv h
  obtain ⟨a1, a2⟩ := groupItems_spec args h1
  exact ⟨a1, ps, new_kind h, a2⟩

/-- C73: any other argument, at any depth, is a `ValueError`. -/
theorem C73_refused (hc : ∀ a ∈ Arg.allLeaves args, a.Covered) {a : Arg} (ha : a ∈ Arg.allLeaves args) (he : ¬ a.Entry) :
    ∃ msg, Field.newGroup args kw = .error (.valueError msg) := by
  rcases groupItems_total args hc with ⟨ps, h⟩ | ⟨-, msg, h⟩
  · exact absurd ((groupItems_spec args h).1 a ha) he
  · exact ⟨msg, by unfold Field.newGroup; rw [h]; rfl⟩

/-- C73, what mapping does: `groupEntry` of C31, for the field and captures `m` (none: the key is not the group's). -/
def answered (I : PathOps P) (rec : Rec P) (m : Option (Field × Val)) (k : Val) : M P (Option (Option Val)) :=
  match m with
  | none => M.pure none
  | some (f, cap) => do
    let v ← atKey I k (rec f .NONE)
    M.pure (some (if v.isIgnore then none else some (.tuple [k, cap, v])))

/-- C73.  A `Group` with any arguments, at a mapping whose keys are texts: the keys are taken in the order of the source,
each with the field of the first argument for it; the values are listed with key and captures. -/
theorem C73_parse {name : Option String} {ks : List String} {s1 : St P} (h : Field.newGroup args kw = .ok f)
    (hmap : readPath I.mapping s = (.ok (some { ks := ks.map Val.str, iterErr := none }), s1)) :
    kindParse I L C rec (f.attach name) s =
      (inOrder (ks.map fun k => answered I rec ((Arg.allLeaves args).findSome? (Arg.answers k)) (.str k)) >>= fun es =>
        M.pure (match groupOf es with
          | some vs => .list vs
          | none => .NONE)) s1 := by
  obtain ⟨-, ps, h1, h2⟩ := C73_entries h
  have he : f.attach name = .mk (f.attach name).core (.group ps) := by
    cases f; cases h1; rfl
  have hm : (ks.map fun k => groupEntry I rec ps (.str k)) =
      ks.map fun k => answered I rec ((Arg.allLeaves args).findSome? (Arg.answers k)) (.str k) := by
    refine List.map_congr_left fun k _ => ?_
    unfold groupEntry answered
    rw [h2]
    rfl
  rw [he, C31_group _ _ hmap, hm]
  rfl

theorem lookup_append {k : String} {kw' : Kwargs} (h : kw.lookup k = none) : (kw ++ kw').lookup k = kw'.lookup k := by
  induction kw with
  | nil => rfl
  | cons p kw ih =>
    obtain ⟨n, a⟩ := p
    by_cases hk : k = n
    · subst hk
      rw [List.lookup_cons_self] at h
      cases h
    · rw [List.lookup_cons, (by simpa using hk : (k == n) = false)] at h
      rw [List.cons_append, List.lookup_cons, (by simpa using hk : (k == n) = false)]
      exact ih h

/-- C73: without `default=`, the default of a group is a new empty list. -/
theorem C73_default (h : Field.newGroup args kw = .ok f) (hd : kw.lookup "default" = none) :
    f.core.default = .callable (.ret (.list [])) := by
  obtain ⟨ps, h1, h⟩ := bind_inv h
  have hd' : (kw.lookup "default").isSome = false := by rw [hd]; rfl
  dsimp only at h
  rw [hd', if_neg (by simp)] at h
  obtain ⟨src, -, h⟩ := bind_inv h
  obtain ⟨o, ho, h⟩ := bind_inv h
  cases h
  have := readOptions_default ho (p := .ret (.list [])) (by
    rw [lookup_drop (by decide), lookup_append hd]; rfl)
  rw [options_default, this]

/-- C73: the default that is given is the default of the group. -/
theorem C73_default_given (h : Field.newGroup args kw = .ok f) {p : Prog} (hd : kw.lookup "default" = some (.call p)) :
    f.core.default = .callable p := by
  obtain ⟨ps, h1, h⟩ := bind_inv h
  have hd' : (kw.lookup "default").isSome = true := by rw [hd]; rfl
  dsimp only at h
  rw [hd', if_pos rfl] at h
  obtain ⟨src, -, h⟩ := bind_inv h
  obtain ⟨o, ho, h⟩ := bind_inv h
  cases h
  have := readOptions_default ho (p := p) (by rw [lookup_drop (by decide)]; exact hd)
  rw [options_default, this]

/-- C73: the same for a value. -/
theorem C73_value_given (h : Field.newGroup args kw = .ok f) {v : Val} (hv : v ≠ .NOT_SET)
    (hd : kw.lookup "default" = some (.val v)) : f.core.default = .value v := by
  obtain ⟨ps, h1, h⟩ := bind_inv h
  have hd' : (kw.lookup "default").isSome = true := by rw [hd]; rfl
  dsimp only at h
  rw [hd', if_pos rfl] at h
  obtain ⟨src, -, h⟩ := bind_inv h
  obtain ⟨o, ho, h⟩ := bind_inv h
  cases h
  have := readOptions_value ho hv (by rw [lookup_drop (by decide)]; exact hd)
  rw [options_default, this]

/-! ## C74 -/

theorem pluck_skip (p : Arg → Bool) {pre : List Arg} (hp : ∀ a ∈ pre, p a = false) {a : Arg} (ha : p a = true) (post : List Arg) :
    pluck p (pre ++ a :: post) = (pre ++ post, some a) := by
  induction pre with
  | nil => simp [pluck, ha]
  | cons x xs ih =>
    have := ih fun y hy => hp y (List.mem_cons_of_mem _ hy)
    simp [pluck, hp x List.mem_cons_self, this]

theorem pluck_none (p : Arg → Bool) (hp : ∀ a ∈ args, p a = false) : pluck p args = (args, none) := by
  induction args with
  | nil => rfl
  | cons x xs ih =>
    have := ih fun y hy => hp y (List.mem_cons_of_mem _ hy)
    simp [pluck, hp x List.mem_cons_self, this]

/-- Neither a field nor a form class. -/
def Arg.Other (a : Arg) : Prop := a.isField = false ∧ a.isForm = false

theorem other_false {a : Arg} (h : a.Other) : (a.isField || a.isForm) = false := by rw [h.1, h.2]; rfl

/-- C74, lists.  The field of a `List` may be among the positional arguments at any place; a form class in place of a field
stands for a `SubForm` of it. -/
theorem C74_list {pre post : List Arg} {g : Field} (hp : ∀ a ∈ pre, a.Other) :
    Field.newList (pre ++ .field g :: post) kw = Field.newList (.field g :: (pre ++ post)) kw ∧
    ∀ cls, ∃ sub, Field.newSubForm [.form cls] [] = .ok sub ∧
      Field.newList (pre ++ .form cls :: post) kw = Field.newList (.field sub :: (pre ++ post)) kw := by
  have h1 := pluck_skip (fun a => a.isField || a.isForm) (fun a ha => other_false (hp a ha)) (a := .field g) rfl post
  refine ⟨?_, fun cls => ⟨_, rfl, ?_⟩⟩
  · unfold Field.newList readItem
    rw [h1]
    rfl
  · have h2 := pluck_skip (fun a => a.isField || a.isForm) (fun a ha => other_false (hp a ha)) (a := .form cls) rfl post
    unfold Field.newList readItem
    rw [h2]
    rfl

/-- C74: or it may be the keyword argument `field`. -/
theorem C74_list_keyword {g : Field} (hp : ∀ a ∈ args, a.Other) (hk : kw.lookup "field" = some (.field g)) :
    Field.newList args kw = Field.newList (.field g :: args) (kw.drop ["field"]) := by
  have h1 := pluck_none (fun a => a.isField || a.isForm) (fun a ha => other_false (hp a ha))
  unfold Field.newList readItem
  rw [h1, hk]
  rfl

/-- C74: without a field, nothing is made. -/
theorem C74_list_missing (hp : ∀ a ∈ args, a.Other) (hk : kw.lookup "field" = none) :
    Field.newList args kw = .error (.other "Exception" "Missing field") := by
  have h1 := pluck_none (fun a => a.isField || a.isForm) (fun a ha => other_false (hp a ha))
  unfold Field.newList readItem
  rw [h1, hk]
  rfl

theorem options_src (o : Options) : (f.options o).core.src = f.core.src :=
  options_keeps FieldCore.src (by intros; rfl) (by intros; rfl) (by intros; rfl) (by intros; rfl) (by intros; rfl)
    (by intros; rfl)

theorem readSrc_one {x y : Val} (h : readSrc [.val x] kw = .ok y) : y = x := by
  unfold readSrc at h
  cases hk : kw.lookup "src" with
  | none => rw [hk] at h; cases h; rfl
  | some a => rw [hk] at h; cases h

/-- C74: what is left of the positional arguments is the source of the list. -/
theorem C74_list_src {g : Field} {x : Val} (h : Field.newList [.field g, .val x] kw = .ok f) : f.core.src = x := by
  obtain ⟨⟨g', args', kw1⟩, h1, h⟩ := bind_inv h
  cases h1
  obtain ⟨⟨lo, hi, kw2⟩, -, h⟩ := bind_inv h
  obtain ⟨y, h3, h⟩ := bind_inv h
  obtain ⟨o, -, h⟩ := bind_inv h
  cases h
  rw [options_src]
  exact readSrc_one h3

/-- C74, sub forms: the form class may be at any place. -/
theorem C74_subform {pre post : List Arg} {cls : Nat} (hp : ∀ a ∈ pre, a.isForm = false) :
    Field.newSubForm (pre ++ .form cls :: post) kw = Field.newSubForm (.form cls :: (pre ++ post)) kw := by
  unfold Field.newSubForm
  rw [pluck_skip Arg.isForm hp rfl post]
  rfl

/-- C74: without one, nothing is made. -/
theorem C74_subform_missing (hp : ∀ a ∈ args, a.isForm = false) :
    Field.newSubForm args kw = .error (.other "Exception" "Missing form_type") := by
  unfold Field.newSubForm
  rw [pluck_none Arg.isForm hp]

/-- C74: what a sub form is made of: its class, the source, which `flat=True` takes away, and by default no reset and
unmapped keys ignored. -/
theorem C74_subform_fields {cls : Nat} {src : List Arg} (h : Field.newSubForm (.form cls :: src) kw = .ok f) :
    (∃ reset u, f.kind = .subform cls reset u ∧ (kw.lookup "reset" = none → reset = false) ∧
      (kw.lookup "unmapped" = none → u = .str .ignore)) ∧
    (∀ a, kw.lookup "flat" = some a → a ≠ .val .NOT_SET → a.truthy = true → f.core.src = .none) ∧
    ((∀ a, kw.lookup "flat" = some a → a = .val .NOT_SET ∨ a.truthy = false) → ∀ x, src = [.val x] → f.core.src = x) := by
  obtain ⟨y, h1, h⟩ := bind_inv (show (readSrc src kw >>= fun src =>
    subformOptions cls false (.str .ignore) { src := src } (kw.drop ["src"])) = .ok f from h)
  obtain ⟨rs, h2, h⟩ := bind_inv h
  obtain ⟨u, h3, h⟩ := bind_inv h
  obtain ⟨fl, h4, h⟩ := bind_inv h
  obtain ⟨o, h5, h⟩ := bind_inv h
  cases h
  unfold Kwargs.option at h2 h3 h4
  rw [lookup_drop (by decide)] at h2 h3 h4
  refine ⟨⟨_, _, options_kind, fun hr => ?_, fun hu => ?_⟩, fun a ha hns hat => ?_, fun hfl x hx => ?_⟩
  · rw [hr] at h2; cases h2; rfl
  · rw [hu] at h3; cases h3; rfl
  · rw [ha] at h4
    have : fl = some true := by
      split at h4
      case h_1 h => cases h
      case h_2 h => cases h; exact absurd rfl hns
      case h_3 _ h => cases h; cases h4; rw [hat]
    subst this
    rw [options_src]
    rfl
  · have : fl.getD false = false := by
      cases hk : kw.lookup "flat" with
      | none => rw [hk] at h4; cases h4; rfl
      | some a =>
        rw [hk] at h4
        rcases hfl a hk with rfl | hat
        · cases h4; rfl
        · split at h4
          case h_1 h => cases h
          case h_2 h => cases h4; rfl
          case h_3 _ h => cases h; cases h4; exact hat
    rw [options_src]
    show (if fl.getD false = true then _ else _ : FieldCore).src = x
    rw [this, if_neg (by simp)]
    subst hx
    exact readSrc_one h1

theorem readFields_fields (gs : List Field) : readFields (gs.map Arg.field) = .ok gs := by
  induction gs with
  | nil => rfl
  | cons g gs ih => show (readFields (gs.map Arg.field) >>= _) = _; rw [ih]; rfl

/-- C74 for `Tuple`, except for a tuple of one field given as such: with or without a source, the fields may be given one by
one or as a list or tuple. -/
theorem C74_tuple_partial (gs : List Field) (hg : gs.length ≠ 1) (hne : gs ≠ []) (x : String) :
    (Field.newTuple (gs.map .field) kw = Field.new (.tuple gs) [] (kw.drop ["allow_field"])) ∧
    (Field.newTuple (.val (.str x) :: gs.map .field) kw = Field.new (.tuple gs) [.val (.str x)] (kw.drop ["allow_field"])) ∧
    (Field.newTuple [.list (gs.map .field)] kw = Field.newTuple (gs.map .field) kw) ∧
    (Field.newTuple [.val (.str x), .tuple (gs.map .field)] kw = Field.newTuple (.val (.str x) :: gs.map .field) kw) := by
  obtain ⟨g, g', gs, rfl⟩ : ∃ g g' gs', gs = g :: g' :: gs' := by
    match gs, hg, hne with
    | [_], hg, _ => exact absurd rfl hg
    | g :: g' :: gs, _, _ => exact ⟨g, g', gs, rfl⟩
  have h := readFields_fields (g :: g' :: gs)
  have h' : ∀ a, Field.newTuple.finish kw a (Arg.field g :: Arg.field g' :: gs.map Arg.field) =
      Field.new (.tuple (g :: g' :: gs)) a (kw.drop ["allow_field"]) := by
    intro a
    unfold Field.newTuple.finish
    rw [show readFields (Arg.field g :: Arg.field g' :: gs.map Arg.field) = _ from h]
    rfl
  exact ⟨h' [], h' [.val (.str x)], rfl, rfl⟩

/-! ## C75 -/

theorem readLength_kw {lo hi : Option Nat} {kw' : Kwargs} (h : readLength kw = .ok (lo, hi, kw')) {k : String}
    (hk : k ∉ ["length", "min_length", "max_length"]) : kw'.lookup k = kw.lookup k := by
  have h1 : k ∉ ["length"] := by intro h; exact hk (by simp at h; simp [h])
  have h2 : k ∉ ["min_length", "max_length"] := by intro h; exact hk (by simp at h; rcases h with h | h <;> simp [h])
  have mm : ∀ {kw0 : Kwargs}, readLength.readMinMax kw0 = .ok (lo, hi, kw') → kw'.lookup k = kw0.lookup k := by
    intro kw0 h
    obtain ⟨_, -, h⟩ := bind_inv h
    obtain ⟨_, -, h⟩ := bind_inv h
    cases h
    exact lookup_drop h2
  unfold readLength at h
  dsimp only at h
  split at h
  · split at h
    · split at h
      · obtain ⟨_, -, h⟩ := bind_inv h
        obtain ⟨_, -, h⟩ := bind_inv h
        obtain ⟨_, -, h⟩ := bind_inv h
        cases h
        exact lookup_drop h1
      · obtain ⟨_, -, h⟩ := bind_inv h
        cases h
        exact lookup_drop h1
    · exact (mm h).trans (lookup_drop h1)
  · exact (mm h).trans (lookup_drop h1)

theorem lookup_front {k : String} {a : Arg} {kw' : Kwargs} (h : kw.lookup k = some a) : (kw ++ kw').lookup k = some a := by
  induction kw with
  | nil => cases h
  | cons p kw ih =>
    obtain ⟨n, x⟩ := p
    by_cases hk : k = n
    · subst hk
      rw [List.lookup_cons_self] at h
      rw [List.cons_append, List.lookup_cons_self, h]
    · rw [List.lookup_cons, (by simpa using hk : (k == n) = false)] at h
      rw [List.cons_append, List.lookup_cons, (by simpa using hk : (k == n) = false)]
      exact ih h

/-- What `Type.instance` makes. -/
theorem instance_spec {choices : List Val} (h : Type.instance compile choices kw = .ok f) :
    ∃ c d kw', kw.lookup "default" = none ∧ kw.lookup "choices" = none ∧
      (d = onlyChoice choices) ∧ (∀ n, d ≠ .func n) ∧
      kw' = kw ++ [("default", .val d), ("choices", .val (.list choices))] ∧
      Field.newString compile [] kw' = .ok f ∧ f.kind = .string c ∧ c.choices = choices ∧
      (d ≠ .NOT_SET → f.core.default = .value d) := by
  unfold Type.instance at h
  split at h
  case isTrue => cases h
  case isFalse hn =>
    obtain ⟨h1, h2⟩ : kw.lookup "default" = none ∧ kw.lookup "choices" = none := by
      revert hn
      cases kw.lookup "default" <;> cases kw.lookup "choices" <;> simp
    generalize onlyChoice choices = d at h ⊢
    have h0 := h
    obtain ⟨⟨lo, hi, kw1⟩, e1, h⟩ := bind_inv h
    obtain ⟨pat, e2, h⟩ := bind_inv h
    obtain ⟨alp, e3, h⟩ := bind_inv h
    obtain ⟨cho, e4, h⟩ := bind_inv h
    have hkw1 : ∀ k, k ∉ ["length", "min_length", "max_length"] → kw1.lookup k =
        (kw ++ [("default", Arg.val d), ("choices", Arg.val (.list choices))]).lookup k := fun k hk => readLength_kw e1 hk
    rw [hkw1 _ (by decide), lookup_append h2] at e4
    cases e4
    have hk := new_kind h
    obtain ⟨src, -, h⟩ := bind_inv h
    obtain ⟨o, ho, h⟩ := bind_inv h
    cases h
    have hl : ((kw1.drop ["pattern", "alphabet", "choices"]).drop ["src"]).lookup "default" = some (.val d) := by
      rw [lookup_drop (by decide), lookup_drop (by decide), hkw1 _ (by decide), lookup_append h1]
      rfl
    unfold readOptions at ho
    split at ho
    case isFalse => cases ho
    obtain ⟨_, -, ho⟩ := bind_inv ho
    obtain ⟨_, -, ho⟩ := bind_inv ho
    obtain ⟨d', hd', ho⟩ := bind_inv ho
    obtain ⟨_, -, ho⟩ := bind_inv ho
    obtain ⟨_, -, ho⟩ := bind_inv ho
    obtain ⟨_, -, ho⟩ := bind_inv ho
    obtain ⟨_, -, ho⟩ := bind_inv ho
    cases ho
    unfold Kwargs.option at hd'
    rw [hl] at hd'
    refine ⟨_, d, _, h1, h2, rfl, ?_, rfl, h0, hk, rfl, ?_⟩
    · rintro n rfl
      cases hd'
    · intro hns
      rw [options_default]
      have : d' = some (.value d) := by
        split at hd'
        case h_1 h => cases h
        case h_2 h => cases h; exact absurd rfl hns
        case h_3 _ h =>
          cases h
          obtain ⟨z, hz, rfl⟩ := map_inv hd'
          cases d <;> cases hz <;> rfl
      rw [this]

/-- C75.  The `value` of a `Type` made by `Type.instance(...)`: the choice, if there is one; otherwise reading it is a
`TypeError`. -/
theorem C75_value_partial {choices : List Val} (h : Type.instance compile choices kw = .ok f)
    (hc : ∀ c ∈ choices, c.isIgnore = false) :
    (∀ c, choices = [c] → Type.value f = .ok (.value c)) ∧
    (choices.length ≠ 1 → ∃ msg, Type.value f = .error (.typeError msg)) := by
  obtain ⟨c, d, kw', -, -, hd, -, -, -, hk, hch, hdef⟩ := instance_spec h
  refine ⟨?_, fun hl => ?_⟩
  · rintro x rfl
    obtain rfl : d = x := hd
    have hx := hc _ (List.mem_singleton.2 rfl)
    have := hdef (by rintro rfl; cases hx)
    unfold Type.value
    rw [this, hk]
    dsimp only
    rw [hx]
    rfl
  · have : d = .NONE := by
      match choices, hl, hd with
      | [], _, hd => exact hd
      | [_], hl, _ => exact absurd rfl hl
      | _ :: _ :: _, _, hd => exact hd
    subst this
    have := hdef (by intro h; cases h)
    unfold Type.value
    rw [this, hk]
    dsimp only
    rw [if_pos (by rfl)]
    split <;> exact ⟨_, rfl⟩

/-- C75.  `Type.instance(x)`, with any other keyword arguments the constructor takes except for those excluded by `Simple` and
`Full`, attached under any name: `x` where the source has nothing; `x` where it has `x` (and the other arguments allow it);
an `Invalid` error where it has another text. -/
theorem C75_instance {name : Option String} {x : String} (h : Type.instance compile [.str x] kw = .ok f)
    (hs : kw.Simple) (hfull : kw.Full) (sp : Spot I W (f.attach name) s r q text b) :
    (Absent I q → s.env.ignoreDefault = some false → Accepts (mapFieldF I L C rec (f.attach name) .NONE) s (.str x)) ∧
    (Present I q → ∀ y, (I.primitive .str (asked I q)).1 = .ok (.str y) →
      (y = x → StringSpec compile kw x → Accepts (mapFieldF I L C rec (f.attach name) .NONE) s (.str x)) ∧
      (y ≠ x → Rejects (mapFieldF I L C rec (f.attach name) .NONE) s (f.attach name) text r)) := by
  obtain ⟨c, d, kw', h1, h2, hd, -, rfl, hnew, hk, hch, hdef⟩ := instance_spec h
  obtain rfl : d = .str x := hd
  have hlk : ∀ k, k ≠ "default" → k ≠ "choices" →
      (kw ++ [("default", Arg.val (.str x)), ("choices", Arg.val (.list [.str x]))]).lookup k = kw.lookup k := by
    intro k hk1 hk2
    cases hl : kw.lookup k with
    | none => rw [lookup_append hl, List.lookup_cons, (by simpa using hk1 : (k == "default") = false), List.lookup_cons,
        (by simpa using hk2 : (k == "choices") = false)]; rfl
    | some a => exact lookup_front hl
  have hch' : (kw ++ [("default", Arg.val (.str x)), ("choices", Arg.val (.list [.str x]))]).lookup "choices" =
      some (.val (.list [.str x])) := by rw [lookup_append h2]; rfl
  have hs' : (kw ++ [("default", Arg.val (.str x)), ("choices", Arg.val (.list [.str x]))] : Kwargs).Simple := by
    refine ⟨?_, ?_, ?_, ?_⟩
    · exact (hlk _ (by decide) (by decide)).trans hs.translate
    · exact (hlk _ (by decide) (by decide)).trans hs.ignore
    · exact (hlk _ (by decide) (by decide)).trans hs.attachParent
    · intro p hp
      rw [lookup_append h1] at hp
      cases hp
  have hfull' : (kw ++ [("default", Arg.val (.str x)), ("choices", Arg.val (.list [.str x]))] : Kwargs).Full := by
    refine ⟨?_, ?_, ?_, ?_⟩
    · rw [hlk _ (by decide) (by decide)]; exact hfull.length
    · rw [hlk _ (by decide) (by decide)]; exact hfull.alphabet
    · rw [hch']; intro h; cases h
    · rw [hch']; intro h; cases h
  refine ⟨fun hq hctx => ?_, fun hpr y hy => ⟨?_, fun hne => ?_⟩⟩
  · obtain ⟨c', kw', g1, g2, g3, g4⟩ := newString_spec hnew hfull'
    have hb := new_bare g2 ⟨(g3 _ (by decide)).trans hs'.translate, (g3 _ (by decide)).trans hs'.ignore,
      (g3 _ (by decide)).trans hs'.attachParent, fun p hp => hs'.default p ((g3 _ (by decide)).symm.trans hp)⟩
      (by intro _ _ _ _ _ h; cases h) name
    exact C11_default sp hb.free hb.attachParent hq (hdef (by intro h; cases h)) ⟨(by intro h; cases h), (by intro _ h; cases h)⟩ hctx
  · rintro rfl hsp
    refine (C71_string_partial hnew hfull' hs' sp hpr hy).1 ⟨⟨?_, ?_, ?_, ?_, ?_⟩, ?_, ?_, ?_, ?_, ?_⟩
    · intro k hk; rw [hlk _ (by decide) (by decide)] at hk; exact hsp.length.exact k hk
    · intro a k z hk; rw [hlk _ (by decide) (by decide)] at hk; exact hsp.length.least a k z hk
    · intro a k z hk; rw [hlk _ (by decide) (by decide)] at hk; exact hsp.length.most a k z hk
    · intro k hk; rw [hlk _ (by decide) (by decide)] at hk; exact hsp.length.min k hk
    · intro k hk; rw [hlk _ (by decide) (by decide)] at hk; exact hsp.length.max k hk
    · intro k hk; rw [hlk _ (by decide) (by decide)] at hk; exact hsp.regex k hk
    · intro k z hk; rw [hlk _ (by decide) (by decide)] at hk; exact hsp.pattern k z hk
    · intro k hk; rw [hlk _ (by decide) (by decide)] at hk; exact hsp.alphabet k hk
    · intro k hk; rw [hch'] at hk; cases hk; simp
    · intro k hk; rw [hch'] at hk; cases hk
  · refine (C71_string_partial hnew hfull' hs' sp hpr hy).2 fun hsp => ?_
    have := hsp.choices _ hch'
    simp at this
    exact hne this

/-- C75.  `Type.constant(x)` can always be made; attached under any name, it gives `x` and no error, whatever the source. -/
theorem C75_constant (x : String) : ∃ f, Type.constant compile (.str x) = .ok f ∧
    ∀ {P : Type} {I : PathOps P} {L : Lib} {W : LawfulPath I} {C : Classes} {rec : Rec P} {s : St P} {r : Nat} {q : P}
      {text : String} {b : ErrBuf} {name : Option String}, Spot I W (f.attach name) s r q text b →
      Accepts (mapFieldF I L C rec (f.attach name) .NONE) s (.str x) := by
  refine ⟨_, rfl, fun {P I L W C rec s r q text b name} sp => ?_⟩
  generalize hg : Field.attach (.mk { src := .NONE, default := .value (.str x) } (.string { choices := [.str x] })) name = g
  have hf : HookFree g := by
    subst hg
    exact ⟨.inr ⟨_, rfl⟩, rfl, rfl, rfl, rfl, rfl, rfl, by intro _ _ _ _ _ h; cases h⟩
  have hkind : g.kind = .string { choices := [.str x] } := by subst hg; rfl
  have ht : g.core.translations = [] := by subst hg; rfl
  have hv : Lex.kindValidate I L g (.str x) = T.pure true := by
    rw [kindValidate_nonnull rfl, hkind]
    refine (stringValidate_spec _ _ ht).1 ?_
    constructor <;> simp
  have sp' : Spot I W (g.constant (.str x)) s r q text b := by subst hg; exact sp
  have : Accepts (mapFieldF I L C rec (g.constant (.str x)) .NONE) s (.str x) := by
    refine (constant_alone (I := I) (L := L) hf (by rw [hkind]; rfl) (.str x)).accepts sp' (by subst hg; rfl)
      fun τ hp hb => ⟨q, ?_, ⟨rfl, sp'.wf, rfl⟩⟩
    rw [constant_start rfl, fieldCheck_plain hf ht rfl (by subst hg; rfl), hv, List.append_nil, ← hb, ← hp]
    rfl
  subst hg
  exact this

end Pilo
