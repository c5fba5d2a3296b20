import Verif.Source.Cache

/-!
# How much is left to read below a path

A bound on what a path reads that drops with every name in it.  Names are the string keys whose parts belong to a set
`N`; an index is no name, since `'a'[0]` is `'a'`.
-/

namespace Pilo

/-! ## Names -/

/-- The reversed key without its call suffixes `()` (`pilo/source/default.py:54-60`). -/
def coreRev : List Char → List Char
  | ')' :: '(' :: rest => coreRev rest
  | cs => cs

/-- The key without its call suffixes. -/
def coreName (s : String) : String := String.ofList (coreRev s.toList.reverse).reverse

/-- A string key that belongs to `N`, as a whole and in each of its dot-separated parts. -/
def named (N : String → Bool) : Val → Bool
  | .str s => N (coreName s) && (dotSplit (coreName s)).all N
  | _ => false

/-- What is left of `z` after one more key. -/
def nextRoom (N : String → Bool) (z : Nat) (k : Val) : Nat := if named N k then z - 1 else max z 1

/-- What is left of `b` after the keys. -/
def room (N : String → Bool) (b : Nat) (ks : List Val) : Nat := ks.foldl (nextRoom N) b

theorem room_snoc (N : String → Bool) (b : Nat) (ks : List Val) (k : Val) :
    room N b (ks ++ [k]) = nextRoom N (room N b ks) k := by
  unfold room; rw [List.foldl_append]; rfl

theorem nextRoom_named {N : String → Bool} {k : Val} (h : named N k = true) (z : Nat) : nextRoom N z k = z - 1 := by
  unfold nextRoom; rw [if_pos h]

theorem nextRoom_other {N : String → Bool} {k : Val} (h : named N k = false) (z : Nat) : nextRoom N z k = max z 1 := by
  unfold nextRoom; rw [if_neg (by rw [h]; decide)]

theorem nextRoom_le {N : String → Bool} {k : Val} (z : Nat) : nextRoom N z k ≤ max z 1 := by
  unfold nextRoom; split <;> omega

theorem room_le (N : String → Bool) (ks : List Val) : ∀ b, room N b ks ≤ max b 1 := by
  induction ks with
  | nil => intro b; exact Nat.le_max_left _ _
  | cons k ks ih =>
    intro b
    have := ih (nextRoom N b k)
    have := nextRoom_le (N := N) (k := k) b
    show room N (nextRoom N b k) ks ≤ _
    omega

theorem room_mono (N : String → Bool) (ks : List Val) : ∀ {b c : Nat}, b ≤ c → room N b ks ≤ room N c ks := by
  induction ks with
  | nil => intro b c h; exact h
  | cons k ks ih =>
    intro b c h
    refine ih ?_
    unfold nextRoom
    split <;> omega

/-- Only which keys are names matters. -/
theorem room_congr {N : String → Bool} : ∀ {ks ls : List Val}, ks.map (named N) = ls.map (named N) → ∀ b,
    room N b ks = room N b ls := by
  intro ks
  induction ks with
  | nil =>
    intro ls h b
    cases ls with
    | nil => rfl
    | cons l ls => simp at h
  | cons k ks ih =>
    intro ls h b
    cases ls with
    | nil => simp at h
    | cons l ls =>
      simp only [List.map_cons, List.cons.injEq] at h
      show room N (nextRoom N b k) ks = room N (nextRoom N b l) ls
      rw [ih h.2]
      unfold nextRoom
      rw [h.1]

theorem dotSplit_cons (s : String) : ∃ a as, dotSplit s = a :: as := by
  have : ∀ cs : List Char, splitDots cs ≠ [] := by
    intro cs
    cases cs with
    | nil => simp [splitDots]
    | cons c cs =>
      unfold splitDots
      split
      · simp
      · split <;> simp
  unfold dotSplit
  cases h : splitDots s.toList with
  | nil => exact absurd h (this _)
  | cons w ws => exact ⟨_, _, rfl⟩

/-! ## Invariants of the cache -/

namespace PathSt
variable {C σ : Type}

/-- Every cached value satisfies the invariant, given the keys up to there. -/
def Caches (ok : List Val → C → Prop) (ps : List (Part C)) : Prop :=
  ∀ pre q post v, ps = pre ++ q :: post → q.cache = some v → ok (pre.map Part.key ++ [q.key]) v

/-- The root and every cached value satisfy the invariant. -/
structure Lasts (ok : List Val → C → Prop) (p : PathSt C) : Prop where
  root : ok [] p.root
  parts : Caches ok p.parts

/-- Resolving one key keeps the invariant of the values and that of the state. -/
structure Steps (ok : List Val → C → Prop) (inv : σ → Prop)
    (resolve : List Val → σ → C → Val → Except Exc C × σ) : Prop where
  state : ∀ {keys s c k}, inv s → inv (resolve keys s c k).2
  value : ∀ {keys pre post s c k w}, inv s → keys = pre ++ k :: post → ok pre c → (resolve keys s c k).1 = .ok w →
    ok (pre ++ [k]) w

variable {ok : List Val → C → Prop} {inv : σ → Prop} {resolve : List Val → σ → C → Val → Except Exc C × σ}
  {isN : C → Bool}

theorem fill_lasts (h : Steps ok inv resolve) (keys : List Val) (ps : List (Part C)) :
    ∀ (base : List Val) (s : σ) (v : C), inv s → keys = base ++ ps.map Part.key → ok base v →
    (∀ p ∈ ps, p.cache = none) →
    inv (fill resolve isN keys s v ps).2.1 ∧
    (∀ pre q post w, (fill resolve isN keys s v ps).2.2 = pre ++ q :: post → q.cache = some w →
      ok (base ++ (pre.map Part.key ++ [q.key])) w) ∧
    (∀ w, (fill resolve isN keys s v ps).1 = .ok w → isN w = false → ok keys w) := by
  induction ps with
  | nil =>
    intro base s v hs hk hv _
    refine ⟨hs, ?_, ?_⟩
    · intro pre q post w h; simp [fill] at h
    · intro w hw _
      simp only [fill, Except.ok.injEq] at hw
      subst hw
      simp only [List.map_nil, List.append_nil] at hk
      rw [hk]; exact hv
  | cons p ps ih =>
    intro base s v hs hk hv hp
    have hps : ∀ q ∈ ps, q.cache = none := fun q hq => hp q (by simp [hq])
    have h1 := h.state (keys := keys) (c := v) (k := p.key) hs
    have h2 := fun w => h.value (keys := keys) (pre := base) (post := ps.map Part.key) (c := v) (k := p.key) (w := w)
      hs (by simpa using hk) hv
    simp only [fill]
    rcases hr : resolve keys s v p.key with ⟨r, s'⟩
    rw [hr] at h1 h2
    cases r with
    | error e =>
      dsimp only
      refine ⟨h1, ?_, by intro w hw; cases hw⟩
      intro pre q post w h hc
      have : q ∈ p :: ps := by rw [h]; simp
      rw [hp q this] at hc
      cases hc
    | ok x =>
      dsimp only
      have hx := h2 x rfl
      cases hn : isN x with
      | true =>
        simp only [if_true]
        refine ⟨h1, ?_, ?_⟩
        · intro pre q post w h hc
          cases pre with
          | nil =>
            simp only [List.nil_append, List.cons.injEq] at h
            obtain ⟨h, _⟩ := h
            subst h
            simp only [Option.some.injEq] at hc
            subst hc
            simpa using hx
          | cons p' pre =>
            simp only [List.cons_append, List.cons.injEq] at h
            have : q ∈ ps := by rw [h.2]; simp
            rw [hps q this] at hc
            cases hc
        · intro w hw hn'
          simp only [Except.ok.injEq] at hw
          subst hw
          rw [hn] at hn'; cases hn'
      | false =>
        simp only [Bool.false_eq_true, if_false]
        obtain ⟨i1, i2, i3⟩ := ih (base ++ [p.key]) s' x h1 (by simpa using hk) hx hps
        refine ⟨i1, ?_, i3⟩
        intro pre q post w h hc
        cases pre with
        | nil =>
          simp only [List.nil_append, List.cons.injEq] at h
          obtain ⟨h, _⟩ := h
          subst h
          simp only [Option.some.injEq] at hc
          subst hc
          simpa using hx
        | cons p' pre =>
          simp only [List.cons_append, List.cons.injEq] at h
          obtain ⟨h, h'⟩ := h
          subst h
          have := i2 pre q post w h' hc
          simpa using this

theorem value_lasts (h : Steps ok inv resolve) {s : σ} {p : PathSt C} (hs : inv s) (hp : Lasts ok p) :
    inv (value resolve isN s p).2.1 ∧ Lasts ok (value resolve isN s p).2.2 ∧
    (value resolve isN s p).2.2.root = p.root ∧
    (∀ w, (value resolve isN s p).1 = .ok w → isN w = false → ok p.keys w) := by
  have hsc := scan_spec p.parts.reverse
  unfold value
  cases hr : scan p.parts.reverse with
  | error e => exact ⟨hs, hp, rfl, by intro w hw; cases hw⟩
  | ok o =>
    rw [hr] at hsc
    cases o with
    | none =>
      dsimp only
      obtain ⟨i1, i2, i3⟩ := fill_lasts (isN := isN) h p.keys p.parts [] s p.root hs rfl hp.root
        (fun q hq => (hsc q (by simpa using hq)).2)
      exact ⟨i1, ⟨hp.root, fun pre q post w h hc => by simpa using i2 pre q post w h hc⟩, rfl, i3⟩
    | some x =>
      obtain ⟨i, v⟩ := x
      obtain ⟨pre, q, post, h1, h2, h3, h4, rfl⟩ := hsc
      have hparts : p.parts = (post.reverse ++ [q]) ++ pre.reverse := by
        have := congrArg List.reverse h1; simpa using this
      have hlen : (post.reverse ++ [q]).length = post.length + 1 := by simp
      have htake : p.parts.take (post.length + 1) = post.reverse ++ [q] := by
        rw [hparts, ← hlen, List.take_left']; rfl
      have hdrop : p.parts.drop (post.length + 1) = pre.reverse := by
        rw [hparts, ← hlen, List.drop_left']; rfl
      have hq : ok (post.reverse.map Part.key ++ [q.key]) v :=
        hp.parts post.reverse q pre.reverse v (by simpa using hparts) h4
      dsimp only
      rw [htake, hdrop]
      obtain ⟨i1, i2, i3⟩ := fill_lasts (isN := isN) h p.keys pre.reverse (post.reverse.map Part.key ++ [q.key]) s v hs
        (by unfold keys; rw [hparts]; simp) hq (fun q hq => (h2 q (by simpa using hq)).2)
      refine ⟨i1, ⟨hp.root, ?_⟩, rfl, i3⟩
      intro a y b w he hc
      dsimp only at he
      rcases List.append_eq_append_iff.1 he with ⟨x, hx1, hx2⟩ | ⟨x, hx1, hx2⟩
      · have := i2 x y b w hx2 hc
        rw [hx1]
        simpa using this
      · cases x with
        | nil =>
          simp only [List.nil_append] at hx2
          have := i2 [] y b w hx2.symm hc
          rw [← (show post.reverse ++ [q] = a by simpa using hx1)]
          simpa using this
        | cons z x =>
          simp only [List.cons_append, List.cons.injEq] at hx2
          obtain ⟨rfl, hx2⟩ := hx2
          exact hp.parts a y (x ++ pre.reverse) w (by rw [hparts, hx1]; simp) hc

theorem Caches.snoc {ps : List (Part C)} (h : Caches ok ps) {q : Part C}
    (hq : ∀ v, q.cache = some v → ok (ps.map Part.key ++ [q.key]) v) : Caches ok (ps ++ [q]) := by
  intro pre y post v he hc
  rcases List.append_eq_append_iff.1 he with ⟨a, h1, h2⟩ | ⟨a, h1, h2⟩
  · cases a with
    | nil =>
      simp only [List.nil_append, List.cons.injEq] at h2
      obtain ⟨rfl, _⟩ := h2
      rw [show pre = ps by simpa using h1]
      exact hq v hc
    | cons x a =>
      simp only [List.cons_append, List.cons.injEq] at h2
      have := congrArg List.length h2.2; simp at this
  · cases a with
    | nil =>
      simp only [List.nil_append, List.cons.injEq] at h2
      obtain ⟨rfl, _⟩ := h2
      rw [show ps = pre by simpa using h1] at hq
      exact hq v hc
    | cons x a =>
      simp only [List.cons_append, List.cons.injEq] at h2
      obtain ⟨rfl, _⟩ := h2
      exact h pre y a v h1 hc

theorem Caches.init {ps : List (Part C)} {q : Part C} (h : Caches ok (ps ++ [q])) : Caches ok ps := by
  intro pre y post v he hc
  exact h pre y (post ++ [q]) v (by rw [he]; simp) hc

theorem Lasts.append {p : PathSt C} (h : Lasts ok p) (k : Val) : Lasts ok (p.append k) :=
  ⟨h.root, h.parts.snoc (by intro v hv; cases hv)⟩

theorem Lasts.pop {p q : PathSt C} (h : Lasts ok p) (hq : p.pop = .ok q) : Lasts ok q ∧ q.root = p.root := by
  unfold PathSt.pop at hq
  cases hr : p.parts.reverse with
  | nil => rw [hr] at hq; cases hq
  | cons x rest =>
    rw [hr] at hq
    cases hq
    have hp : p.parts = rest.reverse ++ [x] := by
      have := congrArg List.reverse hr; simpa using this
    have := h.parts
    rw [hp] at this
    exact ⟨⟨h.root, this.init⟩, rfl⟩

/-- Storing a value at the path. -/
theorem Lasts.setValue {p : PathSt C} (h : Lasts ok p) {v : C} (hv : ok p.keys v) : Lasts ok (p.setValue v) := by
  unfold PathSt.setValue
  cases hr : p.parts.reverse with
  | nil =>
    have hp : p.parts = [] := by simpa using hr
    refine ⟨?_, h.parts⟩
    simpa [keys, hp] using hv
  | cons x rest =>
    have hp : p.parts = rest.reverse ++ [x] := by
      have := congrArg List.reverse hr; simpa using this
    have h1 := h.parts
    rw [hp] at h1
    refine ⟨h.root, ?_⟩
    simp only [List.reverse_cons]
    refine h1.init.snoc ?_
    intro w hw
    simp only [Option.some.injEq] at hw
    subst hw
    simpa [keys, hp] using hv

theorem Lasts.imp {ok' : List Val → C → Prop} {p : PathSt C} (h : Lasts ok p) (hi : ∀ ks v, ok ks v → ok' ks v) :
    Lasts ok' p :=
  ⟨hi _ _ h.root, fun pre q post v he hc => hi _ _ (h.parts pre q post v he hc)⟩

end PathSt
end Pilo
