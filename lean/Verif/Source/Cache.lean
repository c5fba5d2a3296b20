import Verif.Source.Lawful

/-!
# The cache of `Path.value`

For a resolver that depends on nothing but the container and the key, and that resolves nothing on the
`NONE` constant, the cached `Path.value` is the plain left-to-right resolution of the keys.
-/

namespace Pilo
namespace PathSt
variable {C : Type}

/-- Specification: resolve the keys one after the other, no caching, no early exit. -/
def follow (R : C → Val → Except Exc C) : C → List Val → Except Exc C
  | c, [] => .ok c
  | c, k :: ks => match R c k with
    | .ok w => follow R w ks
    | .error e => .error e

theorem follow_append (R : C → Val → Except Exc C) (c : C) (ks ls : List Val) :
    follow R c (ks ++ ls) = match follow R c ks with
      | .ok w => follow R w ls
      | .error e => .error e := by
  induction ks generalizing c with
  | nil => rfl
  | cons k ks ih =>
    simp only [List.cons_append, follow]
    cases R c k with
    | ok w => exact ih w
    | error e => rfl

/-- `R` as the resolver argument of `Path.value`. -/
def plain (R : C → Val → Except Exc C) : List Val → Unit → C → Val → Except Exc C × Unit :=
  fun _ _ c k => (R c k, ())

/-- Keys in `K` resolve to nothing on `NONE`. -/
def Absorbs (R : C → Val → Except Exc C) (isN : C → Bool) (K : Val → Prop) : Prop :=
  ∀ c k, isN c = true → K k → R c k = .ok c

theorem follow_none {R : C → Val → Except Exc C} {isN : C → Bool} {K : Val → Prop} (hR : Absorbs R isN K)
    {c : C} (hc : isN c = true) {ks : List Val} (hk : ∀ k ∈ ks, K k) : follow R c ks = .ok c := by
  induction ks with
  | nil => rfl
  | cons k ks ih =>
    simp only [follow, hR c k hc (hk k (by simp))]
    exact ih fun k' h => hk k' (by simp [h])

/-- Every cached value is the resolution of the keys up to there. -/
def Good (R : C → Val → Except Exc C) (root : C) (ps : List (Part C)) : Prop :=
  ∀ pre q post v, ps = pre ++ q :: post → q.cache = some v →
    follow R root (pre.map Part.key ++ [q.key]) = .ok v ∧ ∀ p ∈ pre ++ [q], p.raw = false

theorem scan_spec (l : List (Part C)) :
    match scan l with
    | .error e => e = .attributeError "object has no attribute 'value'" ∧ ∃ p ∈ l, p.raw = true
    | .ok none => ∀ p ∈ l, p.raw = false ∧ p.cache = none
    | .ok (some (i, v)) => ∃ pre q post, l = pre ++ q :: post ∧
        (∀ p ∈ pre, p.raw = false ∧ p.cache = none) ∧ q.raw = false ∧ q.cache = some v ∧
        i = post.length + 1 := by
  induction l with
  | nil => simp [scan]
  | cons p l ih =>
    unfold scan
    cases hr : p.raw with
    | true => simp [hr]
    | false =>
      simp only [Bool.false_eq_true, if_false]
      cases hc : p.cache with
      | some v => exact ⟨[], p, l, rfl, by simp, hr, hc, rfl⟩
      | none =>
        simp only
        cases hs : scan l with
        | error e =>
          rw [hs] at ih
          obtain ⟨h1, q, hq, h2⟩ := ih
          exact ⟨h1, q, by simp [hq], h2⟩
        | ok o =>
          rw [hs] at ih
          cases o with
          | none =>
            intro q hq
            rcases List.mem_cons.1 hq with h | h
            · subst h; exact ⟨hr, hc⟩
            · exact ih q h
          | some x =>
            obtain ⟨i, v⟩ := x
            obtain ⟨pre, q, post, h1, h2, h3, h4, h5⟩ := ih
            refine ⟨p :: pre, q, post, by simp [h1], ?_, h3, h4, h5⟩
            intro q hq
            rcases List.mem_cons.1 hq with h | h
            · subst h; exact ⟨hr, hc⟩
            · exact h2 q h

theorem fill_spec {R : C → Val → Except Exc C} {isN : C → Bool} {K : Val → Prop} (hR : Absorbs R isN K)
    (keys : List Val) (ps : List (Part C)) : ∀ (v : C), (∀ p ∈ ps, p.raw = false ∧ p.cache = none) →
    (∀ p ∈ ps, K p.key) →
    (fill (plain R) isN keys () v ps).1 = follow R v (ps.map Part.key) ∧
    Good R v (fill (plain R) isN keys () v ps).2.2 := by
  induction ps with
  | nil =>
    intro v _ _
    refine ⟨rfl, ?_⟩
    intro pre q post w h
    simp [fill] at h
  | cons p ps ih =>
    intro v hp hK
    have hp0 := hp p (by simp)
    have hps : ∀ q ∈ ps, q.raw = false ∧ q.cache = none := fun q hq => hp q (by simp [hq])
    have hKs : ∀ q ∈ ps, K q.key := fun q hq => hK q (by simp [hq])
    simp only [fill, plain, List.map_cons, follow]
    cases hr : R v p.key with
    | error e =>
      refine ⟨rfl, ?_⟩
      intro pre q post w h hc
      have : q ∈ p :: ps := by simp only at h; rw [h]; simp
      rw [(hp q this).2] at hc
      cases hc
    | ok w =>
      simp only
      cases hn : isN w with
      | true =>
        simp only [if_true]
        have hf := follow_none hR hn (ks := ps.map Part.key) (by simpa using hKs)
        refine ⟨by rw [hf], ?_⟩
        intro pre q post x h hc
        cases pre with
        | nil =>
          simp only [List.nil_append, List.cons.injEq] at h
          obtain ⟨h, _⟩ := h
          subst h
          simp only [Option.some.injEq] at hc
          subst hc
          simp [follow, hr, hp0.1]
        | cons p' pre =>
          simp only [List.cons_append, List.cons.injEq] at h
          have : q ∈ ps := by rw [h.2]; simp
          rw [(hps q this).2] at hc
          cases hc
      | false =>
        simp only [Bool.false_eq_true, if_false]
        obtain ⟨h1, h2⟩ := ih w hps hKs
        refine ⟨h1, ?_⟩
        intro pre q post x h hc
        cases pre with
        | nil =>
          simp only [List.nil_append, List.cons.injEq] at h
          obtain ⟨h, _⟩ := h
          subst h
          simp only [Option.some.injEq] at hc
          subst hc
          simp [follow, hr, hp0.1]
        | cons p' pre =>
          simp only [List.cons_append, List.cons.injEq] at h
          obtain ⟨h, h'⟩ := h
          subst h
          obtain ⟨h3, h4⟩ := h2 pre q post x h' hc
          refine ⟨?_, ?_⟩
          · simp only [List.map_cons, List.cons_append, follow, hr]; exact h3
          · intro y hy
            rcases List.mem_cons.1 hy with hy | hy
            · subst hy; exact hp0.1
            · exact h4 y hy

/-- The specification of `path.value`: `AttributeError` if the path contains a key that is neither an
integer nor a string, else the resolution of its keys. -/
def spec (R : C → Val → Except Exc C) (root : C) (ks : List Val) : Except Exc C :=
  if ks.all (fun k => k.isIntLike || k.isStr) then follow R root ks
  else .error (.attributeError "object has no attribute 'value'")

theorem fill_raw (resolve : List Val → Unit → C → Val → Except Exc C × Unit) (isN : C → Bool)
    (keys : List Val) (ps : List (Part C)) : ∀ v, (∀ p ∈ ps, p.raw = false) →
    ∀ p ∈ (fill resolve isN keys () v ps).2.2, p.raw = false := by
  induction ps with
  | nil => intro v _ p hp; simp [fill] at hp
  | cons p ps ih =>
    intro v h
    simp only [fill]
    cases hr : resolve keys () v p.key with
    | mk r _ =>
      cases r with
      | error e => exact h
      | ok w =>
        simp only
        split
        · intro q hq
          rcases List.mem_cons.1 hq with hq | hq
          · subst hq; exact h p (by simp)
          · exact h q (by simp [hq])
        · intro q hq
          rcases List.mem_cons.1 hq with hq | hq
          · subst hq; exact h p (by simp)
          · exact ih w (fun q hq => h q (by simp [hq])) q hq

/-- `Path.value` returns the specified value and keeps the cache good. -/
theorem value_spec {R : C → Val → Except Exc C} {isN : C → Bool} {K : Val → Prop} (hR : Absorbs R isN K)
    {p : PathSt C} (ht : p.Tidy) (hK : ∀ k ∈ p.keys, K k) (hg : Good R p.root p.parts) :
    (value (plain R) isN () p).1 = spec R p.root p.keys ∧
    Good R p.root (value (plain R) isN () p).2.2.parts ∧
    (value (plain R) isN () p).2.2.root = p.root := by
  have hK' : ∀ q ∈ p.parts, K q.key := fun q hq => hK _ (List.mem_map_of_mem hq)
  have hall : p.keys.all (fun k => k.isIntLike || k.isStr) = true ↔ ∀ q ∈ p.parts, q.raw = false := by
    simp only [keys, List.all_map, List.all_eq_true, Function.comp]
    constructor
    · intro h q hq; rw [ht q hq, h q hq]; rfl
    · intro h q hq
      have := h q hq
      rw [ht q hq] at this
      revert this
      cases q.key.isIntLike <;> simp
  have hs := scan_spec p.parts.reverse
  unfold value
  cases hsc : scan p.parts.reverse with
  | error e =>
    rw [hsc] at hs
    obtain ⟨rfl, q, hq, hraw⟩ := hs
    refine ⟨?_, hg, rfl⟩
    have : ¬ p.keys.all (fun k => k.isIntLike || k.isStr) = true := by
      rw [hall]; intro h; rw [h q (by simpa using hq)] at hraw; cases hraw
    simp only [spec, this]
    rfl
  | ok o =>
    rw [hsc] at hs
    cases o with
    | none =>
      have hps : ∀ q ∈ p.parts, q.raw = false ∧ q.cache = none := fun q hq => hs q (by simpa using hq)
      obtain ⟨h1, h2⟩ := fill_spec hR p.keys p.parts p.root hps hK'
      refine ⟨?_, h2, rfl⟩
      have := hall.2 fun q hq => (hps q hq).1
      simp only [spec, this, if_true]
      exact h1
    | some x =>
      obtain ⟨i, v⟩ := x
      obtain ⟨pre, q, post, h1, h2, h3, h4, h5⟩ := hs
      have hp : p.parts = (post.reverse ++ [q]) ++ pre.reverse := by
        have := congrArg List.reverse h1
        simpa using this
      have hlen : (post.reverse ++ [q]).length = i := by simp [h5]
      have hdrop : p.parts.drop i = pre.reverse := by rw [hp, ← hlen, List.drop_left]
      have htake : p.parts.take i = post.reverse ++ [q] := by rw [hp, ← hlen, List.take_left]
      have hpre : ∀ x ∈ pre.reverse, x.raw = false ∧ x.cache = none := fun x hx => h2 x (by simpa using hx)
      obtain ⟨hfol, hraw⟩ := hg post.reverse q pre.reverse v (by rw [hp]; simp) h4
      obtain ⟨h6, h7⟩ := fill_spec hR p.keys pre.reverse v hpre
        (fun x hx => hK' x (by rw [hp]; simp [List.mem_reverse.1 hx]))
      have h8 := fill_raw (plain R) isN p.keys pre.reverse v (fun x hx => (hpre x hx).1)
      simp only [hdrop, htake]
      refine ⟨?_, ?_, trivial⟩
      · have := hall.2 fun x hx => by
          rw [hp, List.mem_append] at hx
          rcases hx with hx | hx
          · exact hraw x hx
          · exact (hpre x hx).1
        simp only [spec, this, if_true]
        rw [h6]
        have hk : p.keys = (post.reverse.map Part.key ++ [q.key]) ++ pre.reverse.map Part.key := by
          unfold keys; rw [hp]; simp
        rw [hk, follow_append, hfol]
      · intro a y b w hab hw
        rcases List.append_eq_append_iff.1 hab with ⟨c, hc1, hc2⟩ | ⟨c, hc1, hc2⟩
        · -- y lies in the filled part
          obtain ⟨h9, h10⟩ := h7 c y b w hc2 hw
          subst hc1
          refine ⟨?_, ?_⟩
          · have : (post.reverse ++ [q] ++ c).map Part.key ++ [y.key]
                = (post.reverse.map Part.key ++ [q.key]) ++ (c.map Part.key ++ [y.key]) := by simp
            rw [this, follow_append, hfol]; exact h9
          · intro z hz
            rw [List.append_assoc, List.mem_append] at hz
            rcases hz with hz | hz
            · exact hraw z hz
            · exact h10 z hz
        · cases c with
          | nil =>
            simp only [List.append_nil] at hc1
            simp only [List.nil_append] at hc2
            obtain ⟨h9, h10⟩ := h7 [] y b w (by simp [← hc2]) hw
            subst hc1
            refine ⟨?_, ?_⟩
            · have : (post.reverse ++ [q]).map Part.key ++ [y.key]
                  = (post.reverse.map Part.key ++ [q.key]) ++ [y.key] := by simp
              rw [this, follow_append, hfol]; exact h9
            · intro z hz
              rw [List.mem_append] at hz
              rcases hz with hz | hz
              · exact hraw z hz
              · exact h10 z (by simpa using hz)
          | cons y' c =>
            simp only [List.cons_append, List.cons.injEq] at hc2
            obtain ⟨rfl, _⟩ := hc2
            exact hg a y (c ++ pre.reverse) w (by rw [hp, hc1]; simp) hw

theorem Good.append {R : C → Val → Except Exc C} {p : PathSt C} (hg : Good R p.root p.parts) (k : Val) :
    Good R p.root (p.append k).parts := by
  intro pre q post v h hc
  simp only [PathSt.append] at h
  rcases List.append_eq_append_iff.1 h with ⟨a, h1, h2⟩ | ⟨a, h1, h2⟩
  · cases a with
    | nil =>
      simp only [List.nil_append, List.cons.injEq] at h2
      rw [← h2.1] at hc; simp [Part.ofKey] at hc
    | cons x a =>
      simp only [List.cons_append, List.cons.injEq] at h2
      have := congrArg List.length h2.2; simp at this
  · cases a with
    | nil =>
      simp only [List.nil_append, List.cons.injEq] at h2
      rw [h2.1] at hc; simp [Part.ofKey] at hc
    | cons x a =>
      simp only [List.cons_append, List.cons.injEq] at h2
      obtain ⟨rfl, _⟩ := h2
      exact hg pre q a v h1 hc

theorem Good.pop {R : C → Val → Except Exc C} {p p' : PathSt C} (hg : Good R p.root p.parts)
    (h : p.pop = .ok p') : Good R p'.root p'.parts ∧ p'.root = p.root ∧
      ∃ q, p.parts = p'.parts ++ [q] := by
  unfold PathSt.pop at h
  cases hr : p.parts.reverse with
  | nil => rw [hr] at h; simp at h
  | cons q rest =>
    rw [hr] at h
    simp only [Except.ok.injEq] at h
    subst h
    have hp : p.parts = rest.reverse ++ [q] := by
      have := congrArg List.reverse hr; simpa using this
    refine ⟨?_, rfl, q, hp⟩
    intro pre y post v h hc
    simp only at h
    exact hg pre y (post ++ [q]) v (by rw [hp, h]; simp) hc

end PathSt
end Pilo
