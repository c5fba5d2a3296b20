import Verif.Twin
import Verif.Source.Cache

/-!
# A path into a document and a path into a part of the document

After a path has been read down to some key, the rest of the path behaves like a path of its own that starts
from the value found there (used for C50).
-/

namespace Pilo

namespace PathSt

/-- The path `st` continues below the keys `K`, whose value has been read, as the path `sub` does from that
value.  At least `d` keys of both can be taken off. -/
structure Win {V : Type} (K : List Val) (d : Nat) (st sub : PathSt V) : Prop where
  parts : ∃ pre q, st.parts = pre ++ q :: sub.parts ∧ (pre ++ [q]).map Part.key = K ∧ q.raw = false ∧
    q.cache = some sub.root
  atoms : ∀ q ∈ sub.parts, q.raw = false
  tidy : st.Tidy
  depth : d ≤ sub.parts.length

variable {V : Type} {K : List Val} {d : Nat} {st sub : PathSt V}

theorem scan_append (l m : List (Part V)) : scan (l ++ m) = match scan l with
    | .error e => .error e
    | .ok none => scan m
    | .ok (some (i, v)) => .ok (some (i + m.length, v)) := by
  induction l with
  | nil => rfl
  | cons p l ih =>
    simp only [List.cons_append, scan]
    split
    · rfl
    · cases p.cache with
      | some v => simp; omega
      | none => exact ih

theorem fill_congr {R1 R2 : List Val → Unit → V → Val → Except Exc V × Unit} {isN : V → Bool} {ks ls : List Val}
    (ps : List (Part V)) : ∀ (v : V), (ps ≠ [] → ∀ c k, R1 ks () c k = R2 ls () c k) →
    fill R1 isN ks () v ps = fill R2 isN ls () v ps := by
  induction ps with
  | nil => intro v _; rfl
  | cons p ps ih =>
    intro v h
    have h' := h (by simp)
    unfold fill
    rw [h']
    split
    · rfl
    · split
      · rfl
      · rename_i w _ _ _
        rw [ih w fun _ => h']

theorem Win.keys (h : Win K d st sub) : st.keys = K ++ sub.keys := by
  obtain ⟨pre, q, h1, h2, -⟩ := h.parts
  unfold PathSt.keys
  rw [h1, ← h2]
  simp

theorem Win.found (h : Win K d st sub) : ∃ n, st.parts.drop n = sub.parts ∧ scan st.parts.reverse =
    match scan sub.parts.reverse with
      | .error e => .error e
      | .ok none => .ok (some (n, sub.root))
      | .ok (some (i, v)) => .ok (some (i + n, v)) := by
  obtain ⟨pre, q, h1, h2, h3, h4⟩ := h.parts
  refine ⟨pre.length + 1, by rw [h1, List.drop_append]; simp, ?_⟩
  rw [h1]
  simp only [List.reverse_append, List.reverse_cons, List.append_assoc, List.singleton_append]
  rw [scan_append]
  cases scan sub.parts.reverse with
  | error e => rfl
  | ok o =>
    rcases o with _ | ⟨i, v⟩
    · simp [scan, h3, h4]
    · simp

/-- The root and all values cached are good. -/
def Below (G : V → Prop) (st : PathSt V) : Prop :=
  G st.root ∧ ∀ q ∈ st.parts, ∀ v, q.cache = some v → G v

theorem scan_mem {ps : List (Part V)} {i : Nat} {v : V} (h : scan ps = .ok (some (i, v))) :
    ∃ q ∈ ps, q.cache = some v := by
  induction ps with
  | nil => cases h
  | cons p ps ih =>
    unfold scan at h
    split at h
    · cases h
    · cases hc : p.cache with
      | some w => rw [hc] at h; cases h; exact ⟨p, by simp, hc⟩
      | none =>
        rw [hc] at h
        obtain ⟨q, h1, h2⟩ := ih h
        exact ⟨q, by simp [h1], h2⟩

theorem fill_below {G : V → Prop} {R1 R2 : V → Val → Except Exc V} {isN : V → Bool} {ks ls : List Val}
    (hR : ∀ c k, G c → R1 c k = R2 c k) (hG : ∀ c k w, G c → R2 c k = .ok w → G w) (ps : List (Part V)) :
    ∀ v, G v → (∀ q ∈ ps, ∀ w, q.cache = some w → G w) →
    fill (fun _ (_ : Unit) c k => (R1 c k, ())) isN ks () v ps = fill (fun _ (_ : Unit) c k => (R2 c k, ())) isN ls () v ps ∧
    (∀ w, (fill (fun _ (_ : Unit) c k => (R2 c k, ())) isN ls () v ps).1 = .ok w → G w) ∧
    ∀ q ∈ (fill (fun _ (_ : Unit) c k => (R2 c k, ())) isN ls () v ps).2.2, ∀ w, q.cache = some w → G w := by
  induction ps with
  | nil => intro v hv _; exact ⟨rfl, (by intro w h; cases h; exact hv), by intro q hq; cases hq⟩
  | cons p ps ih =>
    intro v hv hps
    unfold fill
    rw [hR v p.key hv]
    cases hx : R2 v p.key with
    | error e => exact ⟨rfl, (by intro w h; cases h), hps⟩
    | ok w =>
      have hw := hG _ _ _ hv hx
      dsimp only
      split
      · refine ⟨rfl, (by intro w' h; cases h; exact hw), ?_⟩
        intro q hq w' h
        rcases List.mem_cons.1 hq with rfl | hq
        · cases h; exact hw
        · exact hps q (by simp [hq]) w' h
      · obtain ⟨h1, h2, h3⟩ := ih w hw fun q hq => hps q (by simp [hq])
        rw [h1]
        refine ⟨rfl, h2, ?_⟩
        intro q hq w' h
        rcases List.mem_cons.1 hq with rfl | hq
        · cases h; exact hw
        · exact h3 q hq w' h

/-- Resolvers that agree on good values read the same from a good path. -/
theorem Below.value {G : V → Prop} {R1 R2 : V → Val → Except Exc V} {isN : V → Bool}
    (hR : ∀ c k, G c → R1 c k = R2 c k) (hG : ∀ c k w, G c → R2 c k = .ok w → G w) (h : Below G sub) :
    value (fun _ (_ : Unit) c k => (R1 c k, ())) isN () sub = value (fun _ (_ : Unit) c k => (R2 c k, ())) isN () sub ∧
    (∀ w, (value (fun _ (_ : Unit) c k => (R2 c k, ())) isN () sub).1 = .ok w → G w) ∧
    Below G (value (fun _ (_ : Unit) c k => (R2 c k, ())) isN () sub).2.2 := by
  unfold PathSt.value
  cases hs : PathSt.scan sub.parts.reverse with
  | error e => exact ⟨rfl, (by intro w h; cases h), h⟩
  | ok o =>
    rcases o with _ | ⟨i, v⟩
    · obtain ⟨h1, h2, h3⟩ := fill_below (isN := isN) (ks := sub.keys) (ls := sub.keys) hR hG sub.parts _ h.1 h.2
      dsimp only
      rw [h1]
      exact ⟨rfl, h2, h.1, h3⟩
    · obtain ⟨q, hq, hc⟩ := scan_mem hs
      have hv := h.2 q (List.mem_reverse.1 hq) v hc
      obtain ⟨h1, h2, h3⟩ := fill_below (isN := isN) (ks := sub.keys) (ls := sub.keys) hR hG (sub.parts.drop i) _ hv
        fun q hq => h.2 q (List.mem_of_mem_drop hq)
      dsimp only
      rw [h1]
      refine ⟨rfl, h2, h.1, ?_⟩
      intro q hq
      rcases List.mem_append.1 hq with hq | hq
      · exact h.2 q (List.mem_of_mem_take hq)
      · exact h3 q hq

/-- The same for a path that continues a good one. -/
theorem Win.agree {G : V → Prop} {R1 R2 : V → Val → Except Exc V} {isN : V → Bool}
    (hR : ∀ c k, G c → R1 c k = R2 c k) (hG : ∀ c k w, G c → R2 c k = .ok w → G w) (h : Win K d st sub)
    (hb : Below G sub) :
    value (fun _ (_ : Unit) c k => (R1 c k, ())) isN () st = value (fun _ (_ : Unit) c k => (R2 c k, ())) isN () st := by
  obtain ⟨n, hd, hsc⟩ := h.found
  unfold PathSt.value
  rw [hsc]
  cases hs : PathSt.scan sub.parts.reverse with
  | error e => rfl
  | ok o =>
    rcases o with _ | ⟨i, v⟩
    · obtain ⟨h1, -, -⟩ := fill_below (isN := isN) (ks := st.keys) (ls := st.keys) hR hG sub.parts _ hb.1 hb.2
      dsimp only
      rw [hd, h1]
    · obtain ⟨q, hq, hc⟩ := scan_mem hs
      have hv := hb.2 q (List.mem_reverse.1 hq) v hc
      obtain ⟨h1, -, -⟩ := fill_below (isN := isN) (ks := st.keys) (ls := st.keys) hR hG (sub.parts.drop i) _ hv
        fun q hq => hb.2 q (List.mem_of_mem_drop hq)
      have hdi : st.parts.drop (i + n) = sub.parts.drop i := by rw [Nat.add_comm, ← List.drop_drop, hd]
      dsimp only
      rw [hdi, h1]

theorem Below.append {G : V → Prop} (h : Below G st) (k : Val) : Below G (st.append k) := by
  refine ⟨h.1, ?_⟩
  intro q hq v hv
  simp only [PathSt.append, List.mem_append, List.mem_singleton] at hq
  rcases hq with hq | rfl
  · exact h.2 q hq v hv
  · cases hv

theorem Below.pop {G : V → Prop} (h : Below G st) {st' : PathSt V} (hp : st.pop = .ok st') : Below G st' := by
  obtain ⟨root, parts⟩ := st
  rcases List.eq_nil_or_concat parts with h0 | ⟨ps, x, hx⟩
  · subst h0; cases hp
  · rw [List.concat_eq_append] at hx
    subst hx
    have : PathSt.pop { root := root, parts := ps ++ [x] } = .ok { root := root, parts := ps } := by simp [PathSt.pop]
    rw [this] at hp
    cases hp
    exact ⟨h.1, fun q hq => h.2 q (List.mem_append_left _ hq)⟩

theorem Win.value {R1 R2 : List Val → V → Val → Except Exc V} {isN : V → Bool}
    (hR : ∀ ls c k, ls ≠ [] → R1 (K ++ ls) c k = R2 ls c k) (h : Win K d st sub) :
    (value (fun ks (_ : Unit) c k => (R1 ks c k, ())) isN () st).1 =
      (value (fun ks (_ : Unit) c k => (R2 ks c k, ())) isN () sub).1 ∧
    Win K d (value (fun ks (_ : Unit) c k => (R1 ks c k, ())) isN () st).2.2
      (value (fun ks (_ : Unit) c k => (R2 ks c k, ())) isN () sub).2.2 := by
  obtain ⟨pre, q, h1, h2, h3, h4⟩ := h.parts
  have hfill : ∀ v ps, (ps ≠ [] → sub.keys ≠ []) →
      fill (fun ks (_ : Unit) c k => (R1 ks c k, ())) isN st.keys () v ps =
      fill (fun ks (_ : Unit) c k => (R2 ks c k, ())) isN sub.keys () v ps := by
    intro v ps hne
    refine fill_congr ps v fun hps c k => ?_
    rw [h.keys, hR _ _ _ (hne hps)]
  have hnil : ∀ ps : List (Part V), (∃ i, ps = sub.parts.drop i) → ps ≠ [] → sub.keys ≠ [] := by
    rintro ps ⟨i, rfl⟩ hne h0
    unfold PathSt.keys at h0
    rw [List.map_eq_nil_iff] at h0
    rw [h0] at hne
    simp at hne
  have hscan : scan st.parts.reverse = match scan sub.parts.reverse with
      | .error e => .error e
      | .ok none => .ok (some (pre.length + 1, sub.root))
      | .ok (some (i, v)) => .ok (some (i + (pre.length + 1), v)) := by
    rw [h1]
    simp only [List.reverse_append, List.reverse_cons, List.append_assoc, List.singleton_append]
    rw [scan_append]
    cases scan sub.parts.reverse with
    | error e => rfl
    | ok o =>
      rcases o with _ | ⟨i, v⟩
      · simp [scan, h3, h4]
      · simp
  have hraw : ∀ (v : V) ps, (∃ i, ps = sub.parts.drop i) → ∀ x ∈ sub.parts.take (sub.parts.length - ps.length) ++
      (fill (fun ks (_ : Unit) c k => (R2 ks c k, ())) isN sub.keys () v ps).2.2, x.raw = false := by
    rintro v ps ⟨i, rfl⟩ x hx
    rcases List.mem_append.1 hx with hx | hx
    · exact h.atoms x (List.mem_of_mem_take hx)
    · have h5 := fill_sig (fun ks (_ : Unit) c k => (R2 ks c k, ())) isN sub.keys (sub.parts.drop i) () v
      have h6 : (x.key, x.raw) ∈ (sub.parts.drop i).map fun q => (q.key, q.raw) := by
        rw [← h5]; exact List.mem_map.2 ⟨x, hx, rfl⟩
      obtain ⟨y, hy, he⟩ := List.mem_map.1 h6
      simp only [Prod.mk.injEq] at he
      rw [← he.2]
      exact h.atoms y (List.mem_of_mem_drop hy)
  have hlen : ∀ (v : V) ps, (fill (fun ks (_ : Unit) c k => (R2 ks c k, ())) isN sub.keys () v ps).2.2.length
      = ps.length := by
    intro v ps
    have h5 := congrArg List.length (fill_sig (fun ks (_ : Unit) c k => (R2 ks c k, ())) isN sub.keys ps () v)
    simpa using h5
  have htidy := tidy_of_sig (value_sig (fun ks (_ : Unit) c k => (R1 ks c k, ())) isN () st) h.tidy
  unfold PathSt.value at htidy ⊢
  rw [hscan] at htidy ⊢
  cases hs : scan sub.parts.reverse with
  | error e => exact ⟨rfl, h⟩
  | ok o =>
    rcases o with _ | ⟨i, v⟩
    · rw [hs] at htidy
      dsimp only at htidy ⊢
      have hd : st.parts.drop (pre.length + 1) = sub.parts := by
        rw [h1, List.drop_append]; simp
      have ht : st.parts.take (pre.length + 1) = pre ++ [q] := by
        rw [h1, List.take_append, List.take_of_length_le (by omega)]; simp
      rw [hd, ht, hfill _ sub.parts (hnil _ ⟨0, rfl⟩)] at htidy ⊢
      refine ⟨rfl, ⟨pre, q, ?_, h2, h3, h4⟩, ?_, htidy, ?_⟩
      · simp
      · have := hraw sub.root sub.parts ⟨0, rfl⟩
        simpa using this
      · show d ≤ (fill _ _ _ _ _ _).2.2.length
        rw [hlen]; exact h.depth
    · rw [hs] at htidy
      dsimp only at htidy ⊢
      have hd : st.parts.drop (i + (pre.length + 1)) = sub.parts.drop i := by
        rw [h1, List.drop_append, show i + (pre.length + 1) - pre.length = i + 1 by omega,
          List.drop_of_length_le (by omega)]
        simp
      have ht : st.parts.take (i + (pre.length + 1)) = pre ++ q :: sub.parts.take i := by
        rw [h1, List.take_append, show i + (pre.length + 1) - pre.length = i + 1 by omega,
          List.take_of_length_le (by omega)]
        simp
      rw [hd, ht, hfill _ _ (hnil _ ⟨i, rfl⟩)] at htidy ⊢
      refine ⟨rfl, ⟨pre, q, ?_, h2, h3, h4⟩, ?_, htidy, ?_⟩
      · simp
      · intro x hx
        rcases List.mem_append.1 hx with hx | hx
        · exact h.atoms x (List.mem_of_mem_take hx)
        · exact hraw v (sub.parts.drop i) ⟨i, rfl⟩ x (List.mem_append_right _ hx)
      · show d ≤ (sub.parts.take i ++ (fill _ _ _ _ _ _).2.2).length
        rw [List.length_append, hlen, ← List.length_append, List.take_append_drop]; exact h.depth

theorem Win.append (h : Win K d st sub) {k : Val} (hk : (k.isIntLike || k.isStr) = true) :
    Win K (d + 1) (st.append k) (sub.append k) := by
  obtain ⟨pre, q, h1, h2, h3, h4⟩ := h.parts
  refine ⟨⟨pre, q, ?_, h2, h3, h4⟩, ?_, append_tidy h.tidy k, ?_⟩
  · simp [PathSt.append, h1]
  · intro x hx
    simp only [PathSt.append, List.mem_append, List.mem_singleton] at hx
    rcases hx with hx | rfl
    · exact h.atoms x hx
    · simp [Part.ofKey, hk]
  · have := h.depth
    simp [PathSt.append]; exact this

theorem pop_concat (r : V) (ps : List (Part V)) (q : Part V) :
    pop { root := r, parts := ps ++ [q] } = .ok { root := r, parts := ps } := by
  simp [pop]

theorem Win.pop (h : Win K (d + 1) st sub) : ∃ st' sub', st.pop = .ok st' ∧ sub.pop = .ok sub' ∧ Win K d st' sub' := by
  obtain ⟨pre, q, h1, h2, h3, h4⟩ := h.parts
  obtain ⟨root, parts⟩ := st
  obtain ⟨root', parts'⟩ := sub
  dsimp only at h1 h2 h3 h4
  have hd := h.depth
  dsimp only at hd
  rcases List.eq_nil_or_concat parts' with h0 | ⟨ps, x, hx⟩
  · rw [h0] at hd; simp at hd
  · rw [List.concat_eq_append] at hx
    subst hx
    subst h1
    refine ⟨{ root := root, parts := pre ++ q :: ps }, { root := root', parts := ps }, ?_, pop_concat _ _ _,
      ⟨⟨pre, q, rfl, h2, h3, h4⟩, ?_, ?_, ?_⟩⟩
    · rw [show pre ++ q :: (ps ++ [x]) = (pre ++ q :: ps) ++ [x] by simp]; exact pop_concat _ _ _
    · intro y hy; exact h.atoms y (List.mem_append_left _ hy)
    · intro y hy
      refine h.tidy y ?_
      show y ∈ pre ++ q :: (ps ++ [x])
      rcases List.mem_append.1 hy with hy | hy
      · exact List.mem_append_left _ hy
      · rcases List.mem_cons.1 hy with rfl | hy
        · simp
        · simp [hy]
    · simpa using hd

/-- Nothing can be read. -/
def Stuck (st : PathSt V) : Prop := scan st.parts.reverse = .error deadExc

theorem Stuck.append (h : Stuck st) (k : Val) : Stuck (st.append k) := by
  unfold Stuck at *
  simp only [PathSt.append, List.reverse_append, List.reverse_cons, List.reverse_nil, List.nil_append,
    List.singleton_append, scan, Part.ofKey]
  split
  · rfl
  · exact h

theorem Stuck.raw (st : PathSt V) {k : Val} (hk : (k.isIntLike || k.isStr) = false) : Stuck (st.append k) := by
  unfold Stuck
  simp only [PathSt.append, List.reverse_append, List.reverse_cons, List.reverse_nil, List.nil_append,
    List.singleton_append, scan, Part.ofKey]
  simp [hk, deadExc]

theorem append_pop (st : PathSt V) (k : Val) : (st.append k).pop = .ok st := by
  unfold PathSt.append
  exact pop_concat _ _ _

theorem Stuck.value (h : Stuck st) (R : List Val → Unit → V → Val → Except Exc V × Unit) (isN : V → Bool) :
    PathSt.value R isN () st = (.error deadExc, (), st) := by
  unfold PathSt.value
  rw [h]

/-! The value that has been read is cached. -/

theorem fill_last_cached {R : List Val → Unit → V → Val → Except Exc V × Unit} {isN : V → Bool} {ks : List Val}
    (ps : List (Part V)) : ∀ (v w : V), (fill R isN ks () v ps).1 = .ok w → isN w = false → ps ≠ [] →
    ∃ pre q, (fill R isN ks () v ps).2.2 = pre ++ [q] ∧ q.cache = some w := by
  induction ps with
  | nil => intro _ _ _ _ h; exact (h rfl).elim
  | cons p ps ih =>
    intro v w h hn _
    unfold fill at h ⊢
    split at h
    · cases h
    · rename_i x s' hx
      split at h
      · next hxn => cases h; rw [hn] at hxn; cases hxn
      · next hxn =>
        simp only [hxn]
        cases ps with
        | nil =>
          simp only [fill] at h ⊢
          cases h
          exact ⟨[], _, rfl, rfl⟩
        | cons p' ps =>
          obtain ⟨pre, q, h1, h2⟩ := ih x w h hn (by simp)
          exact ⟨{ p with cache := some x } :: pre, q, by simp [h1], h2⟩

theorem value_now_cached {R : List Val → Unit → V → Val → Except Exc V × Unit} {isN : V → Bool} {st : PathSt V} {w : V}
    (h : (PathSt.value R isN () st).1 = .ok w) (hn : isN w = false) (hp : st.parts ≠ []) :
    ∃ pre q, (PathSt.value R isN () st).2.2.parts = pre ++ [q] ∧ q.cache = some w := by
  unfold PathSt.value at h ⊢
  cases hs : scan st.parts.reverse with
  | error e => rw [hs] at h; cases h
  | ok o =>
    rw [hs] at h
    rcases o with _ | ⟨i, v⟩
    · exact fill_last_cached st.parts _ w h hn hp
    · dsimp only at h ⊢
      by_cases h0 : st.parts.drop i = []
      · rw [h0] at h ⊢
        simp only [fill] at h ⊢
        cases h
        have h1 := scan_spec st.parts.reverse
        rw [hs] at h1
        obtain ⟨pre, q, post, h2, h3, h4, h5, h6⟩ := h1
        have h7 : st.parts = post.reverse ++ q :: pre.reverse := by
          rw [← List.reverse_reverse st.parts, h2]; simp
        have h8 : pre = [] := by
          have := congrArg List.length h0
          rw [h7, h6] at this
          simp at this
          exact List.length_eq_zero_iff.1 (by omega)
        subst h8
        refine ⟨post.reverse, q, ?_, h5⟩
        rw [List.append_nil, List.take_of_length_le (by rw [h7, h6]; simp), h7]
        rfl
      · obtain ⟨pre, q, h1, h2⟩ := fill_last_cached (st.parts.drop i) _ w h hn h0
        exact ⟨st.parts.take i ++ pre, q, by rw [h1]; simp, h2⟩

end PathSt

/-! ### Resolving keys below a part of the document -/

/-- The source with configuration `b` ignores in the part below `K` what the source with configuration `a`
ignores in the document (`pilo/source/default.py:85-88`), and it has no aliases (those of `a` concern its first
key only). -/
structure SubCfg (K : List Val) (a b : DefaultCfg) : Prop where
  aliases : b.aliases = none
  ignores : ∀ ls, ls ≠ [] → a.ignore (K ++ ls) = b.ignore ls

namespace SubCfg
variable {L : Lib} {K : List Val} {a b : DefaultCfg}

theorem atom (h : SubCfg K a b) (hK : K ≠ []) {ls : List Val} (hl : ls ≠ []) (c k : Val) :
    resolveAtom L a (K ++ ls) c k = resolveAtom L b ls c k := by
  have h1 : asAlias a (K ++ ls) c k = .NONE := by
    unfold asAlias
    have : ((K ++ ls).length == 1) = false := by
      have h1 := List.length_pos_iff.2 hK
      have h2 := List.length_pos_iff.2 hl
      simp
      omega
    rw [this]
    split <;> simp
  have h2 : asAlias b ls c k = .NONE := by
    unfold asAlias
    rw [h.aliases]
  unfold resolveAtom
  rw [h.ignores ls hl, h1, h2]

theorem atoms (h : SubCfg K a b) (hK : K ≠ []) {ls : List Val} (hl : ls ≠ []) (as : List String) : ∀ c : Val,
    resolveAtoms L a (K ++ ls) c as = resolveAtoms L b ls c as := by
  induction as with
  | nil => intro c; rfl
  | cons s as ih => intro c; simp only [resolveAtoms, h.atom hK hl, ih]

theorem rev (h : SubCfg K a b) (hK : K ≠ []) {ls : List Val} (hl : ls ≠ []) (c : Val) : ∀ cs : List Char,
    resolveRev L a (K ++ ls) c cs = resolveRev L b ls c cs := by
  intro cs
  induction hn : cs.length using Nat.strongRecOn generalizing cs with
  | ind n ih =>
    by_cases hc : ∃ rest, cs = ')' :: '(' :: rest
    · obtain ⟨rest, rfl⟩ := hc
      simp only [resolveRev]
      rw [ih rest.length (by rw [← hn]; simp; omega) rest rfl]
    · have h' : ∀ rest, cs = ')' :: '(' :: rest → False := fun r hr => hc ⟨r, hr⟩
      rw [resolveRev.eq_2 L a _ c cs h', resolveRev.eq_2 L b ls c cs h']
      simp only [resolvePlain, h.atom hK hl, h.atoms hK hl]

theorem resolve (h : SubCfg K a b) (hK : K ≠ []) {ls : List Val} (hl : ls ≠ []) (c k : Val) :
    resolveDefault L a (K ++ ls) c k = resolveDefault L b ls c k := by
  unfold resolveDefault
  split
  · exact h.rev hK hl c _
  · rw [h.atom hK hl]

theorem mapping (h : SubCfg K a b) (hK : K ≠ []) (ls : List Val) (v : Val) :
    defaultMapping a (K ++ ls) v = defaultMapping b ls v := by
  have h1 : ((K ++ ls).length == 0) = false := by
    have h1 := List.length_pos_iff.2 hK
    simp [hK]
  unfold defaultMapping
  rw [h.aliases, h1]
  cases a.aliases with
  | none => rfl
  | some al => simp

end SubCfg

/-! ### Texts of paths -/

theorem PathSt.keysTailText_ok (L : Lib) {ks : List Val} (h : ∀ k ∈ ks, (k.isIntLike || k.isStr) = true) :
    ∃ t, PathSt.keysTailText L ks = .ok t := by
  induction ks with
  | nil => exact ⟨"", rfl⟩
  | cons k ks ih =>
    obtain ⟨t, ht⟩ := ih fun x hx => h x (List.mem_cons_of_mem _ hx)
    have h1 : ∃ a, PathSt.keyText L k = .ok a := by
      unfold PathSt.keyText
      rw [h k List.mem_cons_self]
      simp only [Bool.not_true, Bool.false_eq_true, if_false]
      split <;> exact ⟨_, rfl⟩
    obtain ⟨a, ha⟩ := h1
    exact ⟨a ++ t, by simp only [PathSt.keysTailText, ha, ht]⟩

theorem PathSt.keysText_ok (L : Lib) {ks : List Val} (h : ∀ k ∈ ks, (k.isIntLike || k.isStr) = true)
    (loc : Option String) : ∃ t, withLocation loc (PathSt.keysText L ks) = .ok t := by
  have h1 : ∃ t, PathSt.keysText L ks = .ok t := by
    cases ks with
    | nil => exact ⟨"", rfl⟩
    | cons k ks =>
      obtain ⟨t, ht⟩ := PathSt.keysTailText_ok L fun x hx => h x (List.mem_cons_of_mem _ hx)
      exact ⟨_, by simp only [PathSt.keysText, ht]; rfl⟩
  obtain ⟨t, ht⟩ := h1
  rw [ht]
  unfold withLocation
  split
  · next h => cases h
  · exact ⟨_, rfl⟩
  · split <;> exact ⟨_, rfl⟩

/-! ### Sections of a configuration -/

/-- What stands in front of the keys in `ConfigPath.__str__` (`pilo/source/configparser.py:22-29`). -/
def ConfigCfg.front (cfg : ConfigCfg) : Option String :=
  match cfg.sectionName with
  | none => cfg.location
  | some s =>
    if s = "" then cfg.location
    else match cfg.location with
      | none => some ("[" ++ s ++ "]")
      | some l => if l = "" then some ("[" ++ s ++ "]") else some (l ++ ":" ++ ("[" ++ s ++ "]"))

theorem render_config (L : Lib) (cfg : ConfigCfg) (st : PathSt CfgVal) :
    (SPath.config cfg st).render L = withLocation cfg.front (st.render L) := by
  unfold SPath.render ConfigCfg.front
  dsimp only
  cases hn : cfg.sectionName with
  | none => rfl
  | some s =>
    dsimp only
    by_cases hs : s = ""
    · rw [if_pos hs, if_pos hs]
    · rw [if_neg hs, if_neg hs]
      have hne : ("[" ++ s ++ "]") ≠ "" := by
        intro h
        have := congrArg String.length h
        simp at this
      cases st.render L with
      | error e =>
        cases cfg.location with
        | none => simp [withLocation]
        | some l => by_cases hl : l = "" <;> simp [withLocation, hl]
      | ok t =>
        cases cfg.location with
        | none => simp [withLocation, hne]
        | some l =>
          by_cases hl : l = ""
          · simp [withLocation, hl, hne]
          · simp [withLocation, hl, String.append_assoc]

/-- Sources on the same configuration.  Multi-line values are not read from the file again, which needs the name of the
section (`pilo/source/configparser.py:143-158`). -/
structure SameConfig (a b : ConfigCfg) : Prop where
  data : a.data = b.data
  ws : a.preserveWhitespace = false
  ws' : b.preserveWhitespace = false

/-- Not the whole configuration. -/
def CfgVal.inner : CfgVal → Prop
  | .root => False
  | _ => True

theorem SameConfig.resolve {a b : ConfigCfg} (h : SameConfig a b) (L : Lib) (c : CfgVal) (k : Val) (hc : c.inner) :
    resolveConfig L a c k = resolveConfig L b c k := by
  unfold resolveConfig cfgGet
  cases c with
  | root => exact hc.elim
  | sect s df => dsimp only; rw [h.data]
  | val v => cases v <;> rfl

theorem resolveConfig_inner (L : Lib) (b : ConfigCfg) (c : CfgVal) (k : Val) (w : CfgVal) (hc : c.inner)
    (h : resolveConfig L b c k = .ok w) : w.inner := by
  have hg : ∀ w, cfgGet L b c k = .ok w → w.inner := by
    intro w hw
    unfold cfgGet at hw
    split at hw
    · exact hc.elim
    · split at hw
      · cases hw; trivial
      · cases hw
    · split at hw
      · cases hw
      · split at hw
        · split at hw
          · cases hw; trivial
          · cases hw
        · cases hw
    · split at hw
      · cases hw; trivial
      · cases hw
  unfold resolveConfig at h
  split at h
  · next hw => cases h; exact hg _ hw
  · cases h; trivial
  · cases h; trivial
  · cases h; trivial
  · cases h

theorem SameConfig.mapping {a b : ConfigCfg} (h : SameConfig a b) (L : Lib) {c : CfgVal} (hc : c.inner) :
    cfgMapping L a c = cfgMapping L b c := by
  unfold cfgMapping
  cases c with
  | root => exact hc.elim
  | sect s df => dsimp only; rw [h.data]
  | val v => cases v <;> rfl

theorem SameConfig.primitive {a b : ConfigCfg} (h : SameConfig a b) (L : Lib) (ks ls : List Val) (ty : PTy) (c : CfgVal) :
    SPath.cfgPrimitive L a ks ty c = SPath.cfgPrimitive L b ls ty c := by
  unfold SPath.cfgPrimitive
  rw [h.ws, h.ws']
  rfl

/-! ### The relation -/

namespace SPath
variable {L : Lib} {K : List Val} {loc loc' : Option String}

/-- `p` continues in a document as `q` does in the part of the document found at the keys `K`. -/
def Sub (K : List Val) (loc loc' : Option String) (d : Nat) : SPath → SPath → Prop
  | .dflt a st, .dflt b sub => PathSt.Win K d st sub ∧ SubCfg K a b ∧ a.location = loc ∧ b.location = loc'
  | .json s l st, .json s' l' sub => PathSt.Win K d st sub ∧ s = s' ∧ l = loc ∧ l' = loc'
  | .config a st, .config b sub => PathSt.Win K d st sub ∧ (sub.Below CfgVal.inner ∧ SameConfig a b) ∧ a.front = loc ∧
    b.front = loc'
  | _, _ => False

theorem Sub.withValue {α : Type} (hK : K ≠ []) {aD : DefaultCfg → List Val → Val → Except Exc α}
    {aJ : Bool → Val → Except Exc α} {aC : ConfigCfg → List Val → CfgVal → Except Exc α}
    (hD : ∀ a b ls v, SubCfg K a b → aD a (K ++ ls) v = aD b ls v)
    (hc : ∀ a b ls v, SameConfig a b → v.inner → aC a (K ++ ls) v = aC b ls v) {d : Nat} {p q : SPath} (h : Sub K loc loc' d p q) :
    (p.withValue L aD aJ aC).1 = (q.withValue L aD aJ aC).1 ∧
      Sub K loc loc' d (p.withValue L aD aJ aC).2 (q.withValue L aD aJ aC).2 := by
  cases p with
  | dflt a st => cases q with
    | dflt b sub =>
      obtain ⟨h1, h2, h3, h4⟩ := h
      obtain ⟨h5, h6⟩ := h1.value (R1 := fun ks c k => resolveDefault L a ks c k)
        (R2 := fun ks c k => resolveDefault L b ks c k) (isN := Val.isNONE) fun ls c k hl => h2.resolve hK hl c k
      have e1 : valueDflt L a st = ((PathSt.value (fun ks (_ : Unit) c k => (resolveDefault L a ks c k, ()))
        Val.isNONE () st).1, (PathSt.value (fun ks (_ : Unit) c k => (resolveDefault L a ks c k, ()))
        Val.isNONE () st).2.2) := rfl
      have e2 : valueDflt L b sub = ((PathSt.value (fun ks (_ : Unit) c k => (resolveDefault L b ks c k, ()))
        Val.isNONE () sub).1, (PathSt.value (fun ks (_ : Unit) c k => (resolveDefault L b ks c k, ()))
        Val.isNONE () sub).2.2) := rfl
      simp only [SPath.withValue]
      rw [e1, e2, h5]
      cases (PathSt.value (fun ks (_ : Unit) c k => (resolveDefault L b ks c k, ())) Val.isNONE () sub).1 with
      | error e => exact ⟨rfl, h6, h2, h3, h4⟩
      | ok v =>
        refine ⟨?_, h6, h2, h3, h4⟩
        dsimp only
        rw [h1.keys, hD _ _ _ _ h2]
    | json _ _ _ => exact h.elim
    | config _ _ => exact h.elim
  | json s l st => cases q with
    | json s' l' sub =>
      obtain ⟨h1, rfl, h3, h4⟩ := h
      obtain ⟨h5, h6⟩ := h1.value (R1 := fun _ c k => .ok (resolveJson c k))
        (R2 := fun _ c k => .ok (resolveJson c k)) (isN := Val.isNONE) fun ls c k hl => rfl
      have e1 : ∀ st : PathSt Val, valueJson st = ((PathSt.value (fun ks (_ : Unit) c k => (.ok (resolveJson c k), ()))
        Val.isNONE () st).1, (PathSt.value (fun ks (_ : Unit) c k => (.ok (resolveJson c k), ()))
        Val.isNONE () st).2.2) := fun _ => rfl
      simp only [SPath.withValue]
      rw [e1, e1, h5]
      cases (PathSt.value (fun ks (_ : Unit) c k => (.ok (resolveJson c k), ())) Val.isNONE () sub).1 with
      | error e => exact ⟨rfl, h6, rfl, h3, h4⟩
      | ok v => exact ⟨rfl, h6, rfl, h3, h4⟩
    | dflt _ _ => exact h.elim
    | config _ _ => exact h.elim
  | config a st => cases q with
    | config b sub =>
      obtain ⟨h1, ⟨hb, h2⟩, h3, h4⟩ := h
      have e0 := h1.agree (isN := CfgVal.isNONE) (h2.resolve L) (resolveConfig_inner L b) hb
      obtain ⟨-, hin, hb'⟩ := hb.value (isN := CfgVal.isNONE) (h2.resolve L) (resolveConfig_inner L b)
      obtain ⟨h5, h6⟩ := h1.value (R1 := fun _ c k => resolveConfig L b c k) (R2 := fun _ c k => resolveConfig L b c k)
        (isN := CfgVal.isNONE) fun ls c k _ => rfl
      have e1 : ∀ (a : ConfigCfg) (st : PathSt CfgVal), valueCfg L a st =
        ((PathSt.value (fun _ (_ : Unit) c k => (resolveConfig L a c k, ())) CfgVal.isNONE () st).1,
         (PathSt.value (fun _ (_ : Unit) c k => (resolveConfig L a c k, ())) CfgVal.isNONE () st).2.2) := fun _ _ => rfl
      simp only [SPath.withValue]
      rw [e1, e1, e0, h5]
      cases hv : (PathSt.value (fun _ (_ : Unit) c k => (resolveConfig L b c k, ())) CfgVal.isNONE () sub).1 with
      | error e => exact ⟨rfl, h6, ⟨hb', h2⟩, h3, h4⟩
      | ok v =>
        refine ⟨?_, h6, ⟨hb', h2⟩, h3, h4⟩
        dsimp only
        rw [h1.keys, hc _ _ _ _ h2 (hin v hv)]
    | dflt _ _ => exact h.elim
    | json _ _ _ => exact h.elim

/-- Nothing can be read. -/
def Stuck : SPath → Prop
  | .dflt _ st => st.Stuck
  | .json _ _ st => st.Stuck
  | .config _ st => st.Stuck

/-- A path into a document and a path into the part found at the keys `K`. -/
def subTwin (L : Lib) (K : List Val) (hK : K ≠ []) (hA : ∀ k ∈ K, (k.isIntLike || k.isStr) = true)
    (loc loc' : Option String) : PathTwin (ops L) (lawful L) where
  Q := Sub K loc loc'
  Txt s t := ∃ ks, withLocation loc (PathSt.keysText L (K ++ ks)) = .ok s ∧
    withLocation loc' (PathSt.keysText L ks) = .ok t
  exact := False
  txt_eq h := h.elim
  lax := False
  txt_refl _ h := h.elim
  honest := .inr honest
  wf := by
    intro d p q h
    have hsub : ∀ {V : Type} {st sub : PathSt V}, PathSt.Win K d st sub → sub.Tidy := by
      intro V st sub h x hx
      obtain ⟨pre, q, h1, -⟩ := h.parts
      exact h.tidy x (by rw [h1]; simp [hx])
    cases p <;> cases q <;> first
      | exact h.elim
      | exact ⟨h.1.tidy, hsub h.1⟩
  value h := h.withValue hK (fun _ _ _ _ _ => rfl) fun _ _ _ _ _ _ => rfl
  exists_ h := h.withValue hK (fun _ _ _ _ _ => rfl) fun _ _ _ _ _ _ => rfl
  isNull h := h.withValue hK (fun _ _ _ _ _ => rfl) fun _ _ _ _ _ _ => rfl
  mapping {d p q} h := by
    obtain ⟨h1, h2⟩ := h.withValue (L := L) (aD := fun cfg ks v => defaultMapping cfg ks v)
      (aJ := fun _ v => jsonMapping v) (aC := fun cfg _ v => cfgMapping L cfg v) hK
      (fun _ _ _ _ h => h.mapping hK _ _) fun _ _ _ _ h hc => h.mapping L hc
    have e : ∀ r : SPath, (ops L).mapping r = ((r.mapping L).1.map some, (r.mapping L).2) := by
      intro r
      show someKeys (r.mapping L) = _
      rcases r.mapping L with ⟨_ | _, _⟩ <;> rfl
    rw [e, e]
    exact ⟨congrArg (Except.map some) h1, h2⟩
  sequence h := h.withValue hK (fun _ _ _ _ _ => rfl) fun _ _ _ _ _ _ => rfl
  primitive h := h.withValue hK (fun _ _ _ _ _ => rfl) fun _ _ _ _ h _ => h.primitive L _ _ _ _
  hasSrc _ := rfl
  joinPath {d p q} h := by
    cases p <;> cases q <;> first
      | exact h.elim
      | rfl
  render {d p q} h := by
    have key : ∀ {V : Type} {st sub : PathSt V}, PathSt.Win K d st sub →
        ∃ a b, withLocation loc (st.render L) = .ok a ∧ withLocation loc' (sub.render L) = .ok b ∧
        ∃ ks, withLocation loc (PathSt.keysText L (K ++ ks)) = .ok a ∧
          withLocation loc' (PathSt.keysText L ks) = .ok b := by
      intro V st sub h
      have ht : sub.Tidy := by
        intro x hx
        obtain ⟨pre, q, h1, -⟩ := h.parts
        exact h.tidy x (by rw [h1]; simp [hx])
      have hs : ∀ k ∈ sub.keys, (k.isIntLike || k.isStr) = true := by
        intro k hk
        obtain ⟨q, hq, rfl⟩ := List.mem_map.1 hk
        have h1 := h.atoms q hq
        rw [ht q hq] at h1
        generalize (q.key.isIntLike || q.key.isStr) = x at h1 ⊢
        cases x
        · cases h1
        · rfl
      obtain ⟨a, ha⟩ := PathSt.keysText_ok L (ks := K ++ sub.keys) (by
        intro k hk
        rcases List.mem_append.1 hk with hk | hk
        · exact hA k hk
        · exact hs k hk) loc
      obtain ⟨b, hb⟩ := PathSt.keysText_ok L hs loc'
      refine ⟨a, b, ?_, ?_, sub.keys, ha, hb⟩
      · rw [PathSt.render_text L h.tidy, h.keys]; exact ha
      · rw [PathSt.render_text L ht]; exact hb
    refine .inr ?_
    cases p <;> cases q <;> first
      | exact h.elim
      | (obtain ⟨h1, h2, rfl, rfl⟩ := h; obtain ⟨a, b, h3, h4, h5⟩ := key h1; exact ⟨a, b, h3, h4, h5⟩)
      | (obtain ⟨h1, h2, rfl, rfl⟩ := h; obtain ⟨a, b, h3, h4, h5⟩ := key h1
         exact ⟨a, b, (render_config L _ _).trans h3, (render_config L _ _).trans h4, h5⟩)
  append {d p q k} hk h := by
    refine .inr ⟨_, _, rfl, rfl, ?_⟩
    cases p <;> cases q <;> first
      | exact h.elim
      | exact ⟨h.1.append hk, h.2⟩
      | exact ⟨h.1.append hk, ⟨h.2.1.1.append _, h.2.1.2⟩, h.2.2⟩
  pop {d p q} h := by
    cases p <;> cases q <;> first
      | exact h.elim
      | (obtain ⟨st', sub', h1, h2, h3⟩ := h.1.pop
         simp only [ops, pop, h1, h2]
         exact ⟨_, _, rfl, rfl, ⟨h3, h.2⟩⟩)
      | (obtain ⟨st', sub', h1, h2, h3⟩ := h.1.pop
         simp only [ops, pop, h1, h2]
         exact ⟨_, _, rfl, rfl, ⟨h3, ⟨h.2.1.1.pop h2, h.2.1.2⟩, h.2.2⟩⟩)
  Dead := Stuck
  dead_exists {p} h := by
    cases p with
    | dflt a st =>
      have e : valueDflt L a st = (.error deadExc, st) := by
        unfold valueDflt
        rw [PathSt.Stuck.value h]
      simp only [ops, exists_, withValue, e]
    | json s l st =>
      have e : valueJson st = (.error deadExc, st) := by
        unfold valueJson
        rw [PathSt.Stuck.value h]
      simp only [ops, exists_, withValue, e]
    | config a st =>
      have e : valueCfg L a st = (.error deadExc, st) := by
        unfold valueCfg
        rw [PathSt.Stuck.value h]
      simp only [ops, exists_, withValue, e]
  dead_append {p k} h := by
    refine ⟨_, rfl, ?_, ?_⟩
    · cases p <;> first
        | exact h.elim
        | exact PathSt.Stuck.append h k
    · cases p <;> simp only [ops, append, pop, PathSt.append_pop]
  raw {d p q k} hk h := by
    refine .inr ⟨_, _, rfl, rfl, .inr ⟨?_, ?_, ?_, ?_⟩⟩
    · cases p <;> cases q <;> first
        | exact h.elim
        | exact PathSt.Stuck.raw _ hk
    · cases p <;> cases q <;> first
        | exact h.elim
        | exact PathSt.Stuck.raw _ hk
    · cases p <;> simp only [ops, append, pop, PathSt.append_pop]
    · cases q <;> simp only [ops, append, pop, PathSt.append_pop]

/-- Having found out that there is a value at the keys of the path, one can go on in that value. -/
theorem Sub.start {p : SPath} (hp : p.Tidy) {v : Val} (hv : (p.value L).1 = .ok v) (hn : v.isNONE = false)
    (hK : p.keys ≠ []) (hA : ∀ k ∈ p.keys, (k.isIntLike || k.isStr) = true) : match p with
    | .dflt a _ => ∀ b, SubCfg p.keys a b →
      Sub p.keys a.location b.location 0 (p.exists_ L).2 (.dflt b { root := v, parts := [] })
    | .json s l _ => ∀ l', Sub p.keys l l' 0 (p.exists_ L).2 (.json s l' { root := v, parts := [] })
    | .config a st => ∀ b s df, SameConfig a b → (valueCfg L a st).1 = .ok (.sect s df) →
      Sub p.keys a.front b.front 0 (p.exists_ L).2 (.config b { root := .sect s df, parts := [] }) := by
  have key : ∀ {V : Type} {R : List Val → Unit → V → Val → Except Exc V × Unit} {isN : V → Bool} {st : PathSt V} {v : V},
      st.Tidy → st.keys ≠ [] →
      (∀ k ∈ st.keys, (k.isIntLike || k.isStr) = true) →
      (PathSt.value R isN () st).1 = .ok v → isN v = false →
      PathSt.Win st.keys 0 (PathSt.value R isN () st).2.2 { root := v, parts := [] } := by
    intro V R isN st v ht hk hA hv hn
    obtain ⟨pre, q, h1, h2⟩ := PathSt.value_now_cached hv hn (by
      intro h0; apply hk; unfold PathSt.keys; rw [h0]; rfl)
    have h3 := PathSt.value_keys R isN () st
    have h4 := PathSt.tidy_of_sig (PathSt.value_sig R isN () st) ht
    refine ⟨⟨pre, q, h1, ?_, ?_, h2⟩, (by intro x hx; simp at hx), h4, Nat.zero_le _⟩
    · rw [← h3]; unfold PathSt.keys; rw [h1]
    · rw [h4 q (by rw [h1]; simp), hA q.key (by rw [← h3]; unfold PathSt.keys; rw [h1]; simp)]
      rfl
  cases p with
  | config a st =>
    intro b s df hab h1
    have e1 : valueCfg L a st = ((PathSt.value (fun _ (_ : Unit) c k => (resolveConfig L a c k, ()))
      CfgVal.isNONE () st).1, (PathSt.value (fun _ (_ : Unit) c k => (resolveConfig L a c k, ()))
      CfgVal.isNONE () st).2.2) := rfl
    have h1' : (PathSt.value (fun _ (_ : Unit) c k => (resolveConfig L a c k, ())) CfgVal.isNONE () st).1 =
      .ok (.sect s df) := h1
    simp only [exists_, SPath.withValue, e1, h1']
    exact ⟨key hp hK hA h1' rfl, ⟨⟨trivial, by intro q hq; cases hq⟩, hab⟩, rfl, rfl⟩
  | dflt a st =>
    intro b hb
    have e1 : valueDflt L a st = ((PathSt.value (fun ks (_ : Unit) c k => (resolveDefault L a ks c k, ()))
      Val.isNONE () st).1, (PathSt.value (fun ks (_ : Unit) c k => (resolveDefault L a ks c k, ()))
      Val.isNONE () st).2.2) := rfl
    have h1 : (PathSt.value (fun ks (_ : Unit) c k => (resolveDefault L a ks c k, ())) Val.isNONE () st).1 = .ok v := by
      simp only [value, SPath.withValue, e1] at hv
      generalize (PathSt.value (fun ks (_ : Unit) c k => (resolveDefault L a ks c k, ())) Val.isNONE () st).1 = x at hv ⊢
      cases x with
      | error e => cases hv
      | ok x => exact hv
    simp only [exists_, SPath.withValue, e1, h1]
    exact ⟨key hp hK hA h1 hn, hb, rfl, rfl⟩
  | json s l st =>
    intro l'
    have e1 : valueJson st = ((PathSt.value (fun _ (_ : Unit) c k => (.ok (resolveJson c k), ()))
      Val.isNONE () st).1, (PathSt.value (fun _ (_ : Unit) c k => (.ok (resolveJson c k), ()))
      Val.isNONE () st).2.2) := rfl
    have h1 : (PathSt.value (fun _ (_ : Unit) c k => (.ok (resolveJson c k), ())) Val.isNONE () st).1 = .ok v := by
      simp only [value, SPath.withValue, e1] at hv
      generalize (PathSt.value (fun _ (_ : Unit) c k => (.ok (resolveJson c k), ())) Val.isNONE () st).1 = x at hv ⊢
      cases x with
      | error e => cases hv
      | ok x => exact hv
    simp only [exists_, SPath.withValue, e1, h1]
    exact ⟨key hp hK hA h1 hn, rfl, rfl, rfl⟩

end SPath
end Pilo
