import Verif.Sub

/-!
# A positional source and a dictionary

`Form._seq_source` (`pilo/fields.py:1581-1587`) reads a list or tuple through aliases, which are consulted for
the first key of a path only (`pilo/source/default.py:27-31`).  Once the first key has been read, a path into the
list and a path into a dictionary with the same value under that key read alike (used for C22).
-/

namespace Pilo

namespace PathSt
variable {V : Type}

/-- Below a first part that has been read, the root is not consulted. -/
theorem value_shared {R1 R2 : List Val → Unit → V → Val → Except Exc V × Unit} {isN : V → Bool}
    (hR : ∀ ks c k, 2 ≤ ks.length → R1 ks () c k = R2 ks () c k) (a b : V) {c : Part V} {v : V}
    (hc : c.cache = some v) (hraw : c.raw = false) (rest : List (Part V)) :
    ∃ x rest', value R1 isN () { root := a, parts := c :: rest } = (x, (), { root := a, parts := c :: rest' }) ∧
      value R2 isN () { root := b, parts := c :: rest } = (x, (), { root := b, parts := c :: rest' }) := by
  have hscan : scan (c :: rest).reverse = match scan rest.reverse with
      | .error e => .error e
      | .ok none => .ok (some (1, v))
      | .ok (some (i, w)) => .ok (some (i + 1, w)) := by
    rw [List.reverse_cons, scan_append]
    cases scan rest.reverse with
    | error e => rfl
    | ok o =>
      cases o with
      | none => simp [scan, hraw, hc]
      | some x => rfl
  have hfill : ∀ w (ps : List (Part V)), (ps ≠ [] → rest ≠ []) →
      fill R1 isN ((c :: rest).map Part.key) () w ps = fill R2 isN ((c :: rest).map Part.key) () w ps := by
    intro w ps h
    refine fill_congr ps w fun hps x k => hR _ _ _ ?_
    have := List.length_pos_iff.2 (h hps)
    simp
    omega
  unfold value
  dsimp only [PathSt.keys]
  rw [hscan]
  cases scan rest.reverse with
  | error e => exact ⟨_, rest, rfl, rfl⟩
  | ok o =>
    rcases o with _ | ⟨i, w⟩
    · simp only [List.drop_succ_cons, List.drop_zero, List.take_succ_cons, List.take_zero]
      rw [hfill v rest fun h => h]
      generalize fill R2 isN ((c :: rest).map Part.key) () v rest = y
      obtain ⟨y1, y2, y3⟩ := y
      exact ⟨y1, y3, rfl, rfl⟩
    · simp only [List.drop_succ_cons, List.take_succ_cons]
      rw [hfill w (rest.drop i) fun h h0 => h (by rw [h0]; simp)]
      generalize fill R2 isN ((c :: rest).map Part.key) () w (rest.drop i) = y
      obtain ⟨y1, y2, y3⟩ := y
      exact ⟨y1, rest.take i ++ y3, rfl, rfl⟩

end PathSt

/-- The configuration ignores nothing and has no location. -/
def DefaultCfg.Bare (a : DefaultCfg) : Prop := a.ignores = [] ∧ a.location = none

namespace DefaultCfg
variable {L : Lib} {a b : DefaultCfg}

theorem Bare.sub (h : a.Bare) (K : List Val) : SubCfg K a {} where
  aliases := rfl
  ignores ls _ := by unfold DefaultCfg.ignore; rw [h.1]; rfl

/-- Beyond the first key, aliases play no part. -/
theorem Bare.resolve (ha : a.Bare) (hb : b.Bare) {ks : List Val} (hk : 2 ≤ ks.length) (c k : Val) :
    resolveDefault L a ks c k = resolveDefault L b ks c k := by
  match ks, hk with
  | x :: y :: ls, _ =>
    have h1 := (ha.sub [x]).resolve (L := L) (by simp) (ls := y :: ls) (by simp) c k
    have h2 := (hb.sub [x]).resolve (L := L) (by simp) (ls := y :: ls) (by simp) c k
    exact h1.trans h2.symm

theorem Bare.mapping (ha : a.Bare) (hb : b.Bare) {ks : List Val} (hk : ks ≠ []) (v : Val) :
    defaultMapping a ks v = defaultMapping b ks v := by
  match ks, hk with
  | x :: ls, _ =>
    have h1 := (ha.sub [x]).mapping (by simp) ls v
    have h2 := (hb.sub [x]).mapping (by simp) ls v
    exact h1.trans h2.symm

end DefaultCfg

namespace SPath
variable {L : Lib} {a b : DefaultCfg} {x y : Val}

/-- Paths into `x` and `y` with the same parts, the first of which has been read, and `d` more parts. -/
def Shared (a b : DefaultCfg) (x y : Val) (d : Nat) (p q : SPath) : Prop :=
  ∃ (c : Part Val) (rest : List (Part Val)), p = .dflt a { root := x, parts := c :: rest } ∧
    q = .dflt b { root := y, parts := c :: rest } ∧ (∃ v, c.cache = some v) ∧ c.raw = false ∧
    PathSt.Tidy { root := x, parts := c :: rest } ∧ rest.length = d

theorem Shared.withValue {α : Type} (ha : a.Bare) (hb : b.Bare) {aD : DefaultCfg → List Val → Val → Except Exc α}
    {aJ : Bool → Val → Except Exc α} {aC : ConfigCfg → List Val → CfgVal → Except Exc α}
    (hD : ∀ ks v, ks ≠ [] → aD a ks v = aD b ks v) {d : Nat} {p q : SPath} (h : Shared a b x y d p q) :
    (p.withValue L aD aJ aC).1 = (q.withValue L aD aJ aC).1 ∧
      Shared a b x y d (p.withValue L aD aJ aC).2 (q.withValue L aD aJ aC).2 := by
  obtain ⟨c, rest, rfl, rfl, ⟨v, hv⟩, h2, h3, h4⟩ := h
  obtain ⟨r, rest', e1, e2⟩ := PathSt.value_shared (R1 := fun ks (_ : Unit) c k => (resolveDefault L a ks c k, ()))
    (R2 := fun ks (_ : Unit) c k => (resolveDefault L b ks c k, ())) (isN := Val.isNONE)
    (fun ks c k hk => by rw [ha.resolve hb hk]) x y hv h2 rest
  have hsig := PathSt.value_sig (fun ks (_ : Unit) c k => (resolveDefault L a ks c k, ())) Val.isNONE ()
    { root := x, parts := c :: rest }
  rw [e1] at hsig
  have ht := PathSt.tidy_of_sig hsig h3
  have hlen : rest'.length = d := by
    have := congrArg List.length hsig
    simp [PathSt.sig] at this
    omega
  have hsh : Shared a b x y d (.dflt a { root := x, parts := c :: rest' }) (.dflt b { root := y, parts := c :: rest' }) :=
    ⟨c, rest', rfl, rfl, ⟨v, hv⟩, h2, ht, hlen⟩
  have f1 : valueDflt L a { root := x, parts := c :: rest } = (r, { root := x, parts := c :: rest' }) := by
    unfold valueDflt; rw [e1]
  have f2 : valueDflt L b { root := y, parts := c :: rest } = (r, { root := y, parts := c :: rest' }) := by
    unfold valueDflt; rw [e2]
  simp only [SPath.withValue, f1, f2]
  cases r with
  | error e => exact ⟨rfl, hsh⟩
  | ok w => exact ⟨hD _ _ (by simp [PathSt.keys]), hsh⟩

theorem dead_exists_stuck {p : SPath} (h : p.Stuck) : (ops L).exists_ p = (.error deadExc, p) := by
  cases p with
  | dflt a st =>
    have e : valueDflt L a st = (.error deadExc, st) := by
      unfold valueDflt
      rw [PathSt.Stuck.value h]
    simp only [ops, exists_, withValue, e]
  | json s l st =>
    have e : valueJson st = (.error deadExc, st) := by
      unfold valueJson
      rw [PathSt.Stuck.value h]
    simp only [ops, exists_, withValue, e]
  | config c st =>
    have e : valueCfg L c st = (.error deadExc, st) := by
      unfold valueCfg
      rw [PathSt.Stuck.value h]
    simp only [ops, exists_, withValue, e]

/-- Paths into two data that agree under the first key. -/
def sharedTwin (L : Lib) (ha : a.Bare) (hb : b.Bare) (x y : Val) : PathTwin (ops L) (lawful L) where
  Q := Shared a b x y
  Txt := Eq
  exact := True
  txt_eq _ h := h
  lax := True
  txt_refl _ _ := rfl
  honest := .inr SPath.honest
  wf := by
    rintro d p q ⟨c, rest, rfl, rfl, -, -, h, -⟩
    exact ⟨h, h⟩
  value h := h.withValue ha hb fun _ _ _ => rfl
  exists_ h := h.withValue ha hb fun _ _ _ => rfl
  isNull h := h.withValue ha hb fun _ _ _ => rfl
  mapping {d p q} h := by
    obtain ⟨h1, h2⟩ := h.withValue (L := L) (aD := fun cfg ks v => defaultMapping cfg ks v)
      (aJ := fun _ v => jsonMapping v) (aC := fun cfg _ v => cfgMapping L cfg v) ha hb
      fun _ _ hk => ha.mapping hb hk _
    have e : ∀ r : SPath, (ops L).mapping r = ((r.mapping L).1.map some, (r.mapping L).2) := by
      intro r
      show someKeys (r.mapping L) = _
      rcases r.mapping L with ⟨_ | _, _⟩ <;> rfl
    rw [e, e]
    exact ⟨congrArg (Except.map some) h1, h2⟩
  sequence h := h.withValue ha hb fun _ _ _ => rfl
  primitive h := h.withValue ha hb fun _ _ _ => rfl
  hasSrc _ := rfl
  joinPath _ := rfl
  render {d p q} h := by
    obtain ⟨c, rest, rfl, rfl, -, -, h3, -⟩ := h
    have hren : (ops L).render (.dflt a { root := x, parts := c :: rest }) =
        (ops L).render (.dflt b { root := y, parts := c :: rest }) := by
      show withLocation a.location _ = withLocation b.location _
      rw [ha.2, hb.2]
      rfl
    cases hr : (ops L).render (.dflt b { root := y, parts := c :: rest }) with
    | error e => exact .inl ⟨e, by rw [hren, hr], rfl⟩
    | ok t => exact .inr ⟨t, t, by rw [hren, hr], rfl, rfl⟩
  append {d p q k} hk h := by
    obtain ⟨c, rest, rfl, rfl, h1, h2, h3, rfl⟩ := h
    refine .inr ⟨_, _, rfl, rfl, c, rest ++ [Part.ofKey k], rfl, rfl, h1, h2, ?_, by simp⟩
    have := PathSt.append_tidy h3 k
    unfold PathSt.append at this
    rwa [List.cons_append] at this
  pop {d p q} h := by
    obtain ⟨c, rest, rfl, rfl, h1, h2, h3, h4⟩ := h
    rcases List.eq_nil_or_concat rest with h0 | ⟨ps, z, hz⟩
    · rw [h0] at h4; simp at h4
    · rw [List.concat_eq_append] at hz
      subst hz
      have e : ∀ r : Val, PathSt.pop { root := r, parts := c :: (ps ++ [z]) } = .ok { root := r, parts := c :: ps } :=
        fun r => PathSt.pop_concat r (c :: ps) z
      refine ⟨.dflt a { root := x, parts := c :: ps }, .dflt b { root := y, parts := c :: ps }, ?_, ?_,
        c, ps, rfl, rfl, h1, h2, ?_, by simpa using h4⟩
      · simp only [ops, pop, e]
      · simp only [ops, pop, e]
      · intro w hw
        refine h3 w ?_
        rcases List.mem_cons.1 hw with h | h
        · exact h ▸ List.mem_cons_self
        · exact List.mem_cons_of_mem _ (List.mem_append_left _ h)
  Dead := Stuck
  dead_exists h := dead_exists_stuck h
  dead_append {p k} h := by
    refine ⟨_, rfl, ?_, ?_⟩
    · cases p <;> first
        | exact h.elim
        | exact PathSt.Stuck.append h k
    · cases p <;> simp only [ops, append, pop, PathSt.append_pop]
  raw {d p q k} hk h := by
    obtain ⟨c, rest, rfl, rfl, -⟩ := h
    refine .inr ⟨_, _, rfl, rfl, .inr ⟨PathSt.Stuck.raw _ hk, PathSt.Stuck.raw _ hk, ?_, ?_⟩⟩ <;>
      simp only [ops, append, pop, PathSt.append_pop]

/-- Reading the first key of two paths, which gives the same. -/
theorem Shared.start (k : String) (h : resolveDefault L a [.str k] x (.str k) = resolveDefault L b [.str k] y (.str k)) :
    let p := SPath.dflt a { root := x, parts := [Part.ofKey (.str k)] }
    let q := SPath.dflt b { root := y, parts := [Part.ofKey (.str k)] }
    (∃ e, p.exists_ L = (.error e, p) ∧ q.exists_ L = (.error e, q)) ∨
    ((p.exists_ L).1 = (q.exists_ L).1 ∧ Shared a b x y 0 (p.exists_ L).2 (q.exists_ L).2 ∧
      (p.exists_ L).2.exists_ L = p.exists_ L ∧ (q.exists_ L).2.exists_ L = q.exists_ L) := by
  intro p q
  have key : ∀ (cfg : DefaultCfg) (r : Val), valueDflt L cfg { root := r, parts := [Part.ofKey (.str k)] } =
      match (generalizing := false) resolveDefault L cfg [.str k] r (.str k) with
      | .error e => (.error e, { root := r, parts := [Part.ofKey (.str k)] })
      | .ok w => (.ok w, { root := r, parts := [{ key := .str k, raw := false, cache := some w }] }) := by
    intro cfg r
    have h1 : PathSt.scan ([Part.ofKey (.str k)] : List (Part Val)).reverse = .ok none := by
      simp [PathSt.scan, Part.ofKey, Val.isStr]
    unfold valueDflt PathSt.value
    dsimp only
    rw [h1]
    dsimp only [PathSt.keys, List.map, PathSt.fill, Part.ofKey]
    cases hr : resolveDefault L cfg [.str k] r (.str k) with
    | error e => rfl
    | ok w =>
      dsimp only
      split <;> simp_all [Val.isStr]
  have again : ∀ (cfg : DefaultCfg) (r w : Val),
      valueDflt L cfg { root := r, parts := [{ key := .str k, raw := false, cache := some w }] } =
      (.ok w, { root := r, parts := [{ key := .str k, raw := false, cache := some w }] }) := by
    intro cfg r w
    unfold valueDflt PathSt.value
    simp [PathSt.scan, PathSt.fill]
  simp only [p, q, SPath.exists_, SPath.withValue, key, h]
  cases resolveDefault L b [.str k] y (.str k) with
  | error e => exact .inl ⟨e, rfl, rfl⟩
  | ok w =>
    refine .inr ⟨rfl, ⟨_, [], rfl, rfl, ⟨w, rfl⟩, rfl, ?_, rfl⟩, ?_, ?_⟩
    · intro z hz
      simp at hz
      subst hz
      rfl
    · simp only [again]
    · simp only [again]

end SPath
end Pilo
