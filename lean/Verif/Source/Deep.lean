import Verif.Source.Cache

/-!
# What a path reads, whatever was read before

A second invariant of the paths of `DefaultSource` (without aliases and ignores) and `JsonSource`: whatever has been
appended, popped and read, every cached value is the plain resolution of the keys up to there, or lies below a
prefix that resolves to `NONE`.  So a path whose keys resolve, without meeting `NONE` on the way, reads the value they
resolve to.  Unlike `Cache.lean` this needs nothing of the keys.
-/

namespace Pilo
namespace PathSt
variable {C : Type}

/-- A proper prefix of the keys resolves to `NONE`. -/
def Lost (R : C → Val → Except Exc C) (isN : C → Bool) (root : C) (ks : List Val) : Prop :=
  ∃ a b c, ks = a ++ b ∧ b ≠ [] ∧ follow R root a = .ok c ∧ isN c = true

/-- `v` is what the keys resolve to, unless a prefix of them resolves to `NONE`. -/
def Seen (R : C → Val → Except Exc C) (isN : C → Bool) (root : C) (ks : List Val) (v : C) : Prop :=
  follow R root ks = .ok v ∨ Lost R isN root ks

/-- Every cached value is right, unless a prefix of the keys up to there resolves to `NONE`. -/
def Honest (R : C → Val → Except Exc C) (isN : C → Bool) (root : C) (ps : List (Part C)) : Prop :=
  ∀ pre q post v, ps = pre ++ q :: post → q.cache = some v → Seen R isN root (pre.map Part.key ++ [q.key]) v

variable {R : C → Val → Except Exc C} {isN : C → Bool} {root : C}

theorem Lost.append {ks : List Val} (h : Lost R isN root ks) (ls : List Val) : Lost R isN root (ks ++ ls) := by
  obtain ⟨a, b, c, h1, h2, h3, h4⟩ := h
  exact ⟨a, b ++ ls, c, by rw [h1, List.append_assoc], by simp [h2], h3, h4⟩

theorem Lost.snoc {ks : List Val} {k : Val} (h : Lost R isN root (ks ++ [k])) :
    Lost R isN root ks ∨ ∃ c, follow R root ks = .ok c ∧ isN c = true := by
  obtain ⟨a, b, c, h1, h2, h3, h4⟩ := h
  rcases List.append_eq_append_iff.1 h1 with ⟨x, hx1, hx2⟩ | ⟨x, hx1, hx2⟩
  · cases x with
    | nil =>
      simp only [List.append_nil] at hx1
      subst hx1
      exact .inr ⟨c, h3, h4⟩
    | cons y x =>
      simp only [List.cons_append, List.cons.injEq] at hx2
      have := congrArg List.length hx2.2
      simp only [List.length_nil, List.length_append] at this
      exact absurd (List.length_eq_zero_iff.1 (by omega)) h2
  · cases x with
    | nil =>
      simp only [List.append_nil] at hx1
      subst hx1
      exact .inr ⟨c, h3, h4⟩
    | cons y x => exact .inl ⟨a, y :: x, c, hx1, by simp, h3, h4⟩

theorem Seen.step {ks : List Val} {v w : C} {k : Val} (h : Seen R isN root ks v) (hr : R v k = .ok w) :
    Seen R isN root (ks ++ [k]) w := by
  rcases h with h | h
  · left
    rw [follow_append, h]
    simp [follow, hr]
  · exact .inr (h.append _)

theorem Seen.none {ks : List Val} {v : C} (h : Seen R isN root ks v) (hn : isN v = true) {ls : List Val} (w : C)
    (hl : ls ≠ []) : Seen R isN root (ks ++ ls) w := by
  rcases h with h | h
  · exact .inr ⟨ks, ls, v, rfl, hl, h, hn⟩
  · exact .inr (h.append _)

/-- Filling in caches below a prefix whose value is right. -/
theorem fill_seen (keys : List Val) (ps : List (Part C)) : ∀ (base : List Val) (v : C),
    Seen R isN root base v → (∀ p ∈ ps, p.cache = none) →
    ∀ pre q post w, (fill (plain R) isN keys () v ps).2.2 = pre ++ q :: post → q.cache = some w →
      Seen R isN root (base ++ (pre.map Part.key ++ [q.key])) w := by
  induction ps with
  | nil =>
    intro base v _ _ pre q post w h
    simp [fill] at h
  | cons p ps ih =>
    intro base v hv hp pre q post w h hc
    have hps : ∀ q ∈ ps, q.cache = none := fun q hq => hp q (by simp [hq])
    simp only [fill, plain] at h
    cases hr : R v p.key with
    | error e =>
      rw [hr] at h
      dsimp only at h
      have : q ∈ p :: ps := by rw [h]; simp
      rw [hp q this] at hc
      cases hc
    | ok x =>
      rw [hr] at h
      dsimp only at h
      have hx := hv.step hr
      cases hn : isN x with
      | true =>
        rw [hn] at h
        simp only [if_true] at h
        cases pre with
        | nil =>
          simp only [List.nil_append, List.cons.injEq] at h
          obtain ⟨h, _⟩ := h
          subst h
          simp only [Option.some.injEq] at hc
          subst hc
          simpa using hx
        | cons p' pre =>
          simp only [List.cons_append, List.cons.injEq] at h
          have : q ∈ ps := by rw [h.2]; simp
          rw [hps q this] at hc
          cases hc
      | false =>
        rw [hn] at h
        simp only [Bool.false_eq_true, if_false] at h
        cases pre with
        | nil =>
          simp only [List.nil_append, List.cons.injEq] at h
          obtain ⟨h, _⟩ := h
          subst h
          simp only [Option.some.injEq] at hc
          subst hc
          simpa using hx
        | cons p' pre =>
          simp only [List.cons_append, List.cons.injEq] at h
          obtain ⟨h, h'⟩ := h
          subst h
          have := ih (base ++ [p.key]) x hx hps pre q post w h' hc
          simpa using this

/-- Filling in from a value that is right, when nothing on the way is `NONE`. -/
theorem fill_reads (keys : List Val) (ps : List (Part C)) : ∀ (base : List Val) (v w : C),
    follow R root base = .ok v → follow R v (ps.map Part.key) = .ok w →
    ¬ Lost R isN root (base ++ ps.map Part.key) → (fill (plain R) isN keys () v ps).1 = .ok w := by
  induction ps with
  | nil =>
    intro base v w _ h _
    simpa [fill, follow] using h
  | cons p ps ih =>
    intro base v w hb h hl
    simp only [List.map_cons, follow] at h
    simp only [fill, plain]
    cases hr : R v p.key with
    | error e => rw [hr] at h; cases h
    | ok x =>
      rw [hr] at h
      dsimp only at h ⊢
      have hx : follow R root (base ++ [p.key]) = .ok x := by
        rw [follow_append, hb]; simp [follow, hr]
      cases hn : isN x with
      | true =>
        simp only [if_true]
        cases ps with
        | nil => simpa [follow] using h
        | cons p' ps =>
          exact absurd ⟨base ++ [p.key], (p' :: ps).map Part.key, x, by simp, by simp, hx, hn⟩ hl
      | false =>
        simp only [Bool.false_eq_true, if_false]
        exact ih (base ++ [p.key]) x w hx h (by simpa using hl)

/-- A path whose cache is honest reads what its keys resolve to, and stays honest. -/
theorem value_honest {p : PathSt C} (ht : p.Tidy) (hg : Honest R isN p.root p.parts) :
    Honest R isN p.root (value (plain R) isN () p).2.2.parts ∧
    (value (plain R) isN () p).2.2.root = p.root ∧
    ∀ v, (∀ k ∈ p.keys, (k.isIntLike || k.isStr) = true) → follow R p.root p.keys = .ok v →
      ¬ Lost R isN p.root p.keys → (value (plain R) isN () p).1 = .ok v := by
  have hs := scan_spec p.parts.reverse
  unfold value
  cases hsc : scan p.parts.reverse with
  | error e =>
    rw [hsc] at hs
    obtain ⟨rfl, q, hq, hraw⟩ := hs
    refine ⟨hg, rfl, fun v hk => ?_⟩
    have hq' : q ∈ p.parts := by simpa using hq
    rw [ht q hq', hk q.key (List.mem_map_of_mem hq')] at hraw
    cases hraw
  | ok o =>
    rw [hsc] at hs
    cases o with
    | none =>
      have hps : ∀ q ∈ p.parts, q.raw = false ∧ q.cache = none := fun q hq => hs q (by simpa using hq)
      refine ⟨fun pre q post w h hc => ?_, rfl, fun v _ hv hl => ?_⟩
      · have := fill_seen (isN := isN) p.keys p.parts [] p.root (.inl rfl) (fun q hq => (hps q hq).2) pre q post w h hc
        simpa using this
      · exact fill_reads (root := p.root) p.keys p.parts [] p.root v rfl hv hl
    | some x =>
      obtain ⟨i, u⟩ := x
      obtain ⟨pre, q, post, h1, h2, h3, h4, h5⟩ := hs
      have hp : p.parts = (post.reverse ++ [q]) ++ pre.reverse := by
        have := congrArg List.reverse h1
        simpa using this
      have hlen : (post.reverse ++ [q]).length = i := by simp [h5]
      have hdrop : p.parts.drop i = pre.reverse := by rw [hp, ← hlen, List.drop_left]
      have htake : p.parts.take i = post.reverse ++ [q] := by rw [hp, ← hlen, List.take_left]
      have hpre : ∀ x ∈ pre.reverse, x.cache = none := fun x hx => (h2 x (by simpa using hx)).2
      have hseen := hg post.reverse q pre.reverse u (by rw [hp]; simp) h4
      have hk : p.keys = (post.reverse.map Part.key ++ [q.key]) ++ pre.reverse.map Part.key := by
        unfold keys; rw [hp]; simp
      simp only [hdrop, htake]
      refine ⟨fun a y b w hab hw => ?_, trivial, fun v _ hv hl => ?_⟩
      · have key := fill_seen (isN := isN) p.keys pre.reverse _ u hseen hpre
        rcases List.append_eq_append_iff.1 hab with ⟨c, hc1, hc2⟩ | ⟨c, hc1, hc2⟩
        · have := key c y b w hc2 hw
          subst hc1
          simpa using this
        · cases c with
          | nil =>
            simp only [List.append_nil] at hc1
            simp only [List.nil_append] at hc2
            have := key [] y b w (by simp [← hc2]) hw
            subst hc1
            simpa using this
          | cons y' c =>
            simp only [List.cons_append, List.cons.injEq] at hc2
            obtain ⟨rfl, _⟩ := hc2
            exact hg a y (c ++ pre.reverse) w (by rw [hp, hc1]; simp) hw
      · have hu : follow R p.root (post.reverse.map Part.key ++ [q.key]) = .ok u := by
          rcases hseen with h | h
          · exact h
          · exact absurd (hk ▸ h.append _) hl
        rw [hk] at hl
        rw [hk, follow_append, hu] at hv
        exact fill_reads (root := p.root) p.keys pre.reverse _ u v hu hv hl

theorem Honest.append {p : PathSt C} (hg : Honest R isN p.root p.parts) (k : Val) :
    Honest R isN p.root (p.append k).parts := by
  intro pre q post v h hc
  simp only [PathSt.append] at h
  rcases List.append_eq_append_iff.1 h with ⟨a, h1, h2⟩ | ⟨a, h1, h2⟩
  · cases a with
    | nil =>
      simp only [List.nil_append, List.cons.injEq] at h2
      rw [← h2.1] at hc; simp [Part.ofKey] at hc
    | cons x a =>
      simp only [List.cons_append, List.cons.injEq] at h2
      have := congrArg List.length h2.2; simp at this
  · cases a with
    | nil =>
      simp only [List.nil_append, List.cons.injEq] at h2
      rw [h2.1] at hc; simp [Part.ofKey] at hc
    | cons x a =>
      simp only [List.cons_append, List.cons.injEq] at h2
      obtain ⟨rfl, _⟩ := h2
      exact hg pre q a v h1 hc

theorem Honest.pop {p p' : PathSt C} (hg : Honest R isN p.root p.parts)
    (h : p.pop = .ok p') : Honest R isN p'.root p'.parts ∧ p'.root = p.root := by
  unfold PathSt.pop at h
  cases hr : p.parts.reverse with
  | nil => rw [hr] at h; simp at h
  | cons q rest =>
    rw [hr] at h
    simp only [Except.ok.injEq] at h
    subst h
    have hp : p.parts = rest.reverse ++ [q] := by
      have := congrArg List.reverse hr; simpa using this
    refine ⟨?_, rfl⟩
    intro pre y post v h hc
    simp only at h
    exact hg pre y (post ++ [q]) v (by rw [hp, h]; simp) hc

end PathSt

/-! ## Documents -/

/-- The two kinds of source that read a plain document: a `DefaultSource` without aliases and ignores, a
`JsonSource`. -/
inductive DocKind where
  | native (loc : Option String)
  | json (strict : Bool) (loc : Option String)

/-- One step of the resolution of a key: `DefaultPath.resolve` (`default.py:53-72`), `JsonPath.resolve`
(`json.py:24-33`). -/
def DocKind.step (L : Lib) : DocKind → Val → Val → Except Exc Val
  | .native _, c, k => resolveDefault L {} [] c k
  | .json _ _, c, k => .ok (resolveJson c k)

theorem resolveAtom_plain {L : Lib} (cfg : DefaultCfg) (ha : cfg.aliases = none) (hi : cfg.ignores = [])
    (ks : List Val) (c k : Val) : resolveAtom L cfg ks c k = resolveAtom L {} [] c k := by
  simp [resolveAtom, DefaultCfg.ignore, asAlias, ha, hi]

theorem resolveAtoms_plain {L : Lib} (cfg : DefaultCfg) (ha : cfg.aliases = none) (hi : cfg.ignores = [])
    (ks : List Val) (as : List String) : ∀ c : Val, resolveAtoms L cfg ks c as = resolveAtoms L {} [] c as := by
  induction as with
  | nil => intro c; rfl
  | cons a as ih => intro c; simp only [resolveAtoms, resolveAtom_plain cfg ha hi, ih]

theorem resolveRev_plain {L : Lib} (cfg : DefaultCfg) (ha : cfg.aliases = none) (hi : cfg.ignores = [])
    (ks : List Val) (c : Val) : ∀ cs : List Char, resolveRev L cfg ks c cs = resolveRev L {} [] c cs := by
  intro cs
  induction hn : cs.length using Nat.strongRecOn generalizing cs with
  | ind n ih =>
    by_cases h : ∃ rest, cs = ')' :: '(' :: rest
    · obtain ⟨rest, rfl⟩ := h
      simp only [resolveRev]
      rw [ih rest.length (by rw [← hn]; simp; omega) rest rfl]
    · have h' : ∀ rest, cs = ')' :: '(' :: rest → False := fun r hr => h ⟨r, hr⟩
      rw [resolveRev.eq_2 L cfg ks c cs h', resolveRev.eq_2 L {} [] c cs h']
      simp only [resolvePlain, resolveAtom_plain cfg ha hi, resolveAtoms_plain cfg ha hi]

theorem resolveDefault_plain {L : Lib} (cfg : DefaultCfg) (ha : cfg.aliases = none) (hi : cfg.ignores = [])
    (ks : List Val) (c k : Val) : resolveDefault L cfg ks c k = resolveDefault L {} [] c k := by
  unfold resolveDefault
  split
  · exact resolveRev_plain cfg ha hi ks c _
  · simp only [resolveAtom_plain cfg ha hi]

/-- The document of a path, if it reads one: kind, and the state of the path. -/
def SPath.doc? : SPath → Option (DocKind × PathSt Val)
  | .dflt cfg st => if cfg.aliases.isNone && cfg.ignores.isEmpty then some (.native cfg.location, st) else none
  | .json s l st => some (.json s l, st)
  | .config _ _ => none

/-- The document of a path, if it reads one. -/
def Path.doc? : Path → Option (DocKind × PathSt Val)
  | .base (.simple p) => p.doc?
  | _ => none

/-- The kind of source and the document: what no operation changes. -/
def Path.home (p : Path) : Option (DocKind × Val) := p.doc?.map fun x => (x.1, x.2.root)

/-- The cache is honest. -/
def Path.Honest (L : Lib) (p : Path) : Prop :=
  ∀ d st, p.doc? = some (d, st) → PathSt.Honest (d.step L) Val.isNONE st.root st.parts

theorem SPath.doc_tidy {p : SPath} (h : p.Tidy) {d : DocKind} {st : PathSt Val} (hd : p.doc? = some (d, st)) :
    st.Tidy ∧ p.keys = st.keys := by
  cases p with
  | dflt cfg st' =>
    simp only [SPath.doc?] at hd
    split at hd <;> simp at hd
    obtain ⟨-, rfl⟩ := hd
    exact ⟨h, rfl⟩
  | json s l st' =>
    simp only [SPath.doc?, Option.some.injEq, Prod.mk.injEq] at hd
    obtain ⟨-, rfl⟩ := hd
    exact ⟨h, rfl⟩
  | config cfg st' => simp [SPath.doc?] at hd

/-- Reading a document: the value of the path is computed by `Path.value` with the step of the document. -/
theorem SPath.withValue_doc {α : Type} (L : Lib) {p : SPath} {d : DocKind} {st : PathSt Val}
    (hd : p.doc? = some (d, st))
    (a : DefaultCfg → List Val → Val → Except Exc α) (b : Bool → Val → Except Exc α)
    (c : ConfigCfg → List Val → CfgVal → Except Exc α) :
    let r := PathSt.value (PathSt.plain (d.step L)) Val.isNONE () st
    (p.withValue L a b c).2.doc? = some (d, r.2.2) ∧
    (p.withValue L a b c).1 = (match r.1 with
      | .error e => .error e
      | .ok v => match (generalizing := false) d with
        | .native loc => a { location := loc } st.keys v
        | .json s _ => b s v) := by
  cases p with
  | dflt cfg st' =>
    simp only [SPath.doc?] at hd
    split at hd <;> simp at hd
    rename_i hc
    obtain ⟨rfl, rfl⟩ := hd
    simp only [Bool.and_eq_true, Option.isNone_iff_eq_none, List.isEmpty_iff] at hc
    have hres : (fun ks (_ : Unit) c k => (resolveDefault L cfg ks c k, ()))
        = PathSt.plain ((DocKind.native cfg.location).step L) := by
      funext ks u c k
      simp only [PathSt.plain, DocKind.step, resolveDefault_plain cfg hc.1 hc.2]
    have hcfg : cfg = { location := cfg.location } := by
      cases cfg
      simp only at hc
      rw [hc.1, hc.2]
    have hv : SPath.valueDflt L cfg st'
      = ((PathSt.value (PathSt.plain ((DocKind.native cfg.location).step L)) Val.isNONE () st').1,
        (PathSt.value (PathSt.plain ((DocKind.native cfg.location).step L)) Val.isNONE () st').2.2) := by
      unfold SPath.valueDflt; rw [hres]
    simp only [SPath.withValue, hv]
    cases hr : (PathSt.value (PathSt.plain ((DocKind.native cfg.location).step L)) Val.isNONE () st').1 with
    | ok v => exact ⟨by simp [SPath.doc?, hc.1, hc.2], by dsimp only; rw [← hcfg]⟩
    | error e => exact ⟨by simp [SPath.doc?, hc.1, hc.2], rfl⟩
  | json s l st' =>
    simp only [SPath.doc?, Option.some.injEq, Prod.mk.injEq] at hd
    obtain ⟨rfl, rfl⟩ := hd
    have hv : SPath.valueJson st'
      = ((PathSt.value (PathSt.plain ((DocKind.json s l).step L)) Val.isNONE () st').1,
        (PathSt.value (PathSt.plain ((DocKind.json s l).step L)) Val.isNONE () st').2.2) := rfl
    simp only [SPath.withValue, hv]
    cases hr : (PathSt.value (PathSt.plain ((DocKind.json s l).step L)) Val.isNONE () st').1 with
    | ok v => exact ⟨rfl, rfl⟩
    | error e => exact ⟨rfl, rfl⟩
  | config cfg st' => simp [SPath.doc?] at hd

theorem SPath.withValue_nodoc {α : Type} (L : Lib) {p : SPath} (hd : p.doc? = none)
    (a : DefaultCfg → List Val → Val → Except Exc α) (b : Bool → Val → Except Exc α)
    (c : ConfigCfg → List Val → CfgVal → Except Exc α) : (p.withValue L a b c).2.doc? = none := by
  cases p with
  | dflt cfg st =>
    simp only [SPath.doc?] at hd
    simp only [SPath.withValue]
    split <;> simpa [SPath.doc?] using hd
  | json s l st => simp [SPath.doc?] at hd
  | config cfg st =>
    simp only [SPath.withValue]
    split <;> rfl

/-- Reads keep the document and the honesty of the cache. -/
structure SPath.DocKept (L : Lib) (p q : SPath) : Prop where
  home : (q.doc?.map fun x => (x.1, x.2.root)) = p.doc?.map fun x => (x.1, x.2.root)
  honest : ∀ d st, q.doc? = some (d, st) → PathSt.Honest (d.step L) Val.isNONE st.root st.parts

theorem SPath.withValue_kept {α : Type} (L : Lib) {p : SPath} (ht : p.Tidy)
    (hh : ∀ d st, p.doc? = some (d, st) → PathSt.Honest (d.step L) Val.isNONE st.root st.parts)
    (a : DefaultCfg → List Val → Val → Except Exc α) (b : Bool → Val → Except Exc α)
    (c : ConfigCfg → List Val → CfgVal → Except Exc α) : DocKept L p (p.withValue L a b c).2 := by
  cases hd : p.doc? with
  | none =>
    have h := SPath.withValue_nodoc L hd a b c
    exact ⟨by rw [h, hd], fun d st h' => by rw [h] at h'; cases h'⟩
  | some x =>
    obtain ⟨d, st⟩ := x
    have h := (SPath.withValue_doc L hd a b c).1
    obtain ⟨h1, h2, -⟩ := PathSt.value_honest (SPath.doc_tidy ht hd).1 (hh d st hd)
    refine ⟨by rw [h, hd]; simp [h2], fun d' st' h' => ?_⟩
    rw [h] at h'
    simp only [Option.some.injEq, Prod.mk.injEq] at h'
    obtain ⟨rfl, rfl⟩ := h'
    rw [h2]; exact h1

namespace Path

theorem honest_of_none {L : Lib} {p : Path} (h : p.doc? = none) : p.Honest L := by
  intro d st hd
  rw [h] at hd; cases hd

/-- A read of a path. -/
theorem read_kept {α : Type} (L : Lib) {p : Path} (hw : (Path.lawful L).WF p) (hh : p.Honest L)
    (a : DefaultCfg → List Val → Val → Except Exc α) (b : Bool → Val → Except Exc α)
    (c : ConfigCfg → List Val → CfgVal → Except Exc α)
    (fu : UPath → Except Exc α × UPath) (fm : MPath → Except Exc α × MPath) :
    let q := (p.read (fun x => x.read (fun y => y.withValue L a b c) fu) fm).2
    q.home = p.home ∧ q.Honest L := by
  cases p with
  | mount p => exact ⟨rfl, honest_of_none rfl⟩
  | base p =>
    cases p with
    | union p => exact ⟨rfl, honest_of_none rfl⟩
    | simple p =>
      have := SPath.withValue_kept L (p := p) hw hh a b c
      exact ⟨this.home, this.honest⟩

/-- The lawful paths with an honest cache; the document is part of the shape. -/
def deep (L : Lib) : LawfulPath (ops L) where
  WF p := (Path.lawful L).WF p ∧ p.Honest L
  Shape := (Path.lawful L).Shape × Option (DocKind × Val)
  shape p := ((Path.lawful L).shape p, p.home)
  text s := (Path.lawful L).text s.1
  render_text h := (Path.lawful L).render_text h.1
  append_shape := by
    intro p k q h hq
    have h1 := (Path.lawful L).append_shape h.1 hq
    refine Prod.ext h1 ?_
    cases p with
    | mount p =>
      simp only [ops] at hq
      split at hq
      · simp only [Except.ok.injEq] at hq; subst hq; rfl
      · simp at hq
    | base p =>
      simp only [ops, Except.ok.injEq] at hq
      subst hq
      cases p with
      | union p => rfl
      | simple p =>
        cases p <;> simp [home, doc?, BPath.append, SPath.append, SPath.doc?]
        · split <;> simp [PathSt.append]
        · rfl
  append_back := by
    intro p p' ks k h h' hk hk' hs
    exact (Path.lawful L).append_back h.1 h'.1 hk hk' (congrArg Prod.fst hs)
  append_keys := by
    intro p k q h hq
    obtain ⟨h1, h2⟩ := (Path.lawful L).append_keys h.1 hq
    refine ⟨h1, h2, ?_⟩
    cases p with
    | mount p =>
      simp only [ops] at hq
      split at hq
      · simp only [Except.ok.injEq] at hq; subst hq; exact honest_of_none rfl
      · simp at hq
    | base p =>
      simp only [ops, Except.ok.injEq] at hq
      subst hq
      cases p with
      | union p => exact honest_of_none rfl
      | simple p =>
        intro d st hd
        have hh := h.2
        cases p with
        | config cfg st' => simp [doc?, BPath.append, SPath.append, SPath.doc?] at hd
        | json s l st' =>
          simp only [doc?, BPath.append, SPath.append, SPath.doc?, Option.some.injEq, Prod.mk.injEq] at hd
          obtain ⟨rfl, rfl⟩ := hd
          exact (hh _ _ rfl).append k
        | dflt cfg st' =>
          simp only [doc?, BPath.append, SPath.append, SPath.doc?] at hd
          split at hd <;> simp at hd
          rename_i hc
          obtain ⟨rfl, rfl⟩ := hd
          exact (hh _ st' (by simp only [doc?, SPath.doc?]; rw [if_pos hc])).append k
  pop_keys := by
    intro p ks k h hk
    obtain ⟨q, h1, h2, h3, h4⟩ := (Path.lawful L).pop_keys h.1 hk
    refine ⟨q, h1, h2, ⟨h3, ?_⟩, Prod.ext h4 ?_⟩
    all_goals
      cases p with
      | mount p =>
        simp only [ops] at h1
        split at h1
        · simp only [Except.ok.injEq] at h1; subst h1; first | exact honest_of_none rfl | rfl
        · simp at h1
      | base p =>
        cases p with
        | union p =>
          simp only [ops, BPath.pop] at h1
          cases hp : p.pop with
          | error e => rw [hp] at h1; simp at h1
          | ok x => rw [hp] at h1; simp only [Except.ok.injEq] at h1; subst h1; first | exact honest_of_none rfl | rfl
        | simple p =>
          have hh := h.2
          cases p with
          | config cfg st' =>
            simp only [ops, BPath.pop, SPath.pop] at h1
            cases hp : st'.pop with
            | error e => rw [hp] at h1; simp at h1
            | ok x => rw [hp] at h1; simp only [Except.ok.injEq] at h1; subst h1; first | exact honest_of_none rfl | rfl
          | json s l st' =>
            simp only [ops, BPath.pop, SPath.pop] at h1
            cases hp : st'.pop with
            | error e => rw [hp] at h1; simp at h1
            | ok x =>
              rw [hp] at h1
              simp only [Except.ok.injEq] at h1
              subst h1
              have := (hh _ _ rfl).pop hp
              first
              | intro d st hd
                simp only [doc?, SPath.doc?, Option.some.injEq, Prod.mk.injEq] at hd
                obtain ⟨rfl, rfl⟩ := hd
                exact this.1
              | simp [home, doc?, SPath.doc?, this.2]
          | dflt cfg st' =>
            simp only [ops, BPath.pop, SPath.pop] at h1
            cases hp : st'.pop with
            | error e => rw [hp] at h1; simp at h1
            | ok x =>
              rw [hp] at h1
              simp only [Except.ok.injEq] at h1
              subst h1
              by_cases hc : (cfg.aliases.isNone && cfg.ignores.isEmpty) = true
              · have := (hh _ st' (by simp only [doc?, SPath.doc?]; rw [if_pos hc])).pop hp
                first
                | intro d st hd
                  simp only [doc?, SPath.doc?] at hd
                  rw [if_pos hc] at hd
                  simp only [Option.some.injEq, Prod.mk.injEq] at hd
                  obtain ⟨rfl, rfl⟩ := hd
                  exact this.1
                | simp only [home, doc?, SPath.doc?]
                  rw [if_pos hc, if_pos hc]
                  simp [this.2]
              · first
                | intro d st hd
                  simp only [doc?, SPath.doc?] at hd
                  rw [if_neg hc] at hd
                  cases hd
                | simp only [home, doc?, SPath.doc?]
                  rw [if_neg hc, if_neg hc]
  value_keys := fun {p} h => by
    obtain ⟨h1, h2⟩ := read_kept L h.1 h.2 (fun _ _ v => .ok v) (fun _ v => .ok v) (fun _ _ v => .ok v.toVal)
      UPath.value (MPath.value L)
    have h3 := (Path.lawful L).value_keys h.1
    exact ⟨h3.keys, ⟨h3.wf, h2⟩, Prod.ext h3.shape h1⟩
  exists_keys := fun {p} h => by
    obtain ⟨h1, h2⟩ := read_kept L h.1 h.2 (fun _ _ v => .ok (!v.isNONE)) (fun _ v => .ok (!v.isNONE))
      (fun _ _ v => .ok (!v.isNONE)) UPath.exists_ (MPath.exists_ L)
    have h3 := (Path.lawful L).exists_keys h.1
    exact ⟨h3.keys, ⟨h3.wf, h2⟩, Prod.ext h3.shape h1⟩
  isNull_keys := fun {p} h => by
    obtain ⟨h1, h2⟩ := read_kept L h.1 h.2 (fun _ _ v => .ok v.isNull) (fun _ v => .ok v.isNull)
      (fun _ _ v => .ok v.toVal.isNull) UPath.isNull (MPath.isNull L)
    have h3 := (Path.lawful L).isNull_keys h.1
    exact ⟨h3.keys, ⟨h3.wf, h2⟩, Prod.ext h3.shape h1⟩
  mapping_keys := fun {p} h => by
    obtain ⟨h1, h2⟩ := read_kept L h.1 h.2 (fun cfg ks v => defaultMapping cfg ks v) (fun _ v => jsonMapping v)
      (fun cfg _ v => cfgMapping L cfg v) (UPath.mapping L) (MPath.mapping L)
    have h3 := (Path.lawful L).mapping_keys h.1
    have h4 : ((ops L).mapping p).2 = (p.read (BPath.mapping L) (MPath.mapping L)).2 := by
      show (someKeys _).2 = _
      rw [someKeys_snd]
    refine ⟨h3.keys, ⟨h3.wf, ?_⟩, Prod.ext h3.shape ?_⟩
    · rw [h4]; exact h2
    · show home _ = home _
      rw [h4]; exact h1
  sequence_keys := fun {p} h => by
    obtain ⟨h1, h2⟩ := read_kept L h.1 h.2 (fun _ _ v => defaultSequence v) (fun _ v => jsonSequence v)
      (fun _ _ v => cfgSequence L v) (UPath.sequence L) (MPath.sequence L)
    have h3 := (Path.lawful L).sequence_keys h.1
    exact ⟨h3.keys, ⟨h3.wf, h2⟩, Prod.ext h3.shape h1⟩
  primitive_keys := fun {p ty} h => by
    obtain ⟨h1, h2⟩ := read_kept L h.1 h.2 (fun _ _ v => parseNative L ty v) (fun strict v => parseJson L strict ty v)
      (fun cfg ks v => SPath.cfgPrimitive L cfg ks ty v) (UPath.primitive L ty) (MPath.primitive L ty)
    have h3 := (Path.lawful L).primitive_keys (ty := ty) h.1
    exact ⟨h3.keys, ⟨h3.wf, h2⟩, Prod.ext h3.shape h1⟩
  joinPath_wf := by
    intro p q h hq
    refine ⟨(Path.lawful L).joinPath_wf h.1 hq, ?_⟩
    have key : ∀ (x : BPath) (y : BPath), x.joinPath L = some (.ok y) → (Path.base y).doc? = none := by
      intro x y hxy
      cases x with
      | simple x => simp [BPath.joinPath] at hxy
      | union x =>
        simp only [BPath.joinPath] at hxy
        split at hxy <;> simp at hxy
        subst hxy
        rfl
    cases p with
    | base p =>
      simp only [ops] at hq
      cases hj : p.joinPath L with
      | none => rw [hj] at hq; simp at hq
      | some r =>
        rw [hj] at hq
        cases r with
        | error e => simp at hq
        | ok y =>
          simp only [Option.some.injEq, Except.ok.injEq] at hq
          subst hq
          exact honest_of_none (key p y hj)
    | mount p =>
      simp only [ops] at hq
      cases hm : p.part with
      | none => rw [hm] at hq; simp at hq
      | some m =>
        rw [hm] at hq
        dsimp only at hq
        cases hj : (p.sub m).joinPath L with
        | none => rw [hj] at hq; simp at hq
        | some r =>
          rw [hj] at hq
          cases r with
          | error e => simp at hq
          | ok y =>
            simp only [Option.some.injEq, Except.ok.injEq] at hq
            subst hq
            exact honest_of_none (key _ y hj)
  native_wf := by
    intro v al
    refine ⟨(Path.lawful L).native_wf, ?_⟩
    intro d st hd pre q post w h hc
    simp only [ops, doc?, SPath.native, SPath.doc?] at hd
    split at hd <;> simp at hd
    obtain ⟨-, rfl⟩ := hd
    simp at h
  native_keys := rfl

end Path

/-- The keys resolve to `v`, without meeting `NONE` on the way. -/
structure DocKind.Sees (L : Lib) (d : DocKind) (root : Val) (ks : List Val) (v : Val) : Prop where
  ok : ∀ k ∈ ks, (k.isIntLike || k.isStr) = true
  walk : PathSt.follow (d.step L) root ks = .ok v
  kept : ¬ PathSt.Lost (d.step L) Val.isNONE root ks

theorem DocKind.Sees.root {L : Lib} {d : DocKind} {root : Val} : d.Sees L root [] root where
  ok _ h := by cases h
  walk := rfl
  kept := by
    rintro ⟨a, b, c, h1, h2, -⟩
    simp at h1
    exact h2 h1.2

theorem DocKind.Sees.snoc {L : Lib} {d : DocKind} {root : Val} {ks : List Val} {v w k : Val}
    (h : d.Sees L root ks v) (hk : (k.isIntLike || k.isStr) = true) (hv : v.isNONE = false)
    (hw : d.step L v k = .ok w) : d.Sees L root (ks ++ [k]) w where
  ok x hx := by
    rw [List.mem_append, List.mem_singleton] at hx
    rcases hx with hx | rfl
    · exact h.ok x hx
    · exact hk
  walk := by rw [PathSt.follow_append, h.walk]; simp [PathSt.follow, hw]
  kept hl := by
    rcases hl.snoc with hl | ⟨c, hc, hn⟩
    · exact h.kept hl
    · rw [h.walk] at hc
      cases hc
      rw [hv] at hn; cases hn

namespace Path
variable {L : Lib} {p : Path} {d : DocKind} {root v : Val}

/-- What a read of a path returns. -/
theorem read_sees {α : Type} (hw : (deep L).WF p) (hh : p.home = some (d, root))
    (hs : d.Sees L root ((ops L).keys p) v)
    (a : DefaultCfg → List Val → Val → Except Exc α) (b : Bool → Val → Except Exc α)
    (c : ConfigCfg → List Val → CfgVal → Except Exc α)
    (fu : UPath → Except Exc α × UPath) (fm : MPath → Except Exc α × MPath) :
    (p.read (fun x => x.read (fun y => y.withValue L a b c) fu) fm).1 = match (generalizing := false) d with
      | .native loc => a { location := loc } ((ops L).keys p) v
      | .json s _ => b s v := by
  cases p with
  | mount p => simp [home, doc?] at hh
  | base p =>
    cases p with
    | union p => simp [home, doc?] at hh
    | simple p =>
      simp only [home, doc?, Option.map_eq_some_iff] at hh
      obtain ⟨⟨d', st⟩, hd, hh⟩ := hh
      simp only [Prod.mk.injEq] at hh
      obtain ⟨rfl, rfl⟩ := hh
      obtain ⟨ht, hk⟩ := SPath.doc_tidy (p := p) hw.1 hd
      have hk' : (ops L).keys (.base (.simple p)) = st.keys := hk
      rw [hk'] at hs ⊢
      have h1 := (PathSt.value_honest ht (hw.2 d' st hd)).2.2 v hs.ok hs.walk hs.kept
      have h2 := (SPath.withValue_doc L hd a b c).2
      rw [h1] at h2
      exact h2

theorem value_sees (hw : (deep L).WF p) (hh : p.home = some (d, root))
    (hs : d.Sees L root ((ops L).keys p) v) : ((ops L).value p).1 = .ok v := by
  have := read_sees hw hh hs (fun _ _ v => .ok v) (fun _ v => .ok v) (fun _ _ v => .ok v.toVal)
    UPath.value (MPath.value L)
  cases d <;> exact this

theorem exists_sees (hw : (deep L).WF p) (hh : p.home = some (d, root))
    (hs : d.Sees L root ((ops L).keys p) v) : ((ops L).exists_ p).1 = .ok (!v.isNONE) := by
  have := read_sees hw hh hs (fun _ _ v => .ok (!v.isNONE)) (fun _ v => .ok (!v.isNONE))
    (fun _ _ v => .ok (!v.isNONE)) UPath.exists_ (MPath.exists_ L)
  cases d <;> exact this

theorem isNull_sees (hw : (deep L).WF p) (hh : p.home = some (d, root))
    (hs : d.Sees L root ((ops L).keys p) v) : ((ops L).isNull p).1 = .ok v.isNull := by
  have := read_sees hw hh hs (fun _ _ v => .ok v.isNull) (fun _ v => .ok v.isNull)
    (fun _ _ v => .ok v.toVal.isNull) UPath.isNull (MPath.isNull L)
  cases d <;> exact this

theorem auto_sees (hw : (deep L).WF p) (hh : p.home = some (d, root))
    (hs : d.Sees L root ((ops L).keys p) v) : ((ops L).primitive .auto p).1 = .ok v := by
  have := read_sees hw hh hs (fun _ _ v => parseNative L .auto v) (fun strict v => parseJson L strict .auto v)
    (fun cfg ks v => SPath.cfgPrimitive L cfg ks .auto v) (UPath.primitive L .auto) (MPath.primitive L .auto)
  cases d <;> exact this

theorem mapping_sees {kvs : List (Val × Val)} (hw : (deep L).WF p) (hh : p.home = some (d, root))
    (hs : d.Sees L root ((ops L).keys p) (.dict kvs)) :
    ((ops L).mapping p).1 = .ok (some { ks := kvs.map Prod.fst }) := by
  have := read_sees hw hh hs (fun cfg ks v => defaultMapping cfg ks v) (fun _ v => jsonMapping v)
    (fun cfg _ v => cfgMapping L cfg v) (UPath.mapping L) (MPath.mapping L)
  have h1 : (p.read (BPath.mapping L) (MPath.mapping L)).1 = .ok { ks := kvs.map Prod.fst } := by
    cases d <;> exact this
  show (someKeys _).1 = _
  rcases hr : p.read (BPath.mapping L) (MPath.mapping L) with ⟨r, q⟩
  rw [hr] at h1
  dsimp only at h1
  subst h1
  rfl

end Path
end Pilo
