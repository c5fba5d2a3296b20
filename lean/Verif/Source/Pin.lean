import Verif.Lone
import Verif.Sub
import Verif.Source.Mount

/-!
# Reading below a path leaves it as it is

Values are kept on the parts of a path as they are looked up (`pilo/source/__init__.py:91-108`).  When the value at a
path is kept already, or the path is the root, reading below it changes nothing about it.
-/

namespace Pilo

namespace PathSt
variable {V : Type}

/-- The value at the path is at hand: it is the root, or kept on the last part. -/
def AtHand (st : PathSt V) : Prop :=
  st.parts = [] ∨ ∃ pre q v, st.parts = pre ++ [q] ∧ q.raw = false ∧ q.cache = some v

/-- `st` is `st0` with `d` further parts. -/
def Past (st0 : PathSt V) (d : Nat) (st : PathSt V) : Prop :=
  ∃ l, l.length = d ∧ st = { st0 with parts := st0.parts ++ l }

variable {st0 st : PathSt V} {d : Nat}

theorem fill_length {σ : Type} (resolve : List Val → σ → V → Val → Except Exc V × σ) (isN : V → Bool) (ks : List Val)
    (ps : List (Part V)) (s : σ) (v : V) : (fill resolve isN ks s v ps).2.2.length = ps.length := by
  simpa using congrArg List.length (fill_sig resolve isN ks ps s v)

theorem Past.value (h0 : st0.AtHand) (resolve : List Val → Unit → V → Val → Except Exc V × Unit) (isN : V → Bool)
    (h : Past st0 d st) : Past st0 d (PathSt.value resolve isN () st).2.2 := by
  obtain ⟨l, hl, rfl⟩ := h
  unfold PathSt.value
  dsimp only
  rw [List.reverse_append, scan_append]
  cases hs : scan l.reverse with
  | error e => exact ⟨l, hl, rfl⟩
  | ok o =>
    cases o with
    | some iv =>
      obtain ⟨i, v⟩ := iv
      dsimp only
      rw [List.length_reverse]
      have h1 : List.take (i + st0.parts.length) (st0.parts ++ l) = st0.parts ++ l.take i := by
        rw [List.take_append, List.take_of_length_le (by omega), Nat.add_sub_cancel]
      have h2 : List.drop (i + st0.parts.length) (st0.parts ++ l) = l.drop i := by
        rw [List.drop_append, List.drop_of_length_le (by omega), Nat.add_sub_cancel, List.nil_append]
      rw [h1, h2]
      refine ⟨l.take i ++ _, ?_, by rw [List.append_assoc]⟩
      rw [List.length_append, fill_length, ← List.length_append, List.take_append_drop]
      exact hl
    | none =>
      rcases h0 with h0 | ⟨pre, q, v, h0, hr, hc⟩
      · rw [h0]
        dsimp only [List.reverse_nil, scan]
        rw [List.nil_append]
        generalize PathSt.keys _ = ks
        refine ⟨(fill resolve isN ks () st0.root l).2.2, by rw [fill_length]; exact hl, ?_⟩
        rw [h0]; rfl
      · have hsc : scan st0.parts.reverse = .ok (some (st0.parts.length, v)) := by
          rw [h0]; simp [scan, hr, hc]
        rw [hsc]
        dsimp only
        rw [List.take_left, List.drop_left]
        exact ⟨_, by rw [fill_length]; exact hl, rfl⟩

theorem Past.append (h : Past st0 d st) (k : Val) : Past st0 (d + 1) (st.append k) := by
  obtain ⟨l, hl, rfl⟩ := h
  refine ⟨l ++ [Part.ofKey k], by simp [hl], ?_⟩
  unfold PathSt.append
  simp

theorem Past.pop (h : Past st0 (d + 1) st) : ∃ st', st.pop = .ok st' ∧ Past st0 d st' := by
  obtain ⟨l, hl, rfl⟩ := h
  rcases List.eq_nil_or_concat l with h0 | ⟨ps, x, hx⟩
  · rw [h0] at hl; simp at hl
  · rw [List.concat_eq_append] at hx
    subst hx
    refine ⟨{ st0 with parts := st0.parts ++ ps }, ?_, ps, by simpa using hl, rfl⟩
    rw [← List.append_assoc]
    exact pop_concat _ _ _

theorem Past.zero (h : Past st0 0 st) : st = st0 := by
  obtain ⟨l, hl, rfl⟩ := h
  rw [List.length_eq_zero_iff.1 hl, List.append_nil]

theorem Past.refl : Past st0 0 st0 := ⟨[], rfl, by rw [List.append_nil]⟩

end PathSt

namespace SPath

/-- The value at the path is at hand. -/
def AtHand : SPath → Prop
  | .dflt _ st => st.AtHand
  | .json _ _ st => st.AtHand
  | .config _ st => st.AtHand

/-- `p` is `p0` with `d` further parts. -/
def Past (d : Nat) : SPath → SPath → Prop
  | .dflt a st0, .dflt b st => a = b ∧ st0.Past d st
  | .json s l st0, .json s' l' st => s = s' ∧ l = l' ∧ st0.Past d st
  | .config a st0, .config b st => a = b ∧ st0.Past d st
  | _, _ => False

variable {p0 p : SPath} {d : Nat}

theorem Past.withValue {α : Type} {L : Lib} {onD : DefaultCfg → List Val → Val → Except Exc α}
    {onJ : Bool → Val → Except Exc α} {onC : ConfigCfg → List Val → CfgVal → Except Exc α} (h0 : p0.AtHand)
    (h : Past d p0 p) : Past d p0 (p.withValue L onD onJ onC).2 := by
  cases p0 with
  | dflt a st0 => cases p with
    | dflt b st =>
      obtain ⟨rfl, h⟩ := h
      have := h.value h0 (fun ks (_ : Unit) c k => (resolveDefault L a ks c k, ())) Val.isNONE
      unfold SPath.withValue valueDflt
      dsimp only
      split <;> (rename_i he; have he := congrArg Prod.snd he; dsimp only at he; subst he; exact ⟨rfl, this⟩)
    | json _ _ _ => exact h.elim
    | config _ _ => exact h.elim
  | json s l st0 => cases p with
    | json s' l' st =>
      obtain ⟨rfl, rfl, h⟩ := h
      have := h.value h0 (fun _ (_ : Unit) c k => (.ok (resolveJson c k), ())) Val.isNONE
      unfold SPath.withValue valueJson
      dsimp only
      split <;> (rename_i he; have he := congrArg Prod.snd he; dsimp only at he; subst he; exact ⟨rfl, rfl, this⟩)
    | dflt _ _ => exact h.elim
    | config _ _ => exact h.elim
  | config a st0 => cases p with
    | config b st =>
      obtain ⟨rfl, h⟩ := h
      have := h.value h0 (fun _ (_ : Unit) c k => (resolveConfig L a c k, ())) CfgVal.isNONE
      unfold SPath.withValue valueCfg
      dsimp only
      split <;> (rename_i he; have he := congrArg Prod.snd he; dsimp only at he; subst he; exact ⟨rfl, this⟩)
    | dflt _ _ => exact h.elim
    | json _ _ _ => exact h.elim

theorem Past.append (h : Past d p0 p) (k : Val) : Past (d + 1) p0 (p.append k) := by
  cases p0 <;> cases p <;> first | exact h.elim | skip
  · exact ⟨h.1, h.2.append k⟩
  · exact ⟨h.1, h.2.1, h.2.2.append k⟩
  · exact ⟨h.1, h.2.append k⟩

theorem Past.pop (h : Past (d + 1) p0 p) : ∃ q, p.pop = .ok q ∧ Past d p0 q := by
  cases p0 with
  | dflt a st0 => cases p with
    | dflt b st =>
      obtain ⟨rfl, h⟩ := h
      obtain ⟨st', h1, h2⟩ := h.pop
      exact ⟨.dflt a st', by simp only [SPath.pop, h1], rfl, h2⟩
    | json _ _ _ => exact h.elim
    | config _ _ => exact h.elim
  | json s l st0 => cases p with
    | json s' l' st =>
      obtain ⟨rfl, rfl, h⟩ := h
      obtain ⟨st', h1, h2⟩ := h.pop
      exact ⟨.json s l st', by simp only [SPath.pop, h1], rfl, rfl, h2⟩
    | dflt _ _ => exact h.elim
    | config _ _ => exact h.elim
  | config a st0 => cases p with
    | config b st =>
      obtain ⟨rfl, h⟩ := h
      obtain ⟨st', h1, h2⟩ := h.pop
      exact ⟨.config a st', by simp only [SPath.pop, h1], rfl, h2⟩
    | dflt _ _ => exact h.elim
    | json _ _ _ => exact h.elim

theorem Past.zero (h : Past 0 p0 p) : p = p0 := by
  cases p0 <;> cases p <;> first | exact h.elim | skip
  · obtain ⟨rfl, h⟩ := h; rw [h.zero]
  · obtain ⟨rfl, rfl, h⟩ := h; rw [h.zero]
  · obtain ⟨rfl, h⟩ := h; rw [h.zero]

theorem Past.refl : Past 0 p0 p0 := by
  cases p0
  · exact ⟨rfl, .refl⟩
  · exact ⟨rfl, rfl, .refl⟩
  · exact ⟨rfl, .refl⟩

theorem someKeys_path (r : Except Exc KeysView × SPath) : (someKeys r).2 = r.2 := by
  unfold someKeys
  split <;> rfl

end SPath

/-- The paths of a native, JSON or configuration source below `p0`. -/
def SPath.pin (L : Lib) {p0 : SPath} (h0 : p0.AtHand) : Pin (SPath.ops L) where
  O d p := SPath.Past d p0 p
  value h := h.withValue h0
  exists_ h := h.withValue h0
  isNull h := h.withValue h0
  mapping h := by
    show SPath.Past _ p0 (SPath.someKeys (SPath.mapping L _)).2
    rw [SPath.someKeys_path]
    exact h.withValue h0
  sequence h := h.withValue h0
  primitive h := h.withValue h0
  append h e := by cases e; exact h.append _
  pop h := h.pop

/-- The same, among all paths. -/
def Path.pin (L : Lib) {p0 : SPath} (h0 : p0.AtHand) : Pin (Path.ops L) where
  O d p := ∃ q, p = .base (.simple q) ∧ SPath.Past d p0 q
  value := by rintro d _ ⟨q, rfl, h⟩; exact ⟨(SPath.value L q).2, rfl, h.withValue h0⟩
  exists_ := by rintro d _ ⟨q, rfl, h⟩; exact ⟨(SPath.exists_ L q).2, rfl, h.withValue h0⟩
  isNull := by rintro d _ ⟨q, rfl, h⟩; exact ⟨(SPath.isNull L q).2, rfl, h.withValue h0⟩
  mapping := by
    rintro d _ ⟨q, rfl, h⟩
    refine ⟨(SPath.mapping L q).2, ?_, h.withValue h0⟩
    show (Path.someKeys (Path.read _ _ _)).2 = _
    simp only [Path.read, BPath.mapping, BPath.read]
    unfold Path.someKeys
    split <;> (rename_i he; injection he with _ he; exact he.symm)
  sequence := by rintro d _ ⟨q, rfl, h⟩; exact ⟨(SPath.sequence L q).2, rfl, h.withValue h0⟩
  primitive := by rintro d _ ty ⟨q, rfl, h⟩; exact ⟨(SPath.primitive L ty q).2, rfl, h.withValue h0⟩
  append := by
    rintro d _ k p' ⟨q, rfl, h⟩ e
    cases e
    exact ⟨_, rfl, h.append k⟩
  pop := by
    rintro d _ ⟨q, rfl, h⟩
    obtain ⟨q', h1, h2⟩ := h.pop
    refine ⟨.base (.simple q'), ?_, q', rfl, h2⟩
    show (match BPath.pop (.simple q) with | .ok q => Except.ok (Path.base q) | .error e => .error e) = _
    simp only [BPath.pop, h1]

end Pilo
