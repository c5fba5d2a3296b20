import Verif.Props.Single
import Verif.Source.Mount

/-!
# C108: what counts as a sequence and as a mapping

`DefaultSource.sequence`, `mapping` (`pilo/source/default.py:95-107`), `JsonSource.sequence`, `mapping`
(`pilo/source/json.py:119-130`), `ConfigSource.sequence`, `mapping` (`pilo/source/configparser.py:165-176`).
-/

namespace Pilo
namespace Shape

/-- `v` is a list or a tuple of `n` items, or, where texts count, a text of `n` characters. -/
inductive Sequence (texts : Bool) : Val → Nat → Prop where
  | list (xs : List Val) : Sequence texts (.list xs) xs.length
  | tuple (xs : List Val) : Sequence texts (.tuple xs) xs.length
  | text (s : String) : texts = true → Sequence texts (.str s) s.toList.length

/-- The answer says what `v` is: a sequence of so many items, or a source error if it is none. -/
def Counts (texts : Bool) (v : Val) (r : Except Exc Nat) : Prop :=
  (∀ n, r = .ok n ↔ Sequence texts v n) ∧
  ((∀ n, ¬ Sequence texts v n) → ∃ m, r = .error (.sourceError m))

/-- The answer lists the keys of the dict `v`, in order, or is a source error if `v` is none. -/
def Lists (v : Val) (r : Except Exc KeysView) : Prop :=
  (∀ kvs, v = .dict kvs → ∃ kv, r = .ok kv ∧ kv.ks = kvs.map Prod.fst ∧ kv.iterErr = none) ∧
  ((∀ kvs, v ≠ .dict kvs) → ∃ m, r = .error (.sourceError m))

/-- What is asked of a path is asked of its value. -/
theorem json {L : Lib} {α : Type} {strict : Bool} {loc : Option String} {st : PathSt Val} {v : Val}
    (h : (SPath.value L (.json strict loc st)).1 = .ok v) (onD : DefaultCfg → List Val → Val → Except Exc α)
    (onJ : Bool → Val → Except Exc α) (onC : ConfigCfg → List Val → CfgVal → Except Exc α) :
    (SPath.withValue L (.json strict loc st) onD onJ onC).1 = onJ strict v := by
  unfold SPath.value SPath.withValue at h
  unfold SPath.withValue
  simp only at h ⊢
  rcases hv : SPath.valueJson st with ⟨r, st'⟩
  rw [hv] at h
  cases r with
  | error e => cases h
  | ok w => cases h; rfl

theorem native {L : Lib} {α : Type} {cfg : DefaultCfg} {st : PathSt Val} {v : Val}
    (h : (SPath.value L (.dflt cfg st)).1 = .ok v) (onD : DefaultCfg → List Val → Val → Except Exc α)
    (onJ : Bool → Val → Except Exc α) (onC : ConfigCfg → List Val → CfgVal → Except Exc α) :
    (SPath.withValue L (.dflt cfg st) onD onJ onC).1 = onD cfg st.keys v := by
  unfold SPath.value SPath.withValue at h
  unfold SPath.withValue
  simp only at h ⊢
  rcases hv : SPath.valueDflt L cfg st with ⟨r, st'⟩
  rw [hv] at h
  cases r with
  | error e => cases h
  | ok w => cases h; rfl

theorem config {L : Lib} {cfg : ConfigCfg} {st : PathSt CfgVal} {v : Val}
    (h : (SPath.value L (.config cfg st)).1 = .ok v) : ∃ c : CfgVal, c.toVal = v ∧
      ∀ {α : Type} (onD : DefaultCfg → List Val → Val → Except Exc α)
        (onJ : Bool → Val → Except Exc α) (onC : ConfigCfg → List Val → CfgVal → Except Exc α),
        (SPath.withValue L (.config cfg st) onD onJ onC).1 = onC cfg st.keys c := by
  unfold SPath.value SPath.withValue at h
  simp only at h
  rcases hv : SPath.valueCfg L cfg st with ⟨r, st'⟩
  rw [hv] at h
  cases r with
  | error e => cases h
  | ok w =>
    cases h
    refine ⟨w, rfl, fun onD onJ onC => ?_⟩
    unfold SPath.withValue
    simp only [hv]

theorem counts_native (v : Val) : Counts true v (defaultSequence v) := by
  constructor
  · intro n
    constructor
    · intro h
      cases v <;> simp only [defaultSequence, seqLen?, Except.ok.injEq, reduceCtorEq] at h
      · subst h; exact String.length_toList ▸ .text _ rfl
      · subst h; exact .list _
      · subst h; exact .tuple _
    · rintro (xs | xs | ⟨s, -⟩)
      · rfl
      · rfl
      · exact congrArg Except.ok String.length_toList.symm
  · intro h
    cases v with
    | list xs => exact absurd (.list xs) (h _)
    | tuple xs => exact absurd (.tuple xs) (h _)
    | str s => exact absurd (.text s rfl) (h _)
    | _ => exact ⟨_, rfl⟩

theorem counts_json (v : Val) : Counts false v (jsonSequence v) := by
  constructor
  · intro n
    constructor
    · intro h
      cases v <;> simp only [jsonSequence, Except.ok.injEq, reduceCtorEq] at h
      · subst h; exact .list _
      · subst h; exact .tuple _
    · rintro (xs | xs | ⟨s, h⟩)
      · rfl
      · rfl
      · cases h
  · intro h
    cases v with
    | list xs => exact absurd (.list xs) (h _)
    | tuple xs => exact absurd (.tuple xs) (h _)
    | _ => exact ⟨_, rfl⟩

theorem lists_json (v : Val) : Lists v (jsonMapping v) := by
  constructor
  · rintro kvs rfl
    exact ⟨_, rfl, rfl, rfl⟩
  · intro h
    cases v with
    | dict kvs => exact absurd rfl (h kvs)
    | _ => exact ⟨_, rfl⟩

end Shape

open Shape

variable {L : Lib}

/-- C108, `JsonSource`: at any path, however it was reached, `sequence()` counts the items of what `value` is there; texts
are no sequences, whether the source is strict or not. -/
theorem C108_json_sequence {strict : Bool} {loc : Option String} {st : PathSt Val} {v : Val}
    (h : (SPath.value L (.json strict loc st)).1 = .ok v) : Counts false v (SPath.sequence L (.json strict loc st)).1 := by
  unfold SPath.sequence
  rw [Shape.json h]
  exact counts_json _

/-- C108, `DefaultSource`: the same, but a text is the sequence of its characters. -/
theorem C108_native_sequence {cfg : DefaultCfg} {st : PathSt Val} {v : Val}
    (h : (SPath.value L (.dflt cfg st)).1 = .ok v) : Counts true v (SPath.sequence L (.dflt cfg st)).1 := by
  unfold SPath.sequence
  rw [Shape.native h]
  exact counts_native _

/-- C108, `JsonSource`: `mapping()` lists the keys of what `value` is there. -/
theorem C108_json_mapping {strict : Bool} {loc : Option String} {st : PathSt Val} {v : Val}
    (h : (SPath.value L (.json strict loc st)).1 = .ok v) : Lists v (SPath.mapping L (.json strict loc st)).1 := by
  unfold SPath.mapping
  rw [Shape.json h]
  exact lists_json _

/-- C108, `DefaultSource`: the same below the root, and at the root of a source without aliases. -/
theorem C108_native_mapping {cfg : DefaultCfg} {st : PathSt Val} {v : Val}
    (h : (SPath.value L (.dflt cfg st)).1 = .ok v) (ha : st.keys ≠ [] ∨ cfg.aliases = none ∨ cfg.aliases = some []) :
    Lists v (SPath.mapping L (.dflt cfg st)).1 := by
  unfold SPath.mapping
  rw [Shape.native h]
  have hno : defaultMapping cfg st.keys v = defaultMapping { cfg with aliases := none } st.keys v := by
    unfold defaultMapping
    rcases ha with ha | ha | ha
    · cases hc : cfg.aliases with
      | none => rfl
      | some al => simp [ha]
    · simp [ha]
    · simp [ha]
  rw [hno]
  constructor
  · rintro kvs rfl
    exact ⟨_, rfl, rfl, rfl⟩
  · intro h
    cases v with
    | dict kvs => exact absurd rfl (h kvs)
    | _ => exact ⟨_, rfl⟩

/-- C108, `DefaultSource` with aliases, at its root: of a mapping or a sequence, the keys are the aliases. -/
theorem C108_native_aliases {cfg : DefaultCfg} {st : PathSt Val} {v : Val} {al : List (Val × Val)}
    (h : (SPath.value L (.dflt cfg st)).1 = .ok v) (hk : st.keys = []) (ha : cfg.aliases = some al) (hne : al ≠ [])
    (hv : (∃ kvs, v = .dict kvs) ∨ ∃ n, Sequence true v n) :
    ∃ kv, (SPath.mapping L (.dflt cfg st)).1 = .ok kv ∧ kv.ks = al.map Prod.fst ∧ kv.iterErr = none := by
  unfold SPath.mapping
  rw [Shape.native h]
  have hal : (al.isEmpty) = false := by
    cases al with
    | nil => exact absurd rfl hne
    | cons a al => rfl
  rcases hv with ⟨kvs, rfl⟩ | ⟨n, xs | xs | ⟨s, -⟩⟩ <;> simp [defaultMapping, ha, hk, hal]

/-- C108, `ConfigSource`: at any path with a value that is no text, `sequence()` counts the items of a list or tuple; numbers,
mappings, sections and what is absent are no sequences.  (For texts, see C44.) -/
theorem C108_config_sequence {cfg : ConfigCfg} {st : PathSt CfgVal} {v : Val}
    (h : (SPath.value L (.config cfg st)).1 = .ok v) (hv : ∀ s, v ≠ .str s) :
    Counts false v (SPath.sequence L (.config cfg st)).1 := by
  obtain ⟨c, rfl, hc⟩ := Shape.config h
  unfold SPath.sequence
  rw [hc]
  cases c with
  | val w =>
    cases w with
    | str s => exact absurd rfl (hv s)
    | _ => exact counts_json _
  | root => exact counts_json (.obj 0)
  | sect s d => exact counts_json (.obj 1)

/-- C108, `ConfigSource`: at any path whose value is neither the parser nor a section, `mapping()` lists the keys of a dict, and
nothing else is a mapping.  (For sections, see C30 and C44.) -/
theorem C108_config_mapping {cfg : ConfigCfg} {st : PathSt CfgVal} {v : Val}
    (h : (SPath.value L (.config cfg st)).1 = .ok v) (hv : ∀ i, v ≠ .obj i) :
    Lists v (SPath.mapping L (.config cfg st)).1 := by
  obtain ⟨c, rfl, hc⟩ := Shape.config h
  unfold SPath.mapping
  rw [hc]
  cases c with
  | val w =>
    constructor
    · rintro kvs ⟨⟩
      exact ⟨_, rfl, rfl, rfl⟩
    · intro h
      cases w with
      | dict kvs => exact absurd rfl (h kvs)
      | _ => exact ⟨_, rfl⟩
  | root => exact absurd rfl (hv 0)
  | sect s d => exact absurd rfl (hv 1)

/-! ## Examples -/

section
open Demo

/-- `DefaultSource({'a': 'abc'})` at `a`: three items; `JsonSource('{"a": "abc"}')` at `a`: none. -/
example : (SPath.sequence lib ((SPath.native (.dict [(.str "a", .str "abc")]) none).append (.str "a"))).1 = .ok 3 ∧
    (SPath.sequence lib ((SPath.json false none { root := .dict [(.str "a", .str "abc")], parts := [] }).append (.str "a"))).1 =
      .error (.sourceError "not a sequence") := by
  decide +kernel

example : Counts true (.str "abc") (SPath.sequence lib ((SPath.native (.dict [(.str "a", .str "abc")]) none).append (.str "a"))).1 :=
  C108_native_sequence (by decide +kernel)

example : Counts false (.str "abc")
    (SPath.sequence lib ((SPath.json false none { root := .dict [(.str "a", .str "abc")], parts := [] }).append (.str "a"))).1 :=
  C108_json_sequence (by decide +kernel)

/-- `DefaultSource({'a': {'x': 1}}).mapping()` at `a`. -/
example : Lists (.dict [(.str "x", .int 1)])
    (SPath.mapping lib ((SPath.native (.dict [(.str "a", .dict [(.str "x", .int 1)])]) none).append (.str "a"))).1 :=
  C108_native_mapping (by decide +kernel) (.inr (.inl rfl))

/-- `DefaultSource([5], aliases={'x': 0}).mapping()`. -/
example : ∃ kv, (SPath.mapping lib (SPath.native (.list [.int 5]) (some [(.str "x", .int 0)]))).1 = .ok kv ∧
    kv.ks = [.str "x"] ∧ kv.iterErr = none :=
  C108_native_aliases (L := lib) (cfg := { aliases := some [(.str "x", .int 0)] }) (st := { root := .list [.int 5], parts := [] })
    (v := .list [.int 5]) (al := [(.str "x", .int 0)]) (by decide +kernel) rfl rfl (by simp) (.inr ⟨_, .list _⟩)

example : Lists (.str "abc")
    (SPath.mapping lib ((SPath.json true none { root := .dict [(.str "a", .str "abc")], parts := [] }).append (.str "a"))).1 :=
  C108_json_mapping (by decide +kernel)

/-- `ConfigSource` at a default that is a mapping: no sequence. -/
def mapped : ConfigCfg := { data := { sections := [("s", [("x", "1")])] }, sectionName := some "s",
                            defaults := some [(.str "m", .dict [(.str "k", .int 1)])] }
example : ∃ m, (SPath.sequence lib ((SPath.config mapped { root := mapped.rootVal, parts := [] }).append (.str "m"))).1 =
    .error (.sourceError m) :=
  (C108_config_sequence (L := lib) (cfg := mapped) (st := { root := mapped.rootVal, parts := [Part.ofKey (.str "m")] })
    (v := .dict [(.str "k", .int 1)]) (by decide +kernel) (by intro s h; cases h)).2 (by intro n h; cases h)
example := C108_config_mapping (L := lib) (cfg := mapped) (st := { root := mapped.rootVal, parts := [Part.ofKey (.str "m")] })
    (v := .dict [(.str "k", .int 1)]) (by decide +kernel) (by intro s h; cases h)

end
end Pilo
