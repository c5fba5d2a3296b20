import Verif.Source.Tall

/-!
# What the sources find is smaller than where they look

`Rank` orders the data: what is found under a key is smaller than the container, except for the characters of a string
and for attributes that are no names.  Each resolver of `pilo/source` then takes room from the path with every name.
-/

namespace Pilo

/-- A rank of values that drops with every name. -/
structure Rank (L : Lib) (N : String → Bool) where
  of : Val → Nat
  pos : ∀ v, 1 ≤ of v
  none : of .NONE ≤ 1
  str : ∀ s, of (.str s) ≤ 1
  int : ∀ i, of (.int i) ≤ 1
  float : ∀ x, of (.float x) ≤ 1
  bool : ∀ b, of (.bool b) ≤ 1
  /-- the containers of `pilo/source` that are no data -/
  inner : ∀ i, i ≤ 2 → of (.obj i) ≤ 1
  full : ∀ {kvs}, kvs ≠ [] → 2 ≤ of (.dict kvs)
  /-- a dict of texts -/
  texts : ∀ {kvs}, (∀ p ∈ kvs, p.2.isStr = true) → of (.dict kvs) ≤ 2
  empty : of (.dict []) ≤ 1
  item : ∀ {c k w}, getItem c k = .ok w → w.isNONE = false → c.isStr = false → of w < of c
  attr : ∀ {c s w}, pyGetAttr L c s = some w → w.isNONE = false → of w ≤ of c
  /-- no value has an attribute that is a name, unless the attribute is smaller -/
  attrN : ∀ {c s w}, N s = true → pyGetAttr L c s = some w → w.isNONE = false → of w < of c
  call : ∀ {id w}, L.call id = .ok w → w.isNONE = false → of w ≤ of (.func id)

namespace Rank
variable {L : Lib} {N : String → Bool} (R : Rank L N)

theorem getItem_le {c k w : Val} (h : getItem c k = .ok w) (hw : w.isNONE = false) : R.of w ≤ R.of c := by
  cases hc : c.isStr with
  | false => exact Nat.le_of_lt (R.item h hw hc)
  | true =>
    cases c with
    | str s =>
      have : ∃ t, w = .str t := by
        unfold getItem at h
        dsimp only at h
        split at h
        · split at h
          · cases h; exact ⟨_, rfl⟩
          · cases h
        · cases h
      obtain ⟨t, rfl⟩ := this
      have := R.str t
      have := R.pos (.str s)
      omega
    | _ => cases hc

/-- A string key finds nothing in a string. -/
theorem getItem_name {c w : Val} {s : String} (h : getItem c (.str s) = .ok w) (hw : w.isNONE = false) :
    R.of w < R.of c := by
  refine R.item h hw ?_
  cases c with
  | str t => cases h
  | _ => rfl

theorem asItem_eq {c k w : Val} (h : asItem c k = w) (hw : w.isNONE = false) : getItem c k = .ok w := by
  unfold asItem at h
  cases hg : getItem c k with
  | error e => rw [hg] at h; subst h; cases hw
  | ok v => rw [hg] at h; subst h; rfl

theorem not_none {v : Val} (h : ¬ (!v.isNONE) = true) : v.isNONE = true := by
  cases hv : v.isNONE <;> simp [hv] at h ⊢

variable {cfg : DefaultCfg} {keys : List Val}

theorem asAlias_eq {c k w : Val} (h : asAlias cfg keys c k = w) (hw : w.isNONE = false) :
    cfg.aliases.isSome = true ∧ keys.length = 1 ∧ ∃ a, getItem c a = .ok w := by
  unfold asAlias at h
  cases ha : cfg.aliases with
  | none => rw [ha] at h; subst h; cases hw
  | some al =>
    rw [ha] at h
    dsimp only at h
    split at h
    · rename_i hl
      split at h
      · simp only [Bool.and_eq_true, beq_iff_eq] at hl
        exact ⟨rfl, hl.2, _, asItem_eq h hw⟩
      · subst h; cases hw
    · subst h; cases hw

theorem resolveAtom_le {c k w : Val} (h : resolveAtom L cfg keys c k = w) (hw : w.isNONE = false) :
    R.of w ≤ R.of c := by
  unfold resolveAtom at h
  split at h
  · subst h; cases hw
  · dsimp only at h
    split at h
    · exact R.getItem_le (asItem_eq h hw) hw
    · split at h
      · obtain ⟨-, -, a, ha⟩ := asAlias_eq h hw
        exact R.getItem_le ha hw
      · unfold asAttr at h
        cases k with
        | str s =>
          dsimp only at h
          cases hg : pyGetAttr L c s with
          | none => rw [hg] at h; subst h; cases hw
          | some v => rw [hg] at h; cases h; exact R.attr hg hw
        | _ => subst h; cases hw

/-- Aliases are in force and the container is a string. -/
def Spelled (cfg : DefaultCfg) (keys : List Val) (c : Val) : Prop :=
  cfg.aliases.isSome = true ∧ keys.length = 1 ∧ c.isStr = true

theorem resolveAtom_lt {c w : Val} {s : String} (hs : N s = true) (ha : ¬ Spelled cfg keys c)
    (h : resolveAtom L cfg keys c (.str s) = w) (hw : w.isNONE = false) : R.of w < R.of c := by
  unfold resolveAtom at h
  split at h
  · subst h; cases hw
  · dsimp only at h
    split at h
    · exact R.getItem_name (asItem_eq h hw) hw
    · split at h
      · obtain ⟨h1, h2, a, h3⟩ := asAlias_eq h hw
        refine R.item h3 hw ?_
        cases hc : c.isStr with
        | false => rfl
        | true => exact absurd ⟨h1, h2, hc⟩ ha
      · unfold asAttr at h
        dsimp only at h
        cases hg : pyGetAttr L c s with
        | none => rw [hg] at h; subst h; cases hw
        | some v => rw [hg] at h; cases h; exact R.attrN hs hg hw

theorem resolveAtoms_le (as : List String) : ∀ {c w : Val}, resolveAtoms L cfg keys c as = w → w.isNONE = false →
    R.of w ≤ R.of c := by
  induction as with
  | nil => intro c w h _; cases h; exact Nat.le_refl _
  | cons a as ih =>
    intro c w h hw
    simp only [resolveAtoms] at h
    split at h
    · subst h; cases hw
    · rename_i hn
      exact Nat.le_trans (ih h hw) (R.resolveAtom_le rfl (by simpa using hn))

theorem resolvePlain_le {c w : Val} {s : String} (h : resolvePlain L cfg keys c s = w) (hw : w.isNONE = false) :
    R.of w ≤ R.of c := by
  unfold resolvePlain at h
  dsimp only at h
  split at h
  · exact R.resolveAtoms_le _ h hw
  · exact R.resolveAtom_le h hw

theorem resolvePlain_lt {c w : Val} {s : String} (hs : N s = true) (hd : (dotSplit s).all N = true)
    (ha : ¬ Spelled cfg keys c) (h : resolvePlain L cfg keys c s = w) (hw : w.isNONE = false) : R.of w < R.of c := by
  unfold resolvePlain at h
  dsimp only at h
  split at h
  · obtain ⟨a, as, he⟩ := dotSplit_cons s
    rw [he] at h hd
    simp only [List.all_cons, Bool.and_eq_true] at hd
    simp only [resolveAtoms] at h
    split at h
    · subst h; cases hw
    · rename_i hn
      exact Nat.lt_of_le_of_lt (R.resolveAtoms_le _ h hw) (R.resolveAtom_lt hd.1 ha rfl (by simpa using hn))
  · exact R.resolveAtom_lt hs ha h hw

theorem callVal_le {v w : Val} (h : callVal L v = .ok w) (hw : w.isNONE = false) : R.of w ≤ R.of v := by
  unfold callVal at h
  split at h
  · exact R.call h hw
  · cases h

/-- The key is resolved without its call suffixes, then the calls are made. -/
theorem resolveRev_core {c : Val} (b : Nat) : ∀ (cs : List Char),
    (∀ w, resolvePlain L cfg keys c (String.ofList (coreRev cs).reverse) = w → w.isNONE = false → R.of w ≤ b) →
    ∀ w, resolveRev L cfg keys c cs = .ok w → w.isNONE = false → R.of w ≤ b := by
  intro cs
  induction hn : cs.length using Nat.strongRecOn generalizing cs with
  | ind n ih =>
    intro hp w h hw
    by_cases hc : ∃ rest, cs = ')' :: '(' :: rest
    · obtain ⟨rest, rfl⟩ := hc
      have hi := ih rest.length (by rw [← hn]; simp; omega) rest rfl (by simpa [coreRev] using hp)
      simp only [resolveRev] at h
      cases hr : resolveRev L cfg keys c rest with
      | error e => rw [hr] at h; cases h
      | ok v =>
        rw [hr] at h
        dsimp only at h
        split at h
        · cases h; cases hw
        · rename_i hv
          exact Nat.le_trans (R.callVal_le h hw) (hi v hr (by simpa using hv))
    · have h' : ∀ rest, cs = ')' :: '(' :: rest → False := fun r hr => hc ⟨r, hr⟩
      rw [resolveRev.eq_2 L cfg keys c cs h'] at h
      rw [coreRev.eq_2 cs h'] at hp
      cases h
      exact hp _ rfl hw

theorem resolveDefault_le {c k w : Val} (h : resolveDefault L cfg keys c k = .ok w) (hw : w.isNONE = false) :
    R.of w ≤ R.of c := by
  unfold resolveDefault at h
  split at h
  · exact R.resolveRev_core (R.of c) _ (fun w hp hw => R.resolvePlain_le hp hw) w h hw
  · cases h; exact R.resolveAtom_le rfl hw

theorem resolveDefault_lt {c k w : Val} (hk : named N k = true) (ha : ¬ Spelled cfg keys c)
    (h : resolveDefault L cfg keys c k = .ok w) (hw : w.isNONE = false) : R.of w < R.of c := by
  cases k with
  | str s =>
    unfold named at hk
    simp only [Bool.and_eq_true] at hk
    have hb := R.pos c
    have := R.resolveRev_core (R.of c - 1) s.toList.reverse (fun w hp hw => by
      have := R.resolvePlain_lt hk.1 hk.2 ha hp hw
      omega) w h hw
    omega
  | _ => cases hk

/-- What a `JsonPath` finds. -/
theorem resolveJson_le {c k w : Val} (h : resolveJson c k = w) (hw : w.isNONE = false) :
    R.of w ≤ R.of c ∧ (named N k = true → R.of w < R.of c) := by
  have atoms : ∀ as (c w : Val), jsonAtoms c as = .ok w → w.isNONE = false → R.of w ≤ R.of c := by
    intro as
    induction as with
    | nil => intro c w h _; cases h; exact Nat.le_refl _
    | cons a as ih =>
      intro c w h hw
      simp only [jsonAtoms] at h
      cases hg : getItem c (.str a) with
      | error e => rw [hg] at h; cases h
      | ok v =>
        rw [hg] at h
        dsimp only at h
        cases hv : v.isNONE with
        | true =>
          have hv' : R.of v ≤ 1 := by
            cases v with
            | const x => cases x <;> first | exact R.none | cases hv
            | _ => cases hv
          have := ih v w h hw
          have := R.pos c
          omega
        | false => exact Nat.le_trans (ih v w h hw) (Nat.le_of_lt (R.getItem_name hg hv))
  have atoms' : ∀ a as (c w : Val), jsonAtoms c (a :: as) = .ok w → w.isNONE = false → R.of w < R.of c := by
    intro a as c w h hw
    simp only [jsonAtoms] at h
    cases hg : getItem c (.str a) with
    | error e => rw [hg] at h; cases h
    | ok v =>
      rw [hg] at h
      dsimp only at h
      cases hv : v.isNONE with
      | true =>
        have : v = .NONE := by
          cases v with
          | const x => cases x <;> first | rfl | cases hv
          | _ => cases hv
        subst this
        cases as with
        | nil => cases h; cases hw
        | cons b bs => cases h
      | false => exact Nat.lt_of_le_of_lt (atoms as v w h hw) (R.getItem_name hg hv)
  have key : ∀ s : String, (if hasDot s then jsonAtoms c (dotSplit s) else getItem c (.str s)) = .ok w → R.of w < R.of c := by
    intro s h
    split at h
    · obtain ⟨a, as, he⟩ := dotSplit_cons s
      rw [he] at h
      exact atoms' a as c w h hw
    · exact R.getItem_name h hw
  unfold resolveJson at h
  dsimp only at h
  split at h
  · rename_i v hv
    subst h
    cases k with
    | str s => have := key s hv; exact ⟨Nat.le_of_lt this, fun _ => this⟩
    | _ => exact ⟨R.getItem_le hv hw, fun h => by cases h⟩
  · subst h; cases hw

/-! ### Configurations -/

/-- The rank of what a `ConfigPath` meets (`pilo/source/configparser.py:57-106`). -/
def config (cfg : ConfigCfg) : CfgVal → Nat
  | .val v => R.of v
  | .sect _ df => 1 + max 2 (match df with | some kvs => R.of (.dict kvs) | Option.none => 0)
  | .root => 2 + max 2 (match cfg.defaults with | some kvs => R.of (.dict kvs) | Option.none => 0)

theorem config_pos (cfg : ConfigCfg) (c : CfgVal) : 1 ≤ R.config cfg c := by
  cases c with
  | val v => exact R.pos v
  | sect s df => simp only [config]; omega
  | root => simp only [config]; omega

theorem dictGet_item {kvs : List (Val × Val)} {s : String} {v : Val} (h : dictGet? kvs (.str s) = some v) :
    getItem (.dict kvs) (.str s) = .ok v := by
  unfold getItem
  simp only [Val.hashable, if_true, h]

theorem subMapping_texts {items : List (String × String)} {name : String} {m : List (Val × Val)}
    (h : subMapping L items name = some m) : ∀ p ∈ m, p.2.isStr = true := by
  have set : ∀ (d : List (Val × Val)) (k : Val) (s : String), (∀ p ∈ d, p.2.isStr = true) →
      ∀ p ∈ dictSet d k (.str s), p.2.isStr = true := by
    intro d
    induction d with
    | nil =>
      intro k s _ p hp
      simp only [dictSet, List.mem_singleton] at hp
      subst hp; rfl
    | cons x d ih =>
      intro k s hd p hp
      obtain ⟨k', v'⟩ := x
      simp only [dictSet] at hp
      split at hp
      · rcases List.mem_cons.1 hp with h | h
        · subst h; rfl
        · exact hd p (by simp [h])
      · rcases List.mem_cons.1 hp with h | h
        · subst h; exact hd _ (by simp)
        · exact ih k s (fun p hp => hd p (by simp [hp])) p h
  have fold : ∀ (hits : List (String × String)) (d : List (Val × Val)), (∀ p ∈ d, p.2.isStr = true) →
      ∀ p ∈ hits.foldl (fun d kv => dictSet d (.str kv.1) (.str kv.2)) d, p.2.isStr = true := by
    intro hits
    induction hits with
    | nil => intro d hd; exact hd
    | cons x hits ih => intro d hd; exact ih _ (set d _ _ hd)
  unfold subMapping at h
  dsimp only at h
  split at h
  · cases h
  · cases h
    exact fold _ [] (by intro p hp; cases hp)

theorem cfgGet_le {cfg : ConfigCfg} {c w : CfgVal} {k : Val} (h : cfgGet L cfg c k = .ok w) (hw : w.isNONE = false) :
    R.config cfg w ≤ R.config cfg c ∧ (named N k = true → R.config cfg w < R.config cfg c) := by
  have lt : R.config cfg w < R.config cfg c → R.config cfg w ≤ R.config cfg c ∧
      (named N k = true → R.config cfg w < R.config cfg c) := fun h => ⟨Nat.le_of_lt h, fun _ => h⟩
  cases c with
  | root =>
    refine lt ?_
    unfold cfgGet cfgRootGet at h
    dsimp only at h
    split at h
    · split at h
      · cases hd : cfg.defaults with
        | none => rw [hd] at h; cases h
        | some df =>
          rw [hd] at h
          dsimp only at h
          split at h
          · rename_i s _ kvs hg
            cases h
            have := R.item (dictGet_item hg) rfl rfl
            simp only [config, hd]
            omega
          · cases h
            simp only [config]
            omega
      · cases h
    · cases h
  | sect s df =>
    refine lt ?_
    unfold cfgGet at h
    dsimp only at h
    cases hg : sectionGet L cfg.data s df k with
    | error e => rw [hg] at h; cases h
    | ok v =>
      rw [hg] at h
      cases h
      simp only [config]
      unfold sectionGet at hg
      split at hg
      · rename_i t
        split at hg
        · rename_i m hm
          cases hg
          have := R.texts (subMapping_texts hm)
          omega
        · split at hg
          · rename_i x _
            cases hg
            have := R.str x.2
            omega
          · split at hg
            · cases hg
            · split at hg
              · rename_i v' hv'
                cases hg
                have := R.item (dictGet_item hv') hw rfl
                dsimp only
                omega
              · cases hg
      · cases hg
  | val v =>
    have gi : ∀ {v : Val}, (match getItem v k with
        | .ok w => (.ok (.val w) : Except Exc CfgVal)
        | .error e => .error e) = .ok w → R.config cfg w ≤ R.of v ∧ (named N k = true → R.config cfg w < R.of v) := by
      intro v h
      cases hg : getItem v k with
      | error e => rw [hg] at h; cases h
      | ok x =>
        rw [hg] at h
        cases h
        refine ⟨R.getItem_le hg hw, fun hk => ?_⟩
        cases k with
        | str s => exact R.getItem_name hg hw
        | _ => cases hk
    cases v with
    | str s =>
      unfold cfgGet at h
      dsimp only at h
      split at h
      · cases h
      · split at h
        · rename_i i hi
          split at h
          · rename_i t _
            cases h
            refine ⟨?_, fun hk => ?_⟩
            · have := R.str t
              have := R.pos (.str s)
              simp only [config]
              omega
            · cases k with
              | str s => cases hi
              | _ => cases hk
          · cases h
        · cases h
    | _ => exact gi h

theorem resolveConfig_le {cfg : ConfigCfg} {c w : CfgVal} {k : Val} (h : resolveConfig L cfg c k = .ok w)
    (hw : w.isNONE = false) :
    R.config cfg w ≤ R.config cfg c ∧ (named N k = true → R.config cfg w < R.config cfg c) := by
  unfold resolveConfig at h
  split at h
  · rename_i hg; cases h; exact R.cfgGet_le hg hw
  · cases h; cases hw
  · cases h; cases hw
  · cases h; cases hw
  · cases h

end Rank
end Pilo
