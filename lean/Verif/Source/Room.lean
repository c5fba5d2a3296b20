import Verif.Source.Rank

/-!
# The room of default, JSON and config paths
-/

namespace Pilo

variable {L : Lib} {N : String → Bool} (R : Rank L N)

/-- The container is the root, or it is `NONE`, or it has at most the room that is left. -/
def InRoom {C : Type} (N : String → Bool) (r : C → Nat) (isN : C → Bool) (root : C) (b : Nat) (ks : List Val) (c : C) :
    Prop :=
  (ks = [] → c = root) ∧ (ks ≠ [] → isN c = true ∨ r c ≤ room N b ks)

theorem InRoom.root {C : Type} {r : C → Nat} {isN : C → Bool} {root : C} {b : Nat} : InRoom N r isN root b [] root :=
  ⟨fun _ => rfl, fun h => absurd rfl h⟩

theorem InRoom.le {C : Type} {r : C → Nat} {isN : C → Bool} {root c : C} {b : Nat} {ks : List Val}
    (h : InRoom N r isN root b ks c) (hb : r root ≤ b) (hc : isN c = false) : r c ≤ room N b ks := by
  by_cases hk : ks = []
  · rw [h.1 hk, hk]; exact hb
  · rcases h.2 hk with h1 | h1
    · rw [hc] at h1; cases h1
    · exact h1

/-- A resolver that takes room with every name keeps the invariant. -/
theorem InRoom.steps {C : Type} {r : C → Nat} {isN : C → Bool} {root : C} {b : Nat}
    {res : List Val → C → Val → Except Exc C} (hpos : ∀ c, 1 ≤ r c) (hnone : ∀ c, isN c = true → r c ≤ 1)
    (hb : r root ≤ b)
    (hle : ∀ keys c k w, res keys c k = .ok w → isN w = false → r w ≤ r c)
    (hlt : ∀ keys pre post c k w, keys = pre ++ k :: post → named N k = true → res keys c k = .ok w → isN w = false →
      InRoom N r isN root b pre c → r w < r c ∨ (pre = [] ∧ r root < b)) :
    PathSt.Steps (InRoom N r isN root b) (fun _ : Unit => True) (fun ks _ c k => (res ks c k, ())) where
  state := fun _ => trivial
  value := by
    intro keys pre post _ c k w _ hk hc hw
    refine ⟨fun h => by simp at h, fun _ => ?_⟩
    cases hn : isN w with
    | true => exact .inl rfl
    | false =>
      right
      rw [room_snoc]
      have h1 := hle keys c k w hw hn
      have hcb : isN c = true ∨ r c ≤ room N b pre := by
        cases hcn : isN c with
        | true => exact .inl rfl
        | false => exact .inr (hc.le hb hcn)
      cases hnm : named N k with
      | false =>
        rw [nextRoom_other hnm]
        rcases hcb with h | h
        · have := hnone c h; omega
        · omega
      | true =>
        rw [nextRoom_named hnm]
        rcases hlt keys pre post c k w hk hnm hw hn hc with h | ⟨h, h'⟩
        · have := hpos w
          rcases hcb with h2 | h2
          · have := hnone c h2; omega
          · omega
        · subst h
          rw [hc.1 rfl] at h1
          show r w ≤ b - 1
          omega

namespace SPath

/-- What is left to read at the root of the source. -/
def base : SPath → Nat
  | .dflt cfg st => R.of st.root + (if cfg.aliases.isSome && st.root.isStr then 1 else 0)
  | .json _ _ st => R.of st.root
  | .config cfg st => R.config cfg st.root

/-- Everything cached has at most the room that is left. -/
def Lasting : SPath → Prop
  | .dflt cfg st => PathSt.Lasts (InRoom N R.of Val.isNONE st.root
      (R.of st.root + (if cfg.aliases.isSome && st.root.isStr then 1 else 0))) st
  | .json _ _ st => PathSt.Lasts (InRoom N R.of Val.isNONE st.root (R.of st.root)) st
  | .config cfg st => PathSt.Lasts (InRoom N (R.config cfg) CfgVal.isNONE st.root (R.config cfg st.root)) st

theorem none_le {v : Val} (h : v.isNONE = true) : R.of v ≤ 1 := by
  cases v with
  | const c => cases c <;> first | exact R.none | cases h
  | _ => cases h

theorem dflt_steps (cfg : DefaultCfg) (root : Val) :
    PathSt.Steps (InRoom N R.of Val.isNONE root (R.of root + (if cfg.aliases.isSome && root.isStr then 1 else 0)))
      (fun _ : Unit => True) (fun ks _ c k => (resolveDefault L cfg ks c k, ())) := by
  refine InRoom.steps R.pos (fun c h => none_le R h) (Nat.le_add_right _ _) ?_ ?_
  · intro keys c k w h hw
    exact R.resolveDefault_le h hw
  · intro keys pre post c k w hk hn h hw hc
    by_cases hs : Rank.Spelled cfg keys c
    · right
      obtain ⟨h1, h2, h3⟩ := hs
      have hp : pre = [] := by
        rw [hk] at h2
        cases pre with
        | nil => rfl
        | cons x pre => simp at h2
      refine ⟨hp, ?_⟩
      rw [hc.1 hp] at h3
      simp [h1, h3]
    · exact .inl (R.resolveDefault_lt hn hs h hw)

theorem json_steps (root : Val) :
    PathSt.Steps (InRoom N R.of Val.isNONE root (R.of root)) (fun _ : Unit => True)
      (fun _ (_ : Unit) c k => (.ok (resolveJson c k), ())) := by
  refine InRoom.steps (res := fun _ c k => .ok (resolveJson c k)) R.pos (fun c h => none_le R h) (Nat.le_refl _) ?_ ?_
  · intro keys c k w h hw
    cases h
    exact (R.resolveJson_le rfl hw).1
  · intro keys pre post c k w hk hn h hw hc
    cases h
    exact .inl ((R.resolveJson_le rfl hw).2 hn)

theorem config_steps (cfg : ConfigCfg) (top : CfgVal) :
    PathSt.Steps (InRoom N (R.config cfg) CfgVal.isNONE top (R.config cfg top)) (fun _ : Unit => True)
      (fun _ (_ : Unit) c k => (resolveConfig L cfg c k, ())) := by
  refine InRoom.steps (res := fun _ c k => resolveConfig L cfg c k) (R.config_pos cfg) ?_ (Nat.le_refl _) ?_ ?_
  · intro c h
    cases c with
    | val v => exact none_le R h
    | _ => cases h
  · intro keys c k w h hw
    exact (R.resolveConfig_le h hw).1
  · intro keys pre post c k w hk hn h hw hc
    exact .inl ((R.resolveConfig_le h hw).2 hn)

/-- Reading keeps the bound, and what is read is within it. -/
theorem withValue_lasting {α : Type} {p : SPath} (hp : p.Lasting R)
    (a : DefaultCfg → List Val → Val → Except Exc α) (b : Bool → Val → Except Exc α)
    (c : ConfigCfg → List Val → CfgVal → Except Exc α) :
    (p.withValue L a b c).2.Lasting R ∧ (p.withValue L a b c).2.base R = p.base R ∧
    ∀ x, (p.withValue L a b c).1 = .ok x →
      match p with
      | .dflt cfg st => ∃ v, a cfg st.keys v = .ok x ∧ (v.isNONE = false → R.of v ≤ room N (p.base R) p.keys)
      | .json s _ _ => ∃ v, b s v = .ok x ∧ (v.isNONE = false → R.of v ≤ room N (p.base R) p.keys)
      | .config cfg st => ∃ v, c cfg st.keys v = .ok x ∧
          (v.isNONE = false → R.config cfg v ≤ room N (p.base R) p.keys) := by
  cases p with
  | dflt cfg st =>
    obtain ⟨-, h1, h2, h3⟩ := PathSt.value_lasts (isN := Val.isNONE) (dflt_steps R cfg st.root) (s := ()) trivial hp
    have h4 := fun w hw hn => (h3 w hw hn).le (Nat.le_add_right _ _) hn
    have e : valueDflt L cfg st = ((PathSt.value (fun ks (_ : Unit) c k => (resolveDefault L cfg ks c k, ()))
      Val.isNONE () st).1, (PathSt.value (fun ks (_ : Unit) c k => (resolveDefault L cfg ks c k, ()))
      Val.isNONE () st).2.2) := rfl
    simp only [withValue, e]
    generalize PathSt.value (fun ks (_ : Unit) c k => (resolveDefault L cfg ks c k, ())) Val.isNONE () st = r at *
    obtain ⟨r, u, st'⟩ := r
    dsimp only at h1 h2 h4 ⊢
    rw [← h2] at h1
    cases r with
    | error e => exact ⟨h1, by simp only [base, h2], by intro x hx; cases hx⟩
    | ok v => exact ⟨h1, by simp only [base, h2], fun x hx => ⟨v, hx, fun hn => h4 v rfl hn⟩⟩
  | json s l st =>
    obtain ⟨-, h1, h2, h3⟩ := PathSt.value_lasts (isN := Val.isNONE) (json_steps R st.root) (s := ()) trivial hp
    have h4 := fun w hw hn => (h3 w hw hn).le (Nat.le_refl _) hn
    have e : valueJson st = ((PathSt.value (fun _ (_ : Unit) c k => (.ok (resolveJson c k), ()))
      Val.isNONE () st).1, (PathSt.value (fun _ (_ : Unit) c k => (.ok (resolveJson c k), ()))
      Val.isNONE () st).2.2) := rfl
    simp only [withValue, e]
    generalize PathSt.value (fun _ (_ : Unit) c k => (.ok (resolveJson c k), ())) Val.isNONE () st = r at *
    obtain ⟨r, u, st'⟩ := r
    dsimp only at h1 h2 h4 ⊢
    rw [← h2] at h1
    cases r with
    | error e => exact ⟨h1, by simp only [base, h2], by intro x hx; cases hx⟩
    | ok v => exact ⟨h1, by simp only [base, h2], fun x hx => ⟨v, hx, fun hn => h4 v rfl hn⟩⟩
  | config cfg st =>
    obtain ⟨-, h1, h2, h3⟩ := PathSt.value_lasts (isN := CfgVal.isNONE) (config_steps R cfg st.root) (s := ()) trivial hp
    have h4 := fun w hw hn => (h3 w hw hn).le (Nat.le_refl _) hn
    have e : valueCfg L cfg st = ((PathSt.value (fun _ (_ : Unit) c k => (resolveConfig L cfg c k, ()))
      CfgVal.isNONE () st).1, (PathSt.value (fun _ (_ : Unit) c k => (resolveConfig L cfg c k, ()))
      CfgVal.isNONE () st).2.2) := rfl
    simp only [withValue, e]
    generalize PathSt.value (fun _ (_ : Unit) c k => (resolveConfig L cfg c k, ())) CfgVal.isNONE () st = r at *
    obtain ⟨r, u, st'⟩ := r
    dsimp only at h1 h2 h4 ⊢
    rw [← h2] at h1
    cases r with
    | error e => exact ⟨h1, by simp only [base, h2], by intro x hx; cases hx⟩
    | ok v => exact ⟨h1, by simp only [base, h2], fun x hx => ⟨v, hx, fun hn => h4 v rfl hn⟩⟩

theorem native_lasting (v : Val) (al : Option (List (Val × Val))) : (native v al).Lasting R :=
  ⟨InRoom.root, by intro pre q post w h; simp at h⟩

theorem append_lasting {p : SPath} (h : p.Lasting R) (k : Val) :
    (p.append k).Lasting R ∧ (p.append k).base R = p.base R := by
  cases p <;> exact ⟨PathSt.Lasts.append h k, rfl⟩

theorem pop_lasting {p q : SPath} (h : p.Lasting R) (hq : p.pop = .ok q) : q.Lasting R ∧ q.base R = p.base R := by
  cases p with
  | dflt cfg st =>
    simp only [pop] at hq
    cases hp : st.pop with
    | error e => rw [hp] at hq; cases hq
    | ok st' =>
      rw [hp] at hq; cases hq
      obtain ⟨h1, h2⟩ := PathSt.Lasts.pop h hp
      rw [← h2] at h1
      exact ⟨h1, by simp only [base, h2]⟩
  | json s l st =>
    simp only [pop] at hq
    cases hp : st.pop with
    | error e => rw [hp] at hq; cases hq
    | ok st' =>
      rw [hp] at hq; cases hq
      obtain ⟨h1, h2⟩ := PathSt.Lasts.pop h hp
      rw [← h2] at h1
      exact ⟨h1, by simp only [base, h2]⟩
  | config cfg st =>
    simp only [pop] at hq
    cases hp : st.pop with
    | error e => rw [hp] at hq; cases hq
    | ok st' =>
      rw [hp] at hq; cases hq
      obtain ⟨h1, h2⟩ := PathSt.Lasts.pop h hp
      rw [← h2] at h1
      exact ⟨h1, by simp only [base, h2]⟩

/-- Where something exists there is room left. -/
theorem exists_room {p : SPath} (hp : p.Lasting R) (h : (p.exists_ L).1 = .ok true) : 1 ≤ room N (p.base R) p.keys := by
  have := (withValue_lasting R hp _ _ _).2.2 true h
  cases p with
  | dflt cfg st =>
    obtain ⟨v, h1, h2⟩ := this
    simp only [Except.ok.injEq, Bool.not_eq_true'] at h1
    exact Nat.le_trans (R.pos v) (h2 h1)
  | json s l st =>
    obtain ⟨v, h1, h2⟩ := this
    simp only [Except.ok.injEq, Bool.not_eq_true'] at h1
    exact Nat.le_trans (R.pos v) (h2 h1)
  | config cfg st =>
    obtain ⟨v, h1, h2⟩ := this
    simp only [Except.ok.injEq, Bool.not_eq_true'] at h1
    exact Nat.le_trans (R.config_pos cfg v) (h2 h1)

/-- What is read has at most the room that is left. -/
theorem value_room {p : SPath} (hp : p.Lasting R) {v : Val} (h : (p.value L).1 = .ok v) :
    v.isNONE = true ∨ R.of v ≤ room N (p.base R) p.keys := by
  have := (withValue_lasting R hp _ _ _).2.2 v h
  cases hn : v.isNONE with
  | true => exact .inl rfl
  | false =>
    right
    cases p with
    | dflt cfg st =>
      obtain ⟨w, h1, h2⟩ := this
      cases h1
      exact h2 hn
    | json s l st =>
      obtain ⟨w, h1, h2⟩ := this
      cases h1
      exact h2 hn
    | config cfg st =>
      obtain ⟨w, h1, h2⟩ := this
      simp only [Except.ok.injEq] at h1
      have hp := R.config_pos cfg w
      cases w with
      | root => subst h1; have := h2 rfl; have := R.inner 0 (by omega); simp only [CfgVal.toVal]; omega
      | sect s d => subst h1; have := h2 rfl; have := R.inner 1 (by omega); simp only [CfgVal.toVal]; omega
      | val x => subst h1; exact h2 hn

/-- No aliases: what is listed is there. -/
def Unaliased : SPath → Prop
  | .dflt cfg _ => cfg.aliases = none
  | _ => True

/-- Below a mapping that lists a key there is something. -/
theorem mapping_room {p : SPath} (hp : p.Lasting R) (ha : p.Unaliased) {kv : KeysView} (h : (p.mapping L).1 = .ok kv)
    {k : Val} (hk : k ∈ kv.ks) : 2 ≤ room N (p.base R) p.keys := by
  have := (withValue_lasting R hp _ _ _).2.2 kv h
  have full : ∀ kvs : List (Val × Val), k ∈ kvs.map Prod.fst → 2 ≤ R.of (.dict kvs) := by
    intro kvs hm
    refine R.full ?_
    rintro rfl
    simp at hm
  cases p with
  | dflt cfg st =>
    obtain ⟨v, h1, h2⟩ := this
    simp only [Unaliased] at ha
    simp only [defaultMapping, ha] at h1
    cases v with
    | dict kvs =>
      cases h1
      exact Nat.le_trans (full kvs hk) (h2 rfl)
    | _ => cases h1
  | json s l st =>
    obtain ⟨v, h1, h2⟩ := this
    cases v with
    | dict kvs =>
      cases h1
      exact Nat.le_trans (full kvs hk) (h2 rfl)
    | _ => cases h1
  | config cfg st =>
    obtain ⟨v, h1, h2⟩ := this
    cases v with
    | root => have := h2 rfl; simp only [Rank.config] at this; omega
    | sect s d => have := h2 rfl; simp only [Rank.config] at this; omega
    | val v =>
      cases v with
      | dict kvs =>
        cases h1
        exact Nat.le_trans (full kvs hk) (h2 rfl)
      | _ => cases h1

/-- A parsed value is what was there, or a text or number. -/
theorem primitive_room {p : SPath} (hp : p.Lasting R) {ty : PTy} {v : Val} (h : (p.primitive L ty).1 = .ok v) :
    v.isNONE = true ∨ R.of v ≤ max 1 (room N (p.base R) p.keys) := by
  have := (withValue_lasting R hp _ _ _).2.2 v h
  have str := R.str
  have int := R.int
  have flt := R.float
  have bool := R.bool
  have fi : ∀ i v, floatInt L i = .ok v → R.of v ≤ 1 := by
    intro i v h
    unfold floatInt at h
    split at h
    · cases h; exact flt _
    · cases h
  have native : ∀ ty w v, parseNative L ty w = .ok v → v = w ∨ R.of v ≤ 1 := by
    intro ty w v h
    cases ty with
    | auto => cases h; exact .inl rfl
    | str =>
      simp only [parseNative, asString] at h
      split at h <;> first | (cases h; exact .inr (str _)) | cases h
    | int =>
      simp only [parseNative, asInt] at h
      repeat' split at h
      all_goals first | (cases h; exact .inr (int _)) | cases h
    | float =>
      simp only [parseNative, asFloat] at h
      repeat' split at h
      all_goals first | exact .inr (fi _ _ h) | (cases h; exact .inr (flt _)) | cases h
    | bool =>
      simp only [parseNative, asBool] at h
      repeat' split at h
      all_goals first | (cases h; exact .inr (bool _)) | cases h
  have json : ∀ s ty w v, parseJson L s ty w = .ok v → v = w ∨ R.of v ≤ 1 := by
    intro s ty w v h
    cases ty with
    | auto => cases h; exact .inl rfl
    | str =>
      simp only [parseJson, jsonString] at h
      repeat' split at h
      all_goals first | (cases h; exact .inr (str _)) | cases h
    | int =>
      simp only [parseJson, jsonInt] at h
      repeat' split at h
      all_goals first | (cases h; exact .inr (int _)) | cases h
    | float =>
      simp only [parseJson, jsonFloat] at h
      repeat' split at h
      all_goals first | exact .inr (fi _ _ h) | (cases h; exact .inr (flt _)) | cases h
    | bool =>
      simp only [parseJson, jsonBool] at h
      repeat' split at h
      all_goals first | (cases h; exact .inr (bool _)) | cases h
  cases hn : v.isNONE with
  | true => exact .inl rfl
  | false =>
    right
    cases p with
    | dflt cfg st =>
      obtain ⟨w, h1, h2⟩ := this
      rcases native ty w v h1 with rfl | h
      · have := h2 hn; omega
      · omega
    | json s l st =>
      obtain ⟨w, h1, h2⟩ := this
      rcases json s ty w v h1 with rfl | h
      · have := h2 hn; omega
      · omega
    | config cfg st =>
      obtain ⟨w, h1, h2⟩ := this
      have hx : v = w.toVal ∨ R.of v ≤ 1 := by
        unfold cfgPrimitive at h1
        split at h1
        · cases h1
        · rename_i x hx
          have := native ty _ _ hx
          repeat' split at h1
          all_goals first | (cases h1; first | exact .inr (str _) | exact this) | cases h1
      rcases hx with rfl | h
      · cases w with
        | root => have := R.inner 0 (by omega); simp only [CfgVal.toVal]; omega
        | sect s d => have := R.inner 1 (by omega); simp only [CfgVal.toVal]; omega
        | val x =>
          have := h2 hn
          simp only [Rank.config] at this
          simp only [CfgVal.toVal]
          omega
      · omega

theorem withValue_unaliased {α : Type} {p : SPath} (hp : p.Unaliased)
    (a : DefaultCfg → List Val → Val → Except Exc α) (b : Bool → Val → Except Exc α)
    (c : ConfigCfg → List Val → CfgVal → Except Exc α) : (p.withValue L a b c).2.Unaliased := by
  cases p with
  | dflt cfg st => simp only [withValue]; split <;> exact hp
  | json s l st => simp only [withValue]; split <;> trivial
  | config cfg st => simp only [withValue]; split <;> trivial

theorem base_pos (p : SPath) : 1 ≤ p.base R := by
  cases p with
  | dflt cfg st => exact Nat.le_trans (R.pos st.root) (Nat.le_add_right _ _)
  | json s l st => exact R.pos _
  | config cfg st => exact R.config_pos cfg _

/-- Changing one index for another. -/
theorem shiftLast_lasts {C : Type} {r : C → Nat} {isN : C → Bool} {root : C} {b : Nat} {st : PathSt C}
    (h : PathSt.Lasts (InRoom N r isN root b) st) (o : Nat) :
    PathSt.Lasts (InRoom N r isN root b) (Pilo.shiftLast st o) ∧ (Pilo.shiftLast st o).root = st.root ∧
    (Pilo.shiftLast st o).keys.map (named N) = st.keys.map (named N) := by
  unfold Pilo.shiftLast
  cases hr : st.parts.reverse with
  | nil => exact ⟨h, rfl, rfl⟩
  | cons q rest =>
    have hp : st.parts = rest.reverse ++ [q] := by
      have := congrArg List.reverse hr; simpa using this
    dsimp only
    cases hi : q.key.index? with
    | none => exact ⟨h, rfl, rfl⟩
    | some i =>
      dsimp only
      have hq : named N q.key = false := by
        cases hk : q.key <;> rw [hk] at hi <;> first | rfl | cases hi
      have hj : ∀ j, named N (.int j) = false := fun _ => rfl
      have h1 := h.parts
      rw [hp] at h1
      refine ⟨⟨h.root, ?_⟩, rfl, ?_⟩
      · simp only [List.reverse_cons]
        refine h1.init.snoc ?_
        intro v hv
        have h2 := h1 rest.reverse q [] v (by simp) hv
        refine ⟨fun h => by simp at h, fun _ => ?_⟩
        rw [room_congr (ls := rest.reverse.map Part.key ++ [q.key]) (by simp [hq, hj])]
        exact h2.2 (by simp)
      · simp [PathSt.keys, hp, hq, hj]

theorem shiftLast_lasting {p : SPath} (h : p.Lasting R) (o : Nat) :
    (p.shiftLast o).Lasting R ∧ (p.shiftLast o).base R = p.base R ∧
    (p.shiftLast o).keys.map (named N) = p.keys.map (named N) := by
  cases p with
  | dflt cfg st =>
    obtain ⟨h1, h2, h3⟩ := shiftLast_lasts h o
    rw [← h2] at h1
    exact ⟨h1, by simp only [shiftLast, base, h2], h3⟩
  | json s l st =>
    obtain ⟨h1, h2, h3⟩ := shiftLast_lasts h o
    rw [← h2] at h1
    exact ⟨h1, by simp only [shiftLast, base, h2], h3⟩
  | config cfg st =>
    obtain ⟨h1, h2, h3⟩ := shiftLast_lasts h o
    rw [← h2] at h1
    exact ⟨h1, by simp only [shiftLast, base, h2], h3⟩

end SPath
end Pilo
