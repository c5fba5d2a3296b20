import Verif.Says
import Verif.Source.Lawful

/-!
# Sources that hold no sentinels

`Clean v`: plain data.  Paths of default, JSON and config sources over clean data satisfy `Sane`.
-/

namespace Pilo

/-- Plain data: no `pilo` sentinel and no live form anywhere, and no `None` or sentinel among the keys of
a mapping. -/
inductive Clean : Val → Prop where
  | none : Clean .none
  | bool (b : Bool) : Clean (.bool b)
  | int (i : Int) : Clean (.int i)
  | float (x : Num) : Clean (.float x)
  | decimal (x : Num) : Clean (.decimal x)
  | str (s : String) : Clean (.str s)
  | ext (ty : ExtTy) (n : Int) : Clean (.ext ty n)
  | func (id : Nat) : Clean (.func id)
  | obj (id : Nat) : Clean (.obj id)
  | list {xs : List Val} (h : ∀ x ∈ xs, Clean x) : Clean (.list xs)
  | tuple {xs : List Val} (h : ∀ x ∈ xs, Clean x) : Clean (.tuple xs)
  | dict {kvs : List (Val × Val)} (hk : Keyable kvs) (h : ∀ p ∈ kvs, Clean p.2) : Clean (.dict kvs)

/-- What reading a clean source gives: clean data, or `NONE` when there is nothing. -/
def Found (v : Val) : Prop := Clean v ∨ v = .NONE

/-- Attributes and results of calls are clean as well. -/
structure CleanLib (L : Lib) : Prop where
  attrs : ∀ v s w, Found v → L.attrs v s = some w → Found w
  call : ∀ id v, L.call id = .ok v → Clean v

theorem Found.NONE : Found .NONE := .inr rfl

theorem Found.notMark {v : Val} (h : Found v) : v.isMark = false := by
  rcases h with h | rfl
  · cases h <;> rfl
  · rfl

theorem dictGet_mem {kvs : List (Val × Val)} {k v : Val} (h : dictGet? kvs k = some v) :
    ∃ p ∈ kvs, p.2 = v := by
  unfold dictGet? at h
  split at h
  · rename_i p hp
    cases h
    exact ⟨p, List.mem_of_find?_eq_some hp, rfl⟩
  · cases h

theorem seqGet_mem {α : Type} {xs : List α} {i : Int} {x : α} (h : seqGet? xs i = some x) : x ∈ xs := by
  unfold seqGet? at h
  split at h
  · exact List.mem_of_getElem? h
  · split at h
    · exact List.mem_of_getElem? h
    · cases h

theorem Clean.getItem {c k v : Val} (hc : Found c) (h : getItem c k = .ok v) : Clean v := by
  rcases hc with hc | rfl
  · cases hc with
    | list hx =>
      unfold Pilo.getItem at h
      dsimp only at h
      split at h
      · split at h
        · rename_i hs; cases h; exact hx _ (seqGet_mem hs)
        · cases h
      · cases h
    | tuple hx =>
      unfold Pilo.getItem at h
      dsimp only at h
      split at h
      · split at h
        · rename_i hs; cases h; exact hx _ (seqGet_mem hs)
        · cases h
      · cases h
    | str s =>
      unfold Pilo.getItem at h
      dsimp only at h
      split at h
      · split at h
        · cases h; exact .str _
        · cases h
      · cases h
    | dict _ hx =>
      unfold Pilo.getItem at h
      dsimp only at h
      split at h
      · split at h
        · rename_i hs
          cases h
          obtain ⟨p, hp, rfl⟩ := dictGet_mem hs
          exact hx p hp
        · cases h
      · cases h
    | _ => cases h
  · cases h

theorem Found.asItem {c k : Val} (hc : Found c) : Found (asItem c k) := by
  unfold Pilo.asItem
  split
  · rename_i v h; exact .inl (.getItem hc h)
  · exact .NONE

section
variable {L : Lib} (hL : CleanLib L)
include hL

theorem Found.resolveAtom (cfg : DefaultCfg) (ks : List Val) {c : Val} (k : Val) (hc : Found c) :
    Found (resolveAtom L cfg ks c k) := by
  have hal : Found (asAlias cfg ks c k) := by
    unfold asAlias
    split
    · split
      · split
        · exact hc.asItem
        · exact .NONE
      · exact .NONE
    · exact .NONE
  have hat : Found (asAttr L c k) := by
    unfold asAttr
    cases k with
    | str s =>
      unfold pyGetAttr
      have hL' : Found ((L.attrs c s).getD .NONE) := by
        cases ha : L.attrs c s with
        | none => exact .NONE
        | some w => exact hL.attrs c s w hc ha
      cases c with
      | const cc =>
        dsimp only
        split
        · exact .inl (.str _)
        · exact hL'
      | _ => exact hL'
    | _ => exact .NONE
  unfold Pilo.resolveAtom
  dsimp only
  split
  · exact .NONE
  · split
    · exact hc.asItem
    · split
      · exact hal
      · exact hat

theorem Found.resolveAtoms (cfg : DefaultCfg) (ks : List Val) (as : List String) : ∀ {c : Val}, Found c →
    Found (resolveAtoms L cfg ks c as) := by
  induction as with
  | nil => intro c hc; exact hc
  | cons a as ih =>
    intro c hc
    unfold Pilo.resolveAtoms
    dsimp only
    split
    · exact .NONE
    · exact ih (Found.resolveAtom hL cfg ks _ hc)

theorem Found.resolveRev (cfg : DefaultCfg) (ks : List Val) {c : Val} (hc : Found c) (cs : List Char) :
    ∀ v, resolveRev L cfg ks c cs = .ok v → Found v := by
  fun_induction Pilo.resolveRev L cfg ks c cs with
  | case1 rest e he ih => intro v h; cases h
  | case2 rest w hw hn ih => intro v h; cases h; exact .NONE
  | case3 rest w hw hn ih =>
    intro v h
    unfold callVal at h
    split at h
    · exact .inl (hL.call _ _ h)
    · cases h
  | case4 cs hcs =>
    intro v h
    cases h
    unfold resolvePlain
    dsimp only
    split
    · exact Found.resolveAtoms hL cfg ks _ hc
    · exact Found.resolveAtom hL cfg ks _ hc

theorem Found.resolveDefault (cfg : DefaultCfg) (ks : List Val) {c k v : Val} (hc : Found c)
    (h : resolveDefault L cfg ks c k = .ok v) : Found v := by
  unfold Pilo.resolveDefault at h
  split at h
  · exact Found.resolveRev hL cfg ks hc _ v h
  · cases h; exact Found.resolveAtom hL cfg ks _ hc

end

theorem Found.jsonAtoms (as : List String) : ∀ {c v : Val}, Found c → jsonAtoms c as = .ok v → Found v := by
  induction as with
  | nil => intro c v hc h; cases h; exact hc
  | cons a as ih =>
    intro c v hc h
    unfold Pilo.jsonAtoms at h
    split at h
    · cases h
    · rename_i w hw; exact ih (.inl (.getItem hc hw)) h

theorem Found.resolveJson {c : Val} (k : Val) (hc : Found c) : Found (resolveJson c k) := by
  unfold Pilo.resolveJson
  dsimp only
  split
  · rename_i v h
    split at h
    · split at h
      · exact Found.jsonAtoms _ hc h
      · exact .inl (.getItem hc h)
    · exact .inl (.getItem hc h)
  · exact .NONE

/-! ### The cache -/

namespace PathSt
variable {C : Type}

/-- The root and every cached value satisfy `G`. -/
def Holds (G : C → Prop) (p : PathSt C) : Prop :=
  G p.root ∧ ∀ q ∈ p.parts, ∀ v, q.cache = some v → G v

theorem Holds.append {G : C → Prop} {p : PathSt C} (h : p.Holds G) (k : Val) : (p.append k).Holds G := by
  refine ⟨h.1, ?_⟩
  intro q hq v hv
  rcases List.mem_append.1 hq with hq | hq
  · exact h.2 q hq v hv
  · simp only [List.mem_singleton] at hq
    subst hq
    cases hv

theorem Holds.pop {G : C → Prop} {p q : PathSt C} (h : p.Holds G) (hq : p.pop = .ok q) : q.Holds G := by
  unfold PathSt.pop at hq
  cases hr : p.parts.reverse with
  | nil => rw [hr] at hq; cases hq
  | cons a rest =>
    rw [hr] at hq
    cases hq
    refine ⟨h.1, ?_⟩
    intro x hx v hv
    refine h.2 x ?_ v hv
    have : x ∈ p.parts.reverse := by
      rw [hr]
      exact List.mem_cons_of_mem _ (by simpa using hx)
    simpa using this

theorem scan_mem (l : List (Part C)) {i : Nat} {v : C} (h : scan l = .ok (some (i, v))) :
    ∃ q ∈ l, q.cache = some v := by
  have := scan_spec' l
  rw [h] at this
  exact this
where
  scan_spec' (l : List (Part C)) : match scan l with
      | .ok (some (_, v)) => ∃ q ∈ l, q.cache = some v
      | _ => True := by
    induction l with
    | nil => simp [scan]
    | cons p l ih =>
      unfold scan
      cases p.raw with
      | true => simp
      | false =>
        simp only [Bool.false_eq_true, if_false]
        cases hc : p.cache with
        | some v => exact ⟨p, by simp, hc⟩
        | none =>
          simp only
          cases hs : scan l with
          | error e => trivial
          | ok o =>
            rw [hs] at ih
            cases o with
            | none => trivial
            | some x =>
              obtain ⟨i, v⟩ := x
              obtain ⟨q, hq, h⟩ := ih
              exact ⟨q, by simp [hq], h⟩

variable {σ : Type} {J : σ → Prop} {G : C → Prop} {R : List Val → σ → C → Val → Except Exc C × σ}
  {isN : C → Bool}

theorem fill_holds (hR : ∀ ks s c k, J s → G c → J (R ks s c k).2 ∧ ∀ v, (R ks s c k).1 = .ok v → G v)
    (ks : List Val) (ps : List (Part C)) : ∀ (s : σ) (c : C), J s → G c →
    (∀ q ∈ ps, ∀ v, q.cache = some v → G v) →
    (∀ v, (fill R isN ks s c ps).1 = .ok v → G v) ∧ J (fill R isN ks s c ps).2.1 ∧
      ∀ q ∈ (fill R isN ks s c ps).2.2, ∀ v, q.cache = some v → G v := by
  induction ps with
  | nil =>
    intro s c hj hc _
    refine ⟨(by intro v h; cases h; exact hc), hj, by intro q hq; cases hq⟩
  | cons p ps ih =>
    intro s c hj hc hps
    have hrest : ∀ q ∈ ps, ∀ v, q.cache = some v → G v := fun q hq => hps q (by simp [hq])
    have h1 := hR ks s c p.key hj hc
    unfold fill
    rcases hr : R ks s c p.key with ⟨r, s'⟩
    rw [hr] at h1
    cases r with
    | error e => exact ⟨(by intro v h; cases h), h1.1, hps⟩
    | ok w =>
      have hw : G w := h1.2 w rfl
      dsimp only
      split
      · refine ⟨(by intro v h; cases h; exact hw), h1.1, ?_⟩
        intro q hq v hv
        rcases List.mem_cons.1 hq with rfl | hq
        · cases hv; exact hw
        · exact hrest q hq v hv
      · obtain ⟨h1, h2, h3⟩ := ih s' w h1.1 hw hrest
        refine ⟨h1, h2, ?_⟩
        intro q hq v hv
        rcases List.mem_cons.1 hq with rfl | hq
        · cases hv; exact hw
        · exact h3 q hq v hv

theorem value_holds (hR : ∀ ks s c k, J s → G c → J (R ks s c k).2 ∧ ∀ v, (R ks s c k).1 = .ok v → G v)
    (s : σ) (hj : J s) {p : PathSt C} (h : p.Holds G) :
    (∀ v, (value R isN s p).1 = .ok v → G v) ∧ (value R isN s p).2.2.Holds G ∧
      J (value R isN s p).2.1 := by
  unfold value
  cases hs : scan p.parts.reverse with
  | error e => exact ⟨(by intro v h; cases h), h, hj⟩
  | ok o =>
    cases o with
    | none =>
      obtain ⟨h1, h2, h3⟩ := fill_holds (isN := isN) hR p.keys p.parts s p.root hj h.1 h.2
      exact ⟨h1, ⟨h.1, h3⟩, h2⟩
    | some x =>
      obtain ⟨i, v⟩ := x
      obtain ⟨q, hq, hv⟩ := scan_mem _ hs
      have hq' : q ∈ p.parts := by simpa using hq
      obtain ⟨h1, h2, h3⟩ := fill_holds (isN := isN) hR p.keys (p.parts.drop i) s v hj (h.2 q hq' v hv)
        (fun q hq => h.2 q (List.mem_of_mem_drop hq))
      refine ⟨h1, ⟨h.1, ?_⟩, h2⟩
      intro q hq w hw
      rcases List.mem_append.1 hq with hq | hq
      · exact h.2 q (List.mem_of_mem_take hq) w hw
      · exact h3 q hq w hw

theorem Holds.setValue {G : C → Prop} {p : PathSt C} (h : p.Holds G) {v : C} (hv : G v) :
    (p.setValue v).Holds G := by
  unfold PathSt.setValue
  split
  · exact ⟨hv, h.2⟩
  · rename_i q rest hr
    refine ⟨h.1, ?_⟩
    intro x hx w hw
    simp only [List.reverse_cons, List.mem_append, List.mem_reverse, List.mem_singleton] at hx
    rcases hx with hx | rfl
    · refine h.2 x ?_ w hw
      have : x ∈ p.parts.reverse := by rw [hr]; exact List.mem_cons_of_mem _ hx
      simpa using this
    · cases hw; exact hv

end PathSt

/-! ### Config -/

/-- Clean defaults. -/
def CleanDict : Option (List (Val × Val)) → Prop
  | none => True
  | some kvs => Keyable kvs ∧ ∀ p ∈ kvs, Clean p.2

/-- Containers met on a config path. -/
def FoundC : CfgVal → Prop
  | .root => True
  | .sect _ d => CleanDict d
  | .val v => Found v

theorem subMapping_clean {L : Lib} {items : List (String × String)} {name : String}
    {m : List (Val × Val)} (h : subMapping L items name = some m) : Clean (.dict m) := by
  unfold subMapping at h
  dsimp only at h
  split at h
  · cases h
  · cases h
    generalize items.filterMap _ = hits
    suffices ∀ d : List (Val × Val), Clean (.dict d) →
        Clean (.dict (hits.foldl (fun d kv => dictSet d (.str kv.1) (.str kv.2)) d)) from
      this [] (.dict (by intro kv h; cases h) (by intro kv h; cases h))
    induction hits with
    | nil => intro d hd; exact hd
    | cons a l ih =>
      intro d hd
      refine ih _ ?_
      cases hd with
      | dict hk hv =>
        constructor
        · intro x hx
          rcases dictSet_key hx with h | ⟨y, hy, hyk⟩
          · rw [h]; exact ⟨rfl, rfl, rfl⟩
          · rw [← hyk]; exact hk y hy
        · clear hk ih
          induction d with
          | nil =>
            intro x hx
            simp only [dictSet, List.mem_singleton] at hx
            rw [hx]; exact .str _
          | cons b d ihd =>
            obtain ⟨k', v'⟩ := b
            intro x hx
            dsimp only at hx
            unfold dictSet at hx
            split at hx
            · rcases List.mem_cons.1 hx with rfl | hx
              · exact .str _
              · exact hv x (by simp [hx])
            · rcases List.mem_cons.1 hx with rfl | hx
              · exact hv (k', v') (by simp)
              · exact ihd (fun p hp => hv p (by simp [hp])) x hx

theorem FoundC.resolve {L : Lib} {cfg : ConfigCfg} (hd : CleanDict cfg.defaults) {c w : CfgVal} {k : Val}
    (hc : FoundC c) (h : resolveConfig L cfg c k = .ok w) : FoundC w := by
  have hget : ∀ w, cfgGet L cfg c k = .ok w → FoundC w := by
    intro w h
    cases c with
    | root =>
      unfold cfgGet cfgRootGet at h
      cases k with
      | str s =>
        dsimp only at h
        split at h
        · cases hdf : cfg.defaults with
          | none => rw [hdf] at h; cases h
          | some df =>
            rw [hdf] at h hd
            dsimp only at h
            split at h
            · rename_i kvs hg
              cases h
              obtain ⟨p, hp, hpe⟩ := dictGet_mem hg
              have := hd.2 p hp
              rw [hpe] at this
              cases this with
              | dict h1 h2 => exact ⟨h1, h2⟩
            · cases h; trivial
        · cases h
      | _ => cases h
    | sect s d =>
      unfold cfgGet at h
      dsimp only at h
      split at h
      · rename_i v hv
        cases h
        unfold sectionGet at hv
        cases k with
        | str key =>
          dsimp only at hv
          split at hv
          · rename_i m hm
            cases hv
            exact .inl (subMapping_clean hm)
          · split at hv
            · cases hv; exact .inl (.str _)
            · split at hv
              · cases hv
              · split at hv
                · rename_i df _ v' hg
                  cases hv
                  obtain ⟨p, hp, rfl⟩ := dictGet_mem hg
                  exact .inl (hc.2 p hp)
                · cases hv
        | _ => cases hv
      · cases h
    | val v =>
      have main : (match getItem v k with
          | .ok w => (.ok (CfgVal.val w) : Except Exc CfgVal)
          | .error e => .error e) = .ok w → FoundC w := by
        intro h
        split at h
        · rename_i x hx; cases h; exact .inl (.getItem hc hx)
        · cases h
      cases v with
      | str s =>
        unfold cfgGet at h
        dsimp only at h
        split at h
        · cases h
        · split at h
          · split at h
            · cases h; exact .inl (.str _)
            · cases h
          · cases h
      | _ => exact main h
  unfold resolveConfig at h
  split at h
  · rename_i v hv; cases h; exact hget _ hv
  · cases h; exact .NONE
  · cases h; exact .NONE
  · cases h; exact .NONE
  · cases h

/-! ### Paths -/

/-- Keys of a mapping. -/
def KeyList (ks : List Val) : Prop := ∀ k ∈ ks, k.isNull = false ∧ k.isMark = false ∧ k.hashable = true

/-- A path over clean data. -/
def SPath.Clean : SPath → Prop
  | .dflt cfg st => (∀ al, cfg.aliases = some al → Keyable al) ∧ st.Holds Found
  | .json _ _ st => st.Holds Found
  | .config cfg st => CleanDict cfg.defaults ∧ st.Holds FoundC

theorem Clean.keyable {kvs : List (Val × Val)} (h : Found (.dict kvs)) : Keyable kvs := by
  rcases h with h | h
  · cases h with | dict h _ => exact h
  · cases h

theorem FoundC.toVal {c : CfgVal} (h : FoundC c) : Found c.toVal := by
  cases c with
  | root => exact .inl (.obj _)
  | sect _ _ => exact .inl (.obj _)
  | val v => exact h

theorem SPath.native_clean {v : Val} {al : Option (List (Val × Val))} (hv : Found v)
    (ha : ∀ a, al = some a → Keyable a) : (SPath.native v al).Clean :=
  ⟨ha, hv, by intro q hq; cases hq⟩

section
variable {L : Lib} (hL : CleanLib L)
include hL

theorem SPath.Clean.withValue {α : Type} {p : SPath} (h : p.Clean)
    {onD : DefaultCfg → List Val → Val → Except Exc α} {onJ : Bool → Val → Except Exc α}
    {onC : ConfigCfg → List Val → CfgVal → Except Exc α} {post : α → Prop}
    (hD : ∀ cfg ks v a, (∀ al, cfg.aliases = some al → Keyable al) → Found v → onD cfg ks v = .ok a → post a)
    (hJ : ∀ s v a, Found v → onJ s v = .ok a → post a)
    (hC : ∀ cfg ks c a, FoundC c → onC cfg ks c = .ok a → post a) :
    (p.withValue L onD onJ onC).2.Clean ∧ ∀ a, (p.withValue L onD onJ onC).1 = .ok a → post a := by
  cases p with
  | dflt cfg st =>
    have hv := PathSt.value_holds (G := Found) (isN := Val.isNONE)
      (R := fun ks (_ : Unit) c k => (Pilo.resolveDefault L cfg ks c k, ()))
      (J := fun _ => True)
      (fun ks _ c k _ hc => ⟨trivial, fun v hr => Found.resolveDefault hL cfg ks hc hr⟩) () trivial h.2
    unfold SPath.withValue SPath.valueDflt
    rcases hx : PathSt.value (fun ks (_ : Unit) c k => (Pilo.resolveDefault L cfg ks c k, ()))
      Val.isNONE () st with ⟨r, u, st'⟩
    rw [hx] at hv
    dsimp only at hv ⊢
    rw [hx]
    dsimp only
    cases r with
    | error e => exact ⟨⟨h.1, hv.2.1⟩, by intro a ha; cases ha⟩
    | ok v => exact ⟨⟨h.1, hv.2.1⟩, fun a ha => hD cfg _ v a h.1 (hv.1 v rfl) ha⟩
  | json s l st =>
    have hv := PathSt.value_holds (G := Found) (isN := Val.isNONE)
      (R := fun _ (_ : Unit) c k => (.ok (Pilo.resolveJson c k), ()))
      (J := fun _ => True)
      (fun ks _ c k _ hc => ⟨trivial, fun v hr => by cases hr; exact Found.resolveJson k hc⟩) () trivial h
    unfold SPath.withValue SPath.valueJson
    rcases hx : PathSt.value (fun _ (_ : Unit) c k => (.ok (Pilo.resolveJson c k), ()))
      Val.isNONE () st with ⟨r, u, st'⟩
    rw [hx] at hv
    dsimp only at hv ⊢
    rw [hx]
    dsimp only
    cases r with
    | error e => exact ⟨hv.2.1, by intro a ha; cases ha⟩
    | ok v => exact ⟨hv.2.1, fun a ha => hJ s v a (hv.1 v rfl) ha⟩
  | config cfg st =>
    have hv := PathSt.value_holds (G := FoundC) (isN := CfgVal.isNONE)
      (R := fun _ (_ : Unit) c k => (Pilo.resolveConfig L cfg c k, ()))
      (J := fun _ => True)
      (fun ks _ c k _ hc => ⟨trivial, fun v hr => FoundC.resolve h.1 hc hr⟩) () trivial h.2
    unfold SPath.withValue SPath.valueCfg
    rcases hx : PathSt.value (fun _ (_ : Unit) c k => (Pilo.resolveConfig L cfg c k, ()))
      CfgVal.isNONE () st with ⟨r, u, st'⟩
    rw [hx] at hv
    dsimp only at hv ⊢
    rw [hx]
    dsimp only
    cases r with
    | error e => exact ⟨⟨h.1, hv.2.1⟩, by intro a ha; cases ha⟩
    | ok v => exact ⟨⟨h.1, hv.2.1⟩, fun a ha => hC cfg _ v a (hv.1 v rfl) ha⟩

theorem SPath.Clean.keep {α : Type} {p : SPath} (h : p.Clean)
    {onD : DefaultCfg → List Val → Val → Except Exc α} {onJ : Bool → Val → Except Exc α}
    {onC : ConfigCfg → List Val → CfgVal → Except Exc α} : (p.withValue L onD onJ onC).2.Clean :=
  (h.withValue hL (post := fun _ => True) (fun _ _ _ _ _ _ _ => trivial) (fun _ _ _ _ _ => trivial)
    fun _ _ _ _ _ _ => trivial).1

omit hL in
theorem parseNative_clean {ty : PTy} {v w : Val} (hv : Found v) (h : parseNative L ty v = .ok w) :
    Found w := by
  unfold parseNative at h
  split at h
  · unfold asString at h; split at h <;> cases h; exact .inl (.str _)
  · unfold asInt at h
    repeat' split at h
    all_goals first | (cases h; done) | (cases h; exact .inl (by constructor))
  · unfold asFloat floatInt at h
    repeat' split at h
    all_goals first | (cases h; done) | (cases h; exact .inl (by constructor))
  · unfold asBool at h
    repeat' split at h
    all_goals first | (cases h; done) | (cases h; exact .inl (by constructor))
  · cases h; exact hv

omit hL in
theorem parseJson_clean {strict : Bool} {ty : PTy} {v w : Val} (hv : Found v)
    (h : parseJson L strict ty v = .ok w) : Found w := by
  unfold parseJson at h
  split at h
  · unfold jsonString at h
    repeat' split at h
    all_goals first | (cases h; done) | (cases h; exact .inl (by constructor))
  · unfold jsonInt at h
    repeat' split at h
    all_goals first | (cases h; done) | (cases h; exact .inl (by constructor))
  · unfold jsonFloat floatInt at h
    repeat' split at h
    all_goals first | (cases h; done) | (cases h; exact .inl (by constructor))
  · unfold jsonBool at h
    repeat' split at h
    all_goals first | (cases h; done) | (cases h; exact .inl (by constructor))
  · cases h; exact hv

omit hL in
theorem cfgPrimitive_clean {cfg : ConfigCfg} {ks : List Val} {ty : PTy} {c : CfgVal} {w : Val}
    (hc : FoundC c) (h : SPath.cfgPrimitive L cfg ks ty c = .ok w) : Found w := by
  unfold SPath.cfgPrimitive at h
  split at h
  · cases h
  · rename_i v hv
    have := parseNative_clean (FoundC.toVal hc) hv
    split at h
    · split at h
      · split at h
        · cases h
        · cases h; exact .inl (.str _)
      · cases h; exact .inl (.str _)
    · cases h; exact this


theorem SPath.Clean.primitive {p : SPath} {ty : PTy} (h : p.Clean) :
    (SPath.primitive L ty p).2.Clean ∧ ∀ v, (SPath.primitive L ty p).1 = .ok v → Found v :=
  h.withValue hL (post := Found)
    (fun _ _ _ _ _ hf hr => parseNative_clean hf hr) (fun _ _ _ hf hr => parseJson_clean hf hr)
    fun _ _ _ _ hf hr => cfgPrimitive_clean hf hr

theorem SPath.Clean.mapping {p : SPath} (h : p.Clean) :
    (SPath.mapping L p).2.Clean ∧ ∀ kv, (SPath.mapping L p).1 = .ok kv → KeyList kv.ks := by
  refine h.withValue hL (post := fun kv : KeysView => KeyList kv.ks) ?_ ?_ ?_
  · intro cfg ks v kv hal hf hm
    unfold defaultMapping at hm
    have hks : ∀ ksn, (match cfg.aliases with
        | some al => if (!al.isEmpty && ks.length == 0) = true then some (al.map Prod.fst) else none
        | none => none) = some ksn → ∀ k ∈ ksn, k.isNull = false ∧ k.isMark = false ∧ k.hashable = true := by
      intro ksn hk k hmem
      split at hk
      · rename_i al hal'
        split at hk
        · cases hk
          obtain ⟨x, hx, rfl⟩ := List.mem_map.1 hmem
          exact hal al hal' x hx
        · cases hk
      · cases hk
    dsimp only at hm
    split at hm
    · rename_i heq; cases hm; exact hks _ heq
    · cases hm
      intro k hk
      obtain ⟨x, hx, rfl⟩ := List.mem_map.1 hk
      exact Clean.keyable hf x hx
    · rename_i heq; cases hm; exact hks _ heq
    · rename_i heq; cases hm; exact hks _ heq
    · rename_i heq; cases hm; exact hks _ heq
    · cases hm
  · intro s v kv hf hm
    unfold jsonMapping at hm
    split at hm
    · cases hm
      intro k hk
      obtain ⟨x, hx, rfl⟩ := List.mem_map.1 hk
      exact Clean.keyable hf x hx
    · cases hm
  · intro cfg ks c kv hf hm
    unfold cfgMapping at hm
    split at hm
    · cases hm
      intro k hk
      obtain ⟨x, hx, rfl⟩ := List.mem_map.1 hk
      exact ⟨rfl, rfl, rfl⟩
    · cases hm
      intro k hk
      obtain ⟨x, hx, rfl⟩ := List.mem_map.1 hk
      exact ⟨rfl, rfl, rfl⟩
    · cases hm
      intro k hk
      obtain ⟨x, hx, rfl⟩ := List.mem_map.1 hk
      exact Clean.keyable hf x hx
    · cases hm

omit hL in
theorem SPath.Clean.append {p : SPath} (h : p.Clean) (k : Val) : (p.append k).Clean := by
  cases p with
  | dflt cfg st => exact ⟨h.1, h.2.append k⟩
  | json s l st => exact PathSt.Holds.append h k
  | config cfg st => exact ⟨h.1, h.2.append k⟩

omit hL in
theorem SPath.Clean.pop {p q : SPath} (h : p.Clean) (hq : p.pop = .ok q) : q.Clean := by
  unfold SPath.pop at hq
  cases p with
  | dflt cfg st =>
    dsimp only at hq
    split at hq
    · rename_i st' hs; cases hq; exact ⟨h.1, h.2.pop hs⟩
    · cases hq
  | json s l st =>
    dsimp only at hq
    split at hq
    · rename_i st' hs; cases hq; exact PathSt.Holds.pop h hs
    · cases hq
  | config cfg st =>
    dsimp only at hq
    split at hq
    · rename_i st' hs; cases hq; exact ⟨h.1, h.2.pop hs⟩
    · cases hq

theorem SPath.Clean.value {p : SPath} (h : p.Clean) :
    (SPath.value L p).2.Clean ∧ ∀ v, (SPath.value L p).1 = .ok v → Found v :=
  h.withValue hL (post := Found) (fun _ _ _ _ _ hf hr => by cases hr; exact hf)
    (fun _ _ _ hf hr => by cases hr; exact hf) fun _ _ _ _ hf hr => by cases hr; exact FoundC.toVal hf

/-- Default, JSON and config sources over clean data. -/
def SPath.sane : Sane (SPath.ops L) where
  Q := SPath.Clean
  append h hq := by cases hq; exact h.append _
  pop h hq := h.pop hq
  value h := (h.value hL).1
  exists_ h := h.keep hL
  isNull h := h.keep hL
  mapping := by
    intro p h
    have h := (h.mapping hL).1
    show (SPath.someKeys (SPath.mapping L p)).2.Clean
    unfold SPath.someKeys
    split <;> rename_i hm <;> · rw [hm] at h; exact h
  sequence h := h.keep hL
  primitive h := (h.primitive hL).1
  read h hv := ((h.primitive hL).2 _ hv).notMark
  keys := by
    intro p kv h hk
    refine (h.mapping hL).2 kv ?_
    have hk : (SPath.someKeys (SPath.mapping L p)).1 = .ok (some kv) := hk
    unfold SPath.someKeys at hk
    split at hk
    · rename_i k' p' hm; cases hk; rw [hm]
    · cases hk
  join := by intro p q _ h; cases h
  empty := SPath.native_clean (.inl (.dict (by intro kv h; cases h) (by intro kv h; cases h)))
    (by intro al h; cases h)
  again h hv := SPath.native_clean ((h.value hL).2 _ hv) (by intro al h; cases h)
  positional h hv hal := SPath.native_clean ((h.value hL).2 _ hv) (by intro al' h; cases h; exact hal)

end

/-! ### Union paths -/

/-- Containers met on a union path. -/
def FoundU : UVal → Prop
  | .join _ => True
  | .mapping ms => ∀ m ∈ ms, KeyList m.2
  | .seq _ => True
  | .val v => Found v

/-- Clean children. -/
def Kids (kids : List SPath) : Prop := ∀ k ∈ kids, k.Clean

structure UPath.Clean (p : UPath) : Prop where
  st : p.st.Holds FoundU
  kids : Kids p.kids

theorem Kids.set {kids : List SPath} (h : Kids kids) (i : Nat) {p : SPath} (hp : p.Clean) :
    Kids (kids.set i p) := by
  intro k hk
  rcases List.mem_or_eq_of_mem_set hk with hk | rfl
  · exact h k hk
  · exact hp

theorem Kids.onChild {α : Type} {kids : List SPath} (h : Kids kids) (i : Nat)
    {f : SPath → Except Exc α × SPath} {post : α → Prop}
    (hf : ∀ p : SPath, p.Clean → (f p).2.Clean ∧ ∀ a, (f p).1 = .ok a → post a) :
    Kids (onChild kids i f).2 ∧ ∀ a, (onChild kids i f).1 = .ok a → post a := by
  unfold Pilo.onChild
  cases hk : kids[i]? with
  | none => exact ⟨h, by intro a ha; cases ha⟩
  | some p =>
    have := hf p (h p (List.mem_of_getElem? hk))
    exact ⟨h.set i this.1, this.2⟩

theorem SPath.Clean.shiftLast {p : SPath} (h : p.Clean) (o : Nat) : (p.shiftLast o).Clean := by
  have main : ∀ {C : Type} {G : C → Prop} {st : PathSt C}, st.Holds G → (Pilo.shiftLast st o).Holds G := by
    intro C G st h
    unfold Pilo.shiftLast
    split
    · exact h
    · rename_i q rest hr
      split
      · refine ⟨h.1, ?_⟩
        intro x hx w hw
        simp only [List.reverse_cons, List.mem_append, List.mem_reverse, List.mem_singleton] at hx
        have hmem : ∀ y ∈ q :: rest, y ∈ st.parts := by
          intro y hy
          have : y ∈ st.parts.reverse := by rw [hr]; exact hy
          simpa using this
        rcases hx with hx | rfl
        · exact h.2 x (hmem x (by simp [hx])) w hw
        · exact h.2 q (hmem q (by simp)) w hw
      · exact h
  cases p with
  | dflt cfg st => exact ⟨h.1, main h.2⟩
  | json s l st => exact main h
  | config cfg st => exact ⟨h.1, main h.2⟩

theorem FoundU.get {c : UVal} (hc : FoundU c) (k : Val) {kids : List SPath} (h : Kids kids) :
    Kids (unionGet c k kids).2 ∧ ∀ v, (unionGet c k kids).1 = .ok v → FoundU v := by
  cases c with
  | join cs => exact ⟨h, by intro v hv; cases hv⟩
  | mapping ms =>
    refine ⟨h, ?_⟩
    intro v hv
    unfold unionGet mappingGet at hv
    dsimp only at hv
    split at hv
    · cases hv
    · cases hv; trivial
  | seq ss =>
    unfold unionGet seqGet
    dsimp only
    split
    · exact ⟨h, by intro v hv; cases hv⟩
    · split
      · exact ⟨h, by intro v hv; cases hv⟩
      · split
        · exact ⟨h, by intro v hv; cases hv⟩
        · rename_i p hp
          split
          · exact ⟨h.set _ ((h p (List.mem_of_getElem? hp)).shiftLast _), by intro v hv; cases hv; trivial⟩
          · exact ⟨h, by intro v hv; cases hv⟩
  | val w =>
    unfold unionGet
    dsimp only
    split
    · rename_i x hx
      exact ⟨h, by intro v hv; cases hv; exact .inl (.getItem hc hx)⟩
    · exact ⟨h, by intro v hv; cases hv⟩

theorem FoundU.resolve {c : UVal} (hc : FoundU c) (k : Val) {kids : List SPath} (h : Kids kids) :
    Kids (resolveUnion c k kids).2 ∧ ∀ v, (resolveUnion c k kids).1 = .ok v → FoundU v := by
  have := hc.get k h
  unfold resolveUnion
  rcases hg : unionGet c k kids with ⟨r, kids'⟩
  rw [hg] at this
  cases r with
  | ok v => exact this
  | error e => exact ⟨this.1, by intro v hv; cases hv; exact .NONE⟩

theorem UPath.Clean.uvalue {p : UPath} (h : p.Clean) :
    p.uvalue.2.Clean ∧ ∀ v, p.uvalue.1 = .ok v → FoundU v := by
  have := PathSt.value_holds (J := Kids) (G := FoundU) (isN := UVal.isNONE)
    (R := fun _ kids c k => resolveUnion c k kids) (fun ks s c k hs hc => hc.resolve k hs) p.kids h.kids h.st
  exact ⟨⟨this.2.1, this.2.2⟩, this.1⟩

theorem FoundU.toVal {v : UVal} (h : FoundU v) : Found (UPath.toVal v) := by
  cases v with
  | val v => exact h
  | _ => exact .inl (.obj _)

section
variable {L : Lib} (hL : CleanLib L)
include hL

theorem mappingLoop_clean {merge : Merge} (cs : List Nat) : ∀ {acc : List (Nat × List Val)} {kids : List SPath},
    (∀ m ∈ acc, KeyList m.2) → Kids kids →
    Kids (mappingLoop L merge cs acc kids).2 ∧
      ∀ ms, (mappingLoop L merge cs acc kids).1 = .ok ms → ∀ m ∈ ms, KeyList m.2 := by
  induction cs with
  | nil =>
    intro acc kids ha hk
    exact ⟨hk, by intro ms h; cases h; exact ha⟩
  | cons i cs ih =>
    intro acc kids ha hk
    have hsnoc : ∀ {j : Nat} {ks : List Val}, KeyList ks → ∀ m ∈ acc ++ [(j, ks)], KeyList m.2 := by
      intro j ks h m hm
      rcases List.mem_append.1 hm with hm | hm
      · exact ha m hm
      · simp only [List.mem_singleton] at hm
        subst hm; exact h
    have hone : ∀ {j : Nat} {ks : List Val}, KeyList ks → ∀ m ∈ [(j, ks)], KeyList m.2 := by
      intro j ks h m hm
      simp only [List.mem_singleton] at hm
      subst hm; exact h
    unfold mappingLoop
    have h1 := hk.onChild i (f := SPath.exists_ L) (post := fun _ => True)
      fun p hp => ⟨hp.keep hL, fun _ _ => trivial⟩
    rcases he : onChild kids i (SPath.exists_ L) with ⟨r1, kids1⟩
    rw [he] at h1
    rcases r1 with e | _ | _
    · exact ⟨h1.1, by intro ms h; cases h⟩
    · exact ih ha h1.1
    · have h2 := h1.1.onChild i (f := SPath.isNull L) (post := fun _ => True)
        fun p hp => ⟨hp.keep hL, fun _ _ => trivial⟩
      dsimp only at h2 ⊢
      rcases hn : onChild kids1 i (SPath.isNull L) with ⟨r2, kids2⟩
      rw [hn] at h2
      have h3 := h2.1.onChild i (f := SPath.mapping L) (post := fun kv => KeyList kv.ks)
        fun p hp => hp.mapping hL
      cases r2 with
      | error e => exact ⟨h2.1, by intro ms h; cases h⟩
      | ok nl =>
        dsimp only at h3 ⊢
        rcases hm : onChild kids2 i (SPath.mapping L) with ⟨r3, kids3⟩
        rw [hm] at h3
        cases r3 with
        | error e =>
          dsimp only
          split
          · split
            · exact ⟨h2.1, by intro ms h; cases h; exact ha⟩
            · exact ⟨h3.1, by intro ms h; cases h⟩
          · split
            · exact ih ha h2.1
            · exact ⟨h3.1, by intro ms h; cases h⟩
        | ok kv =>
          have hkv := h3.2 kv rfl
          dsimp only
          split
          · split
            · exact ⟨h2.1, by intro ms h; cases h; exact ha⟩
            · exact ⟨h3.1, by intro ms h; cases h; exact hsnoc hkv⟩
          · split
            · exact ih ha h2.1
            · split
              · exact ih (hsnoc hkv) h3.1
              · split
                · exact ih (hsnoc hkv) h3.1
                · split
                  · exact ih (hone hkv) h3.1
                  · exact ih ha h3.1

theorem mkMapping_clean {cfg : UnionCfg} {merge : Option Merge} (cs : List Nat) {kids : List SPath}
    (hk : Kids kids) : Kids (mkMapping L cfg merge cs kids).2 ∧
      ∀ ms, (mkMapping L cfg merge cs kids).1 = .ok ms → FoundU (.mapping ms) := by
  unfold mkMapping
  dsimp only
  split
  · exact ⟨hk, by intro ms h; cases h⟩
  · exact mappingLoop_clean hL cs (by intro m hm; cases hm) hk

theorem sequenceLoop_clean {cfg : UnionCfg} (cs : List Nat) : ∀ {merge : Option Merge}
    {acc : List (Nat × Nat)} {kids : List SPath}, Kids kids →
    Kids (sequenceLoop L cfg cs merge acc kids).2 := by
  induction cs with
  | nil => intro merge acc kids hk; exact hk
  | cons i cs ih =>
    intro merge acc kids hk
    unfold sequenceLoop
    have h1 := hk.onChild i (f := SPath.exists_ L) (post := fun _ => True)
      fun p hp => ⟨hp.keep hL, fun _ _ => trivial⟩
    rcases he : onChild kids i (SPath.exists_ L) with ⟨r1, kids1⟩
    rw [he] at h1
    rcases r1 with e | _ | _
    · exact h1.1
    · exact ih h1.1
    · have h2 := h1.1.onChild i (f := SPath.isNull L) (post := fun _ => True)
        fun p hp => ⟨hp.keep hL, fun _ _ => trivial⟩
      dsimp only at h2 ⊢
      rcases hn : onChild kids1 i (SPath.isNull L) with ⟨r2, kids2⟩
      rw [hn] at h2
      have h3 := h2.1.onChild i (f := SPath.sequence L) (post := fun _ => True)
        fun p hp => ⟨hp.keep hL, fun _ _ => trivial⟩
      rcases r2 with e | _ | _
      · exact h2.1
      · dsimp only at h3 ⊢
        rcases hm : onChild kids2 i (SPath.sequence L) with ⟨r3, kids3⟩
        rw [hm] at h3
        cases r3 with
        | error e => exact h3.1
        | ok n =>
          dsimp only
          split
          · exact ih h3.1
          · split
            · exact ih h3.1
            · exact ih h3.1
            · exact ih h3.1
            · exact h3.1
      · exact ih h2.1

theorem UPath.Clean.mapping {p : UPath} (h : p.Clean) :
    (UPath.mapping L p).2.Clean ∧ ∀ kv, (UPath.mapping L p).1 = .ok kv → KeyList kv.ks := by
  have hkeys : ∀ ms : List (Nat × List Val), FoundU (.mapping ms) → KeyList (mappingKeys ms) := by
    intro ms hms k hk
    have hd : ∀ (l : List Val) (k : Val), k ∈ dedup l → k ∈ l := by
      intro l
      induction l with
      | nil => intro k h; exact h
      | cons a l ih =>
        intro k h
        unfold dedup at h
        rcases List.mem_cons.1 h with rfl | h
        · simp
        · exact List.mem_cons_of_mem _ (ih k (List.mem_filter.1 h).1)
    obtain ⟨m, hm, hkm⟩ := List.mem_flatMap.1 (hd _ k hk)
    exact hms m hm k hkm
  have hu := h.uvalue
  unfold UPath.mapping
  rcases hx : p.uvalue with ⟨r, p'⟩
  rw [hx] at hu
  cases r with
  | error e => exact ⟨hu.1, by intro kv h; cases h⟩
  | ok v =>
    cases v with
    | join cs =>
      dsimp only
      have hm := mkMapping_clean hL (cfg := p'.cfg) (merge := none) cs hu.1.kids
      rcases hy : mkMapping L p'.cfg none cs p'.kids with ⟨r, kids⟩
      rw [hy] at hm
      cases r with
      | error e => exact ⟨⟨hu.1.st, hm.1⟩, by intro kv h; cases h⟩
      | ok ms =>
        exact ⟨⟨hu.1.st.setValue (hm.2 ms rfl), hm.1⟩, by
          intro kv h; cases h; exact hkeys ms (hm.2 ms rfl)⟩
    | mapping ms => exact ⟨hu.1, by intro kv h; cases h; exact hkeys ms (hu.2 _ rfl)⟩
    | seq ss => exact ⟨hu.1, by intro kv h; cases h⟩
    | val v => exact ⟨hu.1, by intro kv h; cases h⟩

theorem UPath.Clean.sequence {p : UPath} (h : p.Clean) : (UPath.sequence L p).2.Clean := by
  have hu := h.uvalue
  unfold UPath.sequence
  rcases hx : p.uvalue with ⟨r, p'⟩
  rw [hx] at hu
  cases r with
  | error e => exact hu.1
  | ok v =>
    cases v with
    | join cs =>
      dsimp only
      have hm := sequenceLoop_clean hL (cfg := p'.cfg) (merge := none) (acc := []) cs hu.1.kids
      rcases hy : sequenceLoop L p'.cfg cs none [] p'.kids with ⟨r, kids⟩
      rw [hy] at hm
      cases r with
      | error e => exact ⟨hu.1.st, hm⟩
      | ok ss => exact ⟨hu.1.st.setValue (v := .seq ss) trivial, hm⟩
    | mapping ms => exact hu.1
    | seq ss => exact hu.1
    | val v => exact hu.1

theorem UPath.Clean.primitive {p : UPath} {ty : PTy} (h : p.Clean) :
    (UPath.primitive L ty p).2.Clean ∧ ∀ v, (UPath.primitive L ty p).1 = .ok v → Found v := by
  have hu := h.uvalue
  unfold UPath.primitive
  rcases hx : p.uvalue with ⟨r, p'⟩
  rw [hx] at hu
  cases r with
  | error e => exact ⟨hu.1, by intro v h; cases h⟩
  | ok v =>
    cases v with
    | join cs =>
      cases cs with
      | nil =>
        exact ⟨⟨hu.1.st.setValue (v := .val .NONE) Found.NONE, hu.1.kids⟩, by intro v h; cases h; exact .NONE⟩
      | cons c cs =>
        dsimp only
        have hm := hu.1.kids.onChild c (f := SPath.primitive L ty) (post := Found)
          fun p hp => hp.primitive hL
        rcases hy : onChild p'.kids c (SPath.primitive L ty) with ⟨r, kids⟩
        rw [hy] at hm
        cases r with
        | error e => exact ⟨⟨hu.1.st, hm.1⟩, by intro v h; cases h⟩
        | ok v =>
          exact ⟨⟨hu.1.st.setValue (v := .val v) (hm.2 v rfl), hm.1⟩, by
            intro w h; cases h; exact hm.2 v rfl⟩
    | mapping ms => exact ⟨hu.1, by intro v h; cases h; exact .inl (.obj _)⟩
    | seq ss => exact ⟨hu.1, by intro v h; cases h; exact .inl (.obj _)⟩
    | val v => exact ⟨hu.1, by intro w h; cases h; exact hu.2 _ rfl⟩

omit hL in
theorem UPath.Clean.value {p : UPath} (h : p.Clean) :
    (UPath.value p).2.Clean ∧ ∀ v, (UPath.value p).1 = .ok v → Found v := by
  have hu := h.uvalue
  unfold UPath.value
  rcases hx : p.uvalue with ⟨r, p'⟩
  rw [hx] at hu
  cases r with
  | error e => exact ⟨hu.1, by intro v h; cases h⟩
  | ok v => exact ⟨hu.1, by intro w h; cases h; exact FoundU.toVal (hu.2 v rfl)⟩

omit hL in
theorem UPath.Clean.exists_ {p : UPath} (h : p.Clean) : (UPath.exists_ p).2.Clean := by
  have hu := h.uvalue
  unfold UPath.exists_
  rcases hx : p.uvalue with ⟨r, p'⟩
  rw [hx] at hu
  cases r <;> exact hu.1

omit hL in
theorem UPath.Clean.isNull {p : UPath} (h : p.Clean) : (UPath.isNull p).2.Clean := by
  have hu := h.uvalue
  unfold UPath.isNull
  rcases hx : p.uvalue with ⟨r, p'⟩
  rw [hx] at hu
  cases r <;> exact hu.1

omit hL in
theorem UPath.Clean.append {p : UPath} (h : p.Clean) (k : Val) : (p.append k).Clean := by
  refine ⟨h.st.append k, ?_⟩
  intro q hq
  obtain ⟨x, hx, rfl⟩ := List.mem_map.1 hq
  exact (h.kids x hx).append k

omit hL in
theorem UPath.Clean.pop {p q : UPath} (h : p.Clean) (hq : p.pop = .ok q) : q.Clean := by
  have hall : ∀ (kids kids' : List SPath), Kids kids → popAll kids = .ok kids' → Kids kids' := by
    intro kids
    induction kids with
    | nil => intro kids' _ h; cases h; intro k hk; cases hk
    | cons c cs ih =>
      intro kids' hk h
      unfold popAll at h
      split at h
      · cases h
      · rename_i c' hc
        split at h
        · cases h
        · rename_i cs' hcs
          cases h
          intro k hk'
          rcases List.mem_cons.1 hk' with rfl | hk'
          · exact (hk c (by simp)).pop hc
          · exact ih cs' (fun x hx => hk x (by simp [hx])) hcs k hk'
  unfold UPath.pop at hq
  split at hq
  · cases hq
  · rename_i st' hs
    split at hq
    · cases hq
    · rename_i kids' hk
      cases hq
      exact ⟨h.st.pop hs, hall _ _ h.kids hk⟩

theorem UPath.Clean.join {p q : UPath} (h : p.Clean) (hq : UPath.joinPath L p = some (.ok q)) : q.Clean := by
  have hu := h.uvalue
  unfold UPath.joinPath at hq
  rcases hx : p.uvalue with ⟨r, p'⟩
  rw [hx] at hu hq
  cases r with
  | error e => cases hq
  | ok v =>
    cases v with
    | join cs =>
      dsimp only at hq
      have hm := mkMapping_clean hL (cfg := p'.cfg) (merge := none) cs hu.1.kids
      rcases hy : mkMapping L p'.cfg none cs p'.kids with ⟨r, kids⟩
      rw [hy] at hm hq
      cases r with
      | error e => cases hq
      | ok ms =>
        simp only [Option.some.injEq] at hq
        split at hq
        · cases hq
        · cases hq
          refine ⟨PathSt.Holds.setValue (v := UVal.join cs) ⟨hm.2 ms rfl, ?_⟩ trivial, hm.1⟩
          intro x hx w hw
          obtain ⟨k, -, rfl⟩ := List.mem_map.1 hx
          cases hw
    | _ => cases hq

/-! ### Mounted paths -/

/-- A clean simple or union path. -/
def BPath.Clean : BPath → Prop
  | .simple p => p.Clean
  | .union p => p.Clean

omit hL in
theorem BPath.Clean.read {α : Type} {p : BPath} (h : p.Clean) {fs : SPath → Except Exc α × SPath}
    {fu : UPath → Except Exc α × UPath} {post : α → Prop}
    (h1 : ∀ p : SPath, p.Clean → (fs p).2.Clean ∧ ∀ a, (fs p).1 = .ok a → post a)
    (h2 : ∀ p : UPath, p.Clean → (fu p).2.Clean ∧ ∀ a, (fu p).1 = .ok a → post a) :
    (p.read fs fu).2.Clean ∧ ∀ a, (p.read fs fu).1 = .ok a → post a := by
  cases p with
  | simple p => exact h1 p h
  | union p => exact h2 p h

theorem BPath.Clean.value {p : BPath} (h : p.Clean) :
    (BPath.value L p).2.Clean ∧ ∀ v, (BPath.value L p).1 = .ok v → Found v :=
  h.read (fun _ hp => hp.value hL) fun _ hp => hp.value
theorem BPath.Clean.exists_ {p : BPath} (h : p.Clean) : (BPath.exists_ L p).2.Clean :=
  (h.read (post := fun _ => True) (fun _ hp => ⟨hp.keep hL, fun _ _ => trivial⟩)
    fun _ hp => ⟨hp.exists_, fun _ _ => trivial⟩).1
theorem BPath.Clean.isNull {p : BPath} (h : p.Clean) : (BPath.isNull L p).2.Clean :=
  (h.read (post := fun _ => True) (fun _ hp => ⟨hp.keep hL, fun _ _ => trivial⟩)
    fun _ hp => ⟨hp.isNull, fun _ _ => trivial⟩).1
theorem BPath.Clean.sequence {p : BPath} (h : p.Clean) : (BPath.sequence L p).2.Clean :=
  (h.read (post := fun _ => True) (fun _ hp => ⟨hp.keep hL, fun _ _ => trivial⟩)
    fun _ hp => ⟨hp.sequence hL, fun _ _ => trivial⟩).1
theorem BPath.Clean.mapping {p : BPath} (h : p.Clean) :
    (BPath.mapping L p).2.Clean ∧ ∀ kv, (BPath.mapping L p).1 = .ok kv → KeyList kv.ks :=
  h.read (fun _ hp => hp.mapping hL) fun _ hp => hp.mapping hL
theorem BPath.Clean.primitive {p : BPath} {ty : PTy} (h : p.Clean) :
    (BPath.primitive L ty p).2.Clean ∧ ∀ v, (BPath.primitive L ty p).1 = .ok v → Found v :=
  h.read (fun _ hp => hp.primitive hL) fun _ hp => hp.primitive hL

omit hL in
theorem BPath.Clean.append {p : BPath} (h : p.Clean) (k : Val) : (p.append k).Clean := by
  cases p with
  | simple p => exact SPath.Clean.append h k
  | union p => exact UPath.Clean.append h k

omit hL in
theorem BPath.Clean.pop {p q : BPath} (h : p.Clean) (hq : p.pop = .ok q) : q.Clean := by
  cases p with
  | simple p =>
    unfold BPath.pop at hq
    dsimp only at hq
    split at hq
    · rename_i q' hq'; cases hq; exact SPath.Clean.pop h hq'
    · cases hq
  | union p =>
    unfold BPath.pop at hq
    dsimp only at hq
    split at hq
    · rename_i q' hq'; cases hq; exact UPath.Clean.pop h hq'
    · cases hq

theorem BPath.Clean.join {p q : BPath} (h : p.Clean) (hq : BPath.joinPath L p = some (.ok q)) : q.Clean := by
  cases p with
  | simple p => cases hq
  | union p =>
    unfold BPath.joinPath at hq
    dsimp only at hq
    split at hq
    · cases hq
    · cases hq
    · rename_i q' hq'; cases hq; exact UPath.Clean.join hL h hq'

structure MPath.Clean (p : MPath) : Prop where
  dne : p.dne.Clean
  paths : ∀ q ∈ p.paths, q.2.Clean

omit hL in
theorem MPath.Clean.sub {p : MPath} (h : p.Clean) (k : Val) : (p.sub k).Clean := by
  unfold MPath.sub
  split
  · split
    · rename_i hq; exact h.paths _ (List.mem_of_getElem? hq)
    · exact h.dne
  · exact h.dne

omit hL in
theorem MPath.Clean.setSub {p : MPath} (h : p.Clean) (k : Val) {q : BPath} (hq : q.Clean) :
    (p.setSub k q).Clean := by
  unfold MPath.setSub
  split
  · refine ⟨h.dne, ?_⟩
    intro x hx
    obtain ⟨i, hi, rfl⟩ := List.getElem_of_mem hx
    rw [List.getElem_modify]
    split
    · exact hq
    · exact h.paths _ (List.getElem_mem _)
  · exact ⟨hq, h.paths⟩

omit hL in
theorem MPath.Clean.onSub {α : Type} {p : MPath} (h : p.Clean) (m : Val) {f : BPath → Except Exc α × BPath}
    {post : α → Prop} (hf : (f (p.sub m)).2.Clean ∧ ∀ a, (f (p.sub m)).1 = .ok a → post a) :
    (p.onSub m f).2.Clean ∧ ∀ a, (p.onSub m f).1 = .ok a → post a :=
  ⟨h.setSub m hf.1, hf.2⟩

theorem MPath.Clean.value {p : MPath} (h : p.Clean) :
    (MPath.value L p).2.Clean ∧ ∀ v, (MPath.value L p).1 = .ok v → Found v := by
  unfold MPath.value
  split
  · exact ⟨h, by intro v h; cases h; exact .NONE⟩
  · exact h.onSub _ ((h.sub _).value hL)

theorem MPath.Clean.exists_ {p : MPath} (h : p.Clean) : (MPath.exists_ L p).2.Clean := by
  unfold MPath.exists_
  split
  · exact h
  · exact (h.onSub (post := fun _ => True) _ ⟨(h.sub _).exists_ hL, fun _ _ => trivial⟩).1

theorem MPath.Clean.isNull {p : MPath} (h : p.Clean) : (MPath.isNull L p).2.Clean := by
  unfold MPath.isNull
  split
  · exact h
  · rename_i m _
    have := (h.onSub m ((h.sub m).value hL)).1
    split <;> rename_i hr <;> · rw [hr] at this; exact this

theorem MPath.Clean.sequence {p : MPath} (h : p.Clean) : (MPath.sequence L p).2.Clean := by
  unfold MPath.sequence
  split
  · exact h
  · split
    · exact h
    · exact (h.onSub (post := fun _ => True) _ ⟨(h.sub _).sequence hL, fun _ _ => trivial⟩).1

theorem MPath.Clean.mapping {p : MPath} (h : p.Clean) :
    (MPath.mapping L p).2.Clean ∧ ∀ kv, (MPath.mapping L p).1 = .ok kv → KeyList kv.ks := by
  unfold MPath.mapping
  split
  · refine ⟨h, ?_⟩
    intro kv hkv
    cases hkv
    intro k hk
    obtain ⟨x, -, rfl⟩ := List.mem_map.1 hk
    exact ⟨rfl, rfl, rfl⟩
  · exact h.onSub _ ((h.sub _).mapping hL)

theorem MPath.Clean.primitive {p : MPath} {ty : PTy} (h : p.Clean) :
    (MPath.primitive L ty p).2.Clean ∧ ∀ v, (MPath.primitive L ty p).1 = .ok v → Found v := by
  unfold MPath.primitive
  split
  · exact ⟨h, by intro v h; cases h⟩
  · split
    · exact ⟨h, by intro v h; cases h⟩
    · exact h.onSub _ ((h.sub _).primitive hL)

omit hL in
theorem MPath.Clean.append {p q : MPath} {k : Val} (h : p.Clean) (hq : p.append k = .ok q) : q.Clean := by
  unfold MPath.append at hq
  split at hq
  · split at hq
    · cases hq; exact ⟨h.dne, h.paths⟩
    · cases hq
  · cases hq; exact h.setSub _ ((h.sub _).append k)

omit hL in
theorem MPath.Clean.pop {p q : MPath} (h : p.Clean) (hq : p.pop = .ok q) : q.Clean := by
  unfold MPath.pop at hq
  split at hq
  · cases hq
  · split at hq
    · cases hq; exact ⟨h.dne, h.paths⟩
    · split at hq
      · rename_i hp; cases hq; exact h.setSub _ ((h.sub _).pop hp)
      · cases hq

/-- A path of any built-in source over clean data. -/
def Path.Clean : Path → Prop
  | .base p => p.Clean
  | .mount p => p.Clean

omit hL in
theorem Path.Clean.read {α : Type} {p : Path} (h : p.Clean) {fb : BPath → Except Exc α × BPath}
    {fm : MPath → Except Exc α × MPath} {post : α → Prop}
    (h1 : ∀ p : BPath, p.Clean → (fb p).2.Clean ∧ ∀ a, (fb p).1 = .ok a → post a)
    (h2 : ∀ p : MPath, p.Clean → (fm p).2.Clean ∧ ∀ a, (fm p).1 = .ok a → post a) :
    (p.read fb fm).2.Clean ∧ ∀ a, (p.read fb fm).1 = .ok a → post a := by
  cases p with
  | base p => exact h1 p h
  | mount p => exact h2 p h

theorem Path.Clean.value {p : Path} (h : p.Clean) :
    ((Path.ops L).value p).2.Clean ∧ ∀ v, ((Path.ops L).value p).1 = .ok v → Found v :=
  h.read (fun _ hp => hp.value hL) fun _ hp => hp.value hL
theorem Path.Clean.primitive {p : Path} {ty : PTy} (h : p.Clean) :
    ((Path.ops L).primitive ty p).2.Clean ∧ ∀ v, ((Path.ops L).primitive ty p).1 = .ok v → Found v :=
  h.read (fun _ hp => hp.primitive hL) fun _ hp => hp.primitive hL

theorem Path.Clean.mapping {p : Path} (h : p.Clean) :
    ((Path.ops L).mapping p).2.Clean ∧
      ∀ kv, ((Path.ops L).mapping p).1 = .ok (some kv) → KeyList kv.ks := by
  have := h.read (fun _ hp => hp.mapping hL) fun _ hp => hp.mapping hL
  show (Path.someKeys (p.read (BPath.mapping L) (MPath.mapping L))).2.Clean ∧
    ∀ kv, (Path.someKeys (p.read (BPath.mapping L) (MPath.mapping L))).1 = .ok (some kv) → KeyList kv.ks
  unfold Path.someKeys
  rcases hr : p.read (BPath.mapping L) (MPath.mapping L) with ⟨r, q⟩
  rw [hr] at this
  cases r with
  | error e => exact ⟨this.1, by intro kv h; cases h⟩
  | ok kv => exact ⟨this.1, by intro kv h; cases h; exact this.2 _ rfl⟩

/-- Every built-in source over clean data. -/
def Path.sane : Sane (Path.ops L) where
  Q := Path.Clean
  append := by
    intro p k q h hq
    cases p with
    | base p => cases hq; exact BPath.Clean.append h k
    | mount p =>
      unfold Path.ops at hq
      dsimp only at hq
      split at hq
      · rename_i q' hq'; cases hq; exact MPath.Clean.append h hq'
      · cases hq
  pop := by
    intro p q h hq
    cases p with
    | base p =>
      unfold Path.ops at hq
      dsimp only at hq
      split at hq
      · rename_i q' hq'; cases hq; exact BPath.Clean.pop h hq'
      · cases hq
    | mount p =>
      unfold Path.ops at hq
      dsimp only at hq
      split at hq
      · rename_i q' hq'; cases hq; exact MPath.Clean.pop h hq'
      · cases hq
  value h := (h.value hL).1
  exists_ h := (h.read (post := fun _ => True) (fun _ hp => ⟨hp.exists_ hL, fun _ _ => trivial⟩)
    fun _ hp => ⟨hp.exists_ hL, fun _ _ => trivial⟩).1
  isNull h := (h.read (post := fun _ => True) (fun _ hp => ⟨hp.isNull hL, fun _ _ => trivial⟩)
    fun _ hp => ⟨hp.isNull hL, fun _ _ => trivial⟩).1
  mapping h := (h.mapping hL).1
  sequence h := (h.read (post := fun _ => True) (fun _ hp => ⟨hp.sequence hL, fun _ _ => trivial⟩)
    fun _ hp => ⟨hp.sequence hL, fun _ _ => trivial⟩).1
  primitive h := (h.primitive hL).1
  read h hv := ((h.primitive hL).2 _ hv).notMark
  keys h hk := (h.mapping hL).2 _ hk
  join := by
    intro p q h hq
    cases p with
    | base p =>
      unfold Path.ops at hq
      dsimp only at hq
      split at hq
      · cases hq
      · rename_i q' hq'; cases hq; exact BPath.Clean.join hL h hq'
      · cases hq
    | mount p =>
      unfold Path.ops at hq
      dsimp only at hq
      split at hq
      · cases hq
      · split at hq
        · cases hq
        · rename_i m _ _ q' hq'; cases hq; exact BPath.Clean.join hL (MPath.Clean.sub h m) hq'
        · cases hq
  empty := SPath.native_clean (.inl (.dict (by intro kv h; cases h) (by intro kv h; cases h)))
    (by intro al h; cases h)
  again h hv := SPath.native_clean ((h.value hL).2 _ hv) (by intro al h; cases h)
  positional h hv hal := SPath.native_clean ((h.value hL).2 _ hv) (by intro al' h; cases h; exact hal)

end

theorem Path.native_clean {v : Val} {al : Option (List (Val × Val))} (hv : Pilo.Clean v)
    (ha : ∀ a, al = some a → Keyable a) : (Path.base (.simple (SPath.native v al))).Clean :=
  SPath.native_clean (.inl hv) ha

end Pilo
