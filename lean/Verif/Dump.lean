import Verif.Props.Unmapped
import Verif.Props.Dates
import Verif.Props.Translate
import Verif.Props.Unparsable

/-!
# The data of a form, and mapping it

What it means for plain data to be the data of a value (`Dumps`), and what the lexical semantics makes of such data.
-/

namespace Pilo
open Capture

/-! ## Specification -/

/-- No hooks, no translations, no `attach_parent`. -/
structure Field.Undecorated (f : Field) : Prop where
  free : HookFree f
  translations : f.core.translations = []
  attach : f.core.attachParent = false

/-- The value is one the field class, one without items, is for, and satisfies its constraints (which can be compared
with it). -/
def Kind.Keeps : Kind → Val → Prop
  | .base, v => v.isIgnore = false ∧ v ≠ .none
  | .string c, v => ∃ x, v = .str x ∧ StringOK c x
  | .integer c, v => ∃ i : Int, v = .int i ∧ BoundsOK c ∧ InRange c (.fin i)
  | .float c, v => ∃ x, v = .float x ∧ x ≠ .nan ∧ BoundsOK c ∧ InRange c x
  | .decimal c, v => ∃ x, v = .decimal x ∧ x ≠ .nan ∧ BoundsOK c ∧ InRange c x
  | .boolean, v => ∃ b, v = .bool b
  | .date c, v => ∃ t m, v = .ext t m ∧ (t = .date ∨ t = .datetime) ∧ WindowOf c t ∧ InWindow c t m
  | .time c, v => ∃ t m, v = .ext t m ∧ (t = .time ∨ t = .structTime) ∧ WindowOf c t ∧ InWindow c t m
  | .datetime c, v => ∃ m, v = .ext .datetime m ∧ WindowOf c .datetime ∧ InWindow c .datetime m
  | .uuid, v => ∃ n, v = .ext .uuid n
  -- a string would be taken for the text of the code
  | .code, v => v.isIgnore = false ∧ v ≠ .none ∧ v.isStr = false
  | _, _ => False

/-- The field ignores no value equal to this one. -/
def Field.Lets (f : Field) (v : Val) : Prop := ∀ x ∈ f.core.ignores, v.pyEq x = false

/-- A field read from the entry of its own name. -/
structure Field.Own (f : Field) (n : String) : Prop where
  name : f.name = some n
  src : f.core.src = .str n
  group : ∀ fs, f.kind ≠ .group fs

/-- The value belongs in the field, and `w` is its data: what is left of it when each form is replaced by the dictionary
of its entries.  `F` says what the forms are, `d` what kind of source is going to read the data. -/
inductive Dumps (L : Lib) (d : DocKind) (C : Classes) (F : Nat → Option FormObj) : Field → Val → Val → Prop where
  | null {f : Field} (hn : f.core.nullable.truthy = true) (hi : f.Lets .none) : Dumps L d C F f .none .none
  | leaf {f : Field} {v : Val} (h : f.kind.Keeps v) (hi : f.Lets v) : Dumps L d C F f v v
  | list {f g : Field} {lo up : Option Nat} {a : Bool} {xs ws : List Val} (h : f.kind = .list g lo up a)
      (hi : f.core.ignores = []) (hs : noSrc g.core.src = true) (hl : LenOK lo up ws.length)
      (he : xs.length = ws.length)
      (hx : ∀ (i : Nat) x w, xs[i]? = some x → ws[i]? = some w → Dumps L d C F g x w) :
      Dumps L d C F f (.list xs) (.list ws)
  /-- as a tuple, or as the list JSON has for it -/
  | tuple {f : Field} {gs : List Field} {xs ws : List Val} {w : Val} (h : f.kind = .tuple gs)
      (hw : w = .tuple ws ∨ w = .list ws) (hi : f.core.ignores = [])
      (hs : ∀ g ∈ gs, noSrc g.core.src = true) (hl : gs.length = ws.length) (he : xs.length = ws.length)
      (hx : ∀ (i : Nat) g x w, gs[i]? = some g → xs[i]? = some x → ws[i]? = some w → Dumps L d C F g x w) :
      Dumps L d C F f (.tuple xs) w
  /-- `ts` lists keys, values and data of values -/
  | dict {f kf vf : Field} {req : List Val} {mx : Option Nat} {ts : List (Val × Val × Val)}
      (h : f.kind = .dict kf vf none (.set req) mx) (hi : f.core.ignores = []) (hs : noSrc vf.core.src = true)
      (hr : ∀ k ∈ req, ∃ t ∈ ts, k = t.1) (hm : ∀ n, mx = some n → ts.length ≤ n)
      (hl : Legible d (ts.map fun t => (t.1, t.2.2))) (hk : ∀ t ∈ ts, kf.kind.Keeps t.1 ∧ kf.Lets t.1)
      (hx : ∀ t ∈ ts, Dumps L d C F vf t.2.1 t.2.2) :
      Dumps L d C F f (.dict (ts.map fun t => (t.1, t.2.1))) (.dict (ts.map fun t => (t.1, t.2.2)))
  /-- entries for exactly the fields the form has values for; those it has none for are optional -/
  | form {f : Field} {cls : Nat} {r : Bool} {u : Unmapped} {id : Nat} {o : FormObj} {kvs : List (Val × Val)}
      {ys : Field → Val} (h : f.kind = .subform cls r u) (hu : u = .str .ignore ∨ u = .str .none)
      (hi : f.core.ignores = []) (ho : F id = some o) (hc : o.cls = cls) (hl : Legible d kvs)
      (hn : ((C cls).fields.map Field.name).Nodup) (ho' : ∀ g ∈ (C cls).fields, ∃ n, g.Own n)
      (hx : ∀ g ∈ (C cls).fields, ∀ x, dictGet? o.items g.key = some x → Dumps L d C F g x (ys g))
      (hy : ∀ g ∈ (C cls).fields, ∀ x, dictGet? o.items g.key = some x → (g.key, ys g) ∈ kvs)
      (hz : ∀ g ∈ (C cls).fields, dictGet? o.items g.key = none →
        g.core.default = .value .NONE ∧ d.step L (.dict kvs) g.key = .ok .NONE)
      (hki : ∀ p ∈ o.items, ∃ g ∈ (C cls).fields, p.1 = g.key)
      (hkk : ∀ p ∈ kvs, ∃ g ∈ (C cls).fields, p.1 = g.key ∧ ∃ x, dictGet? o.items g.key = some x) :
      Dumps L d C F f (.form id) (.dict kvs)

/-- The same, or containers of alike items, or forms of one class with alike entries. -/
inductive Alike (F F' : Nat → Option FormObj) : Val → Val → Prop where
  | same (v : Val) : Alike F F' v v
  | list {xs ys : List Val} (he : xs.length = ys.length)
      (hx : ∀ (i : Nat) x y, xs[i]? = some x → ys[i]? = some y → Alike F F' x y) : Alike F F' (.list xs) (.list ys)
  | tuple {xs ys : List Val} (he : xs.length = ys.length)
      (hx : ∀ (i : Nat) x y, xs[i]? = some x → ys[i]? = some y → Alike F F' x y) : Alike F F' (.tuple xs) (.tuple ys)
  | dict {xs ys : List (Val × Val)} (he : xs.map Prod.fst = ys.map Prod.fst)
      (hx : ∀ (i : Nat) x y, xs[i]? = some x → ys[i]? = some y → Alike F F' x.2 y.2) : Alike F F' (.dict xs) (.dict ys)
  | form {id id' : Nat} {o o' : FormObj} (ho : F id = some o) (ho' : F' id' = some o') (hc : o.cls = o'.cls)
      (hs : ∀ p ∈ o.items, p.1.isStr = true) (hs' : ∀ p ∈ o'.items, p.1.isStr = true)
      (hk : ∀ n, (dictGet? o.items (.str n)).isSome = (dictGet? o'.items (.str n)).isSome)
      (hx : ∀ n x y, dictGet? o.items (.str n) = some x → dictGet? o'.items (.str n) = some y → Alike F F' x y) :
      Alike F F' (.form id) (.form id')

/-! ## Elementary facts -/

section
variable {L : Lib} {d : DocKind} {C : Classes} {F F' : Nat → Option FormObj} {f : Field} {v w v' : Val}

theorem Kind.Keeps.usable {k : Kind} (h : k.Keeps v) : v.isIgnore = false ∧ v.isNull = false := by
  have nn : ∀ v : Val, v.isIgnore = false → v ≠ .none → v.isIgnore = false ∧ v.isNull = false := by
    intro v h1 h2
    refine ⟨h1, ?_⟩
    cases v <;> first | rfl | exact absurd rfl h2
  cases k <;> simp only [Kind.Keeps] at h
  case base => exact nn v h.1 h.2
  case code => exact nn v h.1 h.2.1
  all_goals first
    | exact h.elim
    | (obtain ⟨_, rfl⟩ := h; exact ⟨rfl, rfl⟩)
    | (obtain ⟨_, rfl, _⟩ := h; exact ⟨rfl, rfl⟩)
    | (obtain ⟨_, _, rfl, _⟩ := h; exact ⟨rfl, rfl⟩)

theorem Dumps.data (h : Dumps L d C F f v w) : v.isIgnore = false ∧ w.isIgnore = false := by
  cases h with
  | leaf h => exact ⟨h.usable.1, h.usable.1⟩
  | tuple _ hw => rcases hw with rfl | rfl <;> exact ⟨rfl, rfl⟩
  | _ => exact ⟨rfl, rfl⟩

theorem Dumps.mono (h : Dumps L d C F f v w) (hF : ∀ i o, F i = some o → F' i = some o) : Dumps L d C F' f v w := by
  induction h with
  | null hn hi => exact .null hn hi
  | leaf h hi => exact .leaf h hi
  | list h hi hs hl he _ ih => exact .list h hi hs hl he ih
  | tuple h hw hi hs hl he _ ih => exact .tuple h hw hi hs hl he ih
  | dict h hi hs hr hm hl hk _ ih => exact .dict h hi hs hr hm hl hk ih
  | form h hu hi ho hc hl hn ho' _ hy hz hki hkk ih => exact .form h hu hi (hF _ _ ho) hc hl hn ho' ih hy hz hki hkk

theorem Field.Own.key {n : String} (h : f.Own n) : f.key = .str n := by unfold Field.key; rw [h.name]

theorem mem_of_dictGet? {kvs : List (Val × Val)} {n : String} {x : Val} (h : dictGet? kvs (.str n) = some x) :
    (.str n, x) ∈ kvs := by
  unfold dictGet? at h
  split at h
  · rename_i p hp
    cases h
    have := List.find?_some hp
    rw [← pyEq_str.1 this]
    exact List.mem_of_find?_eq_some hp
  · cases h

theorem name_unique {fs : List Field} (hn : (fs.map Field.name).Nodup) {g g' : Field} (hg : g ∈ fs) (hg' : g' ∈ fs)
    (h : g.name = g'.name) : g = g' := by
  induction fs with
  | nil => cases hg
  | cons a fs ih =>
    simp only [List.map_cons, List.nodup_cons] at hn
    rcases List.mem_cons.1 hg with e | hg <;> rcases List.mem_cons.1 hg' with e' | hg'
    · exact e.trans e'.symm
    · exact absurd (List.mem_map.2 ⟨g', hg', by rw [← h, e]⟩) hn.1
    · exact absurd (List.mem_map.2 ⟨g, hg, by rw [h, e']⟩) hn.1
    · exact ih hn.2 hg hg'

theorem Legible.unique {kvs : List (Val × Val)} (h : Legible d kvs) {k x y : Val} (hx : (k, x) ∈ kvs) (hy : (k, y) ∈ kvs) :
    x = y := by
  obtain ⟨n, rfl, -⟩ := h.keys _ hx
  have hs : ∀ kv ∈ kvs, kv.1.isStr = true := fun kv hkv => by obtain ⟨k, hk, _⟩ := h.keys kv hkv; rw [hk]; rfl
  have h1 := dictGet?_mem hs h.nodup hx
  have h2 := dictGet?_mem hs h.nodup hy
  rw [h1] at h2
  cases h2; rfl

/-- Values of one field with the same data are alike. -/
theorem Dumps.alike (h : Dumps L d C F f v w) : ∀ {v'}, Dumps L d C F' f v' w → Alike F F' v v' := by
  induction h with
  | null =>
    intro v' h'
    cases h' with
    | null => exact .same _
    | leaf => exact .same _
    | tuple _ hw => rcases hw with hw | hw <;> cases hw
  | @leaf f v h =>
    intro v' h'
    generalize hw : v = w at h'
    cases h' with
    | null => subst hw; exact .same _
    | leaf => subst hw; exact .same _
    | list h2 => rw [h2] at h; exact h.elim
    | tuple h2 => rw [h2] at h; exact h.elim
    | dict h2 => rw [h2] at h; exact h.elim
    | form h2 => rw [h2] at h; exact h.elim
  | list h hi hs hl he _ ih =>
    intro v' h'
    cases h' with
    | leaf h2 => rw [h] at h2; exact h2.elim
    | tuple h2 => rw [h] at h2; cases h2
    | list h2 _ _ _ he2 hx2 =>
      rw [h] at h2; cases h2
      refine .list (he.trans he2.symm) fun i x y hx hy => ?_
      obtain ⟨hlt, -⟩ := List.getElem?_eq_some_iff.1 hx
      rw [he] at hlt
      exact ih i x _ hx (List.getElem?_eq_getElem hlt) (hx2 i y _ hy (List.getElem?_eq_getElem hlt))
  | @tuple f gs xs ws w h hw hi hs hl he _ ih =>
    intro v' h'
    cases h' with
    | null => rcases hw with hw | hw <;> cases hw
    | leaf h2 => rw [h] at h2; exact h2.elim
    | list h2 => rw [h] at h2; cases h2
    | dict h2 => rw [h] at h2; cases h2
    | form h2 => rw [h] at h2; cases h2
    | @tuple _ _ xs2 ws2 _ h2 hw2 _ _ _ he2 hx2 =>
      rw [h] at h2; cases h2
      have hww : ws2 = ws := by
        rcases hw with rfl | rfl <;> rcases hw2 with h | h <;> cases h <;> rfl
      subst hww
      refine .tuple (he.trans he2.symm) fun i x y hx hy => ?_
      obtain ⟨hlt, -⟩ := List.getElem?_eq_some_iff.1 hx
      rw [he] at hlt
      have hg := List.getElem?_eq_getElem (hl ▸ hlt : i < gs.length)
      exact ih i _ x _ hg hx (List.getElem?_eq_getElem hlt) (hx2 i _ y _ hg hy (List.getElem?_eq_getElem hlt))
  | @dict f kf vf req mx ts h hi hs hr hm hl hk _ ih =>
    intro v' h'
    generalize hw : Val.dict (ts.map fun t => (t.1, t.2.2)) = w at h'
    cases h' with
    | null => cases hw
    | leaf h2 => rw [h] at h2; exact h2.elim
    | list h2 => rw [h] at h2; cases h2
    | tuple h2 => rw [h] at h2; cases h2
    | form h2 => rw [h] at h2; cases h2
    | @dict _ _ _ _ _ ts' h2 _ _ _ _ _ _ hx2 =>
      rw [h] at h2; cases h2
      simp only [Val.dict.injEq] at hw
      have hlen : ts.length = ts'.length := by simpa using congrArg List.length hw
      have hget : ∀ (i : Nat) t t', ts[i]? = some t → ts'[i]? = some t' → t.1 = t'.1 ∧ t.2.2 = t'.2.2 := by
        intro i t t' ht ht'
        have := congrArg (·[i]?) hw
        simpa [List.getElem?_map, ht, ht'] using this
      refine .dict ?_ fun i x y hx hy => ?_
      · apply List.ext_getElem?
        intro i
        simp only [List.getElem?_map, Option.map_map]
        cases ht : ts[i]? with
        | none =>
          have := List.getElem?_eq_none_iff.1 ht
          rw [List.getElem?_eq_none_iff.2 (hlen ▸ this)]
        | some t =>
          obtain ⟨hlt, -⟩ := List.getElem?_eq_some_iff.1 ht
          have ht' := List.getElem?_eq_getElem (hlen ▸ hlt : i < ts'.length)
          rw [ht']
          simp [(hget i _ _ ht ht').1]
      · simp only [List.getElem?_map, Option.map_eq_some_iff] at hx hy
        obtain ⟨t, ht, rfl⟩ := hx
        obtain ⟨t', ht', rfl⟩ := hy
        have := hx2 t' (List.mem_of_getElem? ht')
        rw [← (hget i _ _ ht ht').2] at this
        exact ih t (List.mem_of_getElem? ht) this
  | @form f cls r u id o kvs ys h hu hi ho hc hl hn ho' _ hy hz hki hkk ih =>
    intro v' h'
    generalize hw : Val.dict kvs = w at h'
    cases h' with
    | null => cases hw
    | leaf h2 => rw [h] at h2; exact h2.elim
    | list h2 => rw [h] at h2; cases h2
    | tuple h2 => rw [h] at h2; cases h2
    | dict h2 => rw [h] at h2; cases h2
    | @form _ _ _ _ id' o' kvs' ys' h2 _ _ ho2 hc2 _ _ _ hx2 hy2 hz2 hki2 hkk2 =>
      rw [h] at h2; cases h2
      cases hw
      have str : ∀ {o : FormObj}, (∀ p ∈ o.items, ∃ g ∈ (C cls).fields, p.1 = g.key) → ∀ p ∈ o.items, p.1.isStr = true := by
        intro o hk p hp
        obtain ⟨g, hg, he⟩ := hk p hp
        obtain ⟨n, hn⟩ := ho' g hg
        rw [he, hn.key]; rfl
      have fld : ∀ {o : FormObj}, (∀ p ∈ o.items, ∃ g ∈ (C cls).fields, p.1 = g.key) → ∀ n x,
          dictGet? o.items (.str n) = some x → ∃ g ∈ (C cls).fields, g.key = .str n := by
        intro o hk n x hx
        obtain ⟨g, hg, he⟩ := hk _ (mem_of_dictGet? hx)
        exact ⟨g, hg, he.symm⟩
      have uniq : ∀ g ∈ (C cls).fields, ∀ g' ∈ (C cls).fields, g.key = g'.key → g = g' := by
        intro g hg g' hg' he
        obtain ⟨n, hn1⟩ := ho' g hg
        obtain ⟨n', hn2⟩ := ho' g' hg'
        rw [hn1.key, hn2.key] at he
        cases he
        exact name_unique hn hg hg' (hn1.name.trans hn2.name.symm)
      refine .form ho ho2 (hc.trans hc2.symm) (str hki) (str hki2) (fun n => ?_) fun n x y hx hy' => ?_
      · rw [Bool.eq_iff_iff, Option.isSome_iff_exists, Option.isSome_iff_exists]
        constructor
        · rintro ⟨x, hx⟩
          obtain ⟨g, hg, hgk⟩ := fld hki n x hx
          rw [← hgk] at hx ⊢
          obtain ⟨g', hg', he, x', hx'⟩ := hkk2 _ (hy g hg x hx)
          cases uniq g hg g' hg' he
          exact ⟨x', hx'⟩
        · rintro ⟨x, hx⟩
          obtain ⟨g, hg, hgk⟩ := fld hki2 n x hx
          rw [← hgk] at hx ⊢
          obtain ⟨g', hg', he, x', hx'⟩ := hkk _ (hy2 g hg x hx)
          cases uniq g hg g' hg' he
          exact ⟨x', hx'⟩
      · obtain ⟨g, hg, hgk⟩ := fld hki n x hx
        rw [← hgk] at hx hy'
        have := hx2 g hg y hy'
        rw [← Legible.unique hl (hy g hg x hx) (hy2 g hg y hy')] at this
        exact ih g hg x hx this

end


/-! ## Reading -/

namespace Capture
variable {L : Lib} {d : DocKind} {root : Val} {ks : List Val} {r : Nat} {C : Classes}

/-- `path.primitive(type)` at a value. -/
def _root_.Pilo.DocKind.prim (L : Lib) : DocKind → PTy → Val → Except Exc Val
  | .native _ => parseNative L
  | .json strict _ => parseJson L strict

theorem Standing.value {v : Val} {τ : TSt Path} (env : Env) (h : Standing L d root ks r τ)
    (hs : d.Sees L root ks v) : ∃ τ', T.onPath (Path.ops L).value env τ = (.ok v, τ') ∧
      Standing L d root ks r τ' ∧ Calm τ τ' :=
  h.read env fun _ hw hh hk => ⟨Path.value_sees hw hh (hk ▸ hs), (Path.deep L).value_keys hw⟩

theorem Standing.primitive {v w : Val} {ty : PTy} {τ : TSt Path} (env : Env) (h : Standing L d root ks r τ)
    (hs : d.Sees L root ks v) (hp : d.prim L ty v = .ok w) :
    ∃ τ', T.onPath ((Path.ops L).primitive ty) env τ = (.ok w, τ') ∧ Standing L d root ks r τ' ∧ Calm τ τ' := by
  refine h.read env fun p hw hh hk => ⟨?_, (Path.deep L).primitive_keys hw⟩
  have := Path.read_sees hw hh (hk ▸ hs) (fun _ _ v => parseNative L ty v) (fun strict v => parseJson L strict ty v)
    (fun cfg ks v => SPath.cfgPrimitive L cfg ks ty v) (UPath.primitive L ty) (MPath.primitive L ty)
  cases d <;> exact this.trans hp

theorem Standing.sequence {v : Val} {ws : List Val} {τ : TSt Path} (env : Env) (h : Standing L d root ks r τ)
    (hs : d.Sees L root ks v) (hv : v = .tuple ws ∨ v = .list ws) :
    ∃ τ', T.onPath (Path.ops L).sequence env τ = (.ok ws.length, τ') ∧ Standing L d root ks r τ' ∧ Calm τ τ' := by
  refine h.read env fun p hw hh hk => ⟨?_, (Path.deep L).sequence_keys hw⟩
  have := Path.read_sees hw hh (hk ▸ hs) (fun _ _ v => defaultSequence v) (fun _ v => jsonSequence v)
    (fun _ _ v => cfgSequence L v) (UPath.sequence L) (MPath.sequence L)
  rcases hv with rfl | rfl <;> cases d <;> exact this

/-- `with ctx(src=key)` around something that leaves the path where it was. -/
theorem Standing.into {α : Type} {k : Val} {m : T Path α} {τ : TSt Path} {R : α → TSt Path → Prop} (env : Env)
    (h : Standing L d root ks r τ)
    (hm : ∀ τ1, Standing L d root (ks ++ [k]) r τ1 → Calm τ τ1 →
      ∃ a τ2, m { env with src := some (!k.isNull) } τ1 = (.ok a, τ2) ∧ Standing L d root (ks ++ [k]) r τ2 ∧ R a τ2) :
    ∃ a τ' τ2, T.withKey (Path.ops L) k m env τ = (.ok a, τ') ∧ Standing L d root ks r τ' ∧ Calm τ2 τ' ∧ R a τ2 := by
  obtain ⟨p, hp, hw, hh, hk⟩ := h
  obtain ⟨q, hq⟩ : ∃ q, (Path.ops L).append p k = .ok q := by
    cases p with
    | base p => exact ⟨_, rfl⟩
    | mount p => simp [Path.home, Path.doc?] at hh
  obtain ⟨hqk, hqw⟩ := (Path.deep L).append_keys hw hq
  have hqh : q.home = some (d, root) := Eq.trans (congrArg Prod.snd ((Path.deep L).append_shape hw hq)) hh
  obtain ⟨a, τ2, h2, ⟨p2, hp2, hw2, hh2, hk2⟩, hR⟩ := hm { τ with path := some (some (r, q)) }
    ⟨q, rfl, hqw, hqh, by rw [hqk, hk]⟩ ⟨rfl, rfl, rfl⟩
  obtain ⟨p3, hp3, hk3, hw3, hs3⟩ := (Path.deep L).pop_keys hw2 hk2
  exact ⟨a, _, τ2, T.withKey_run hp hq h2 hp2 hp3, ⟨p3, rfl, hw3, Eq.trans (congrArg Prod.snd hs3) hh2, hk3⟩,
    ⟨rfl, rfl, rfl⟩, hR⟩

end Capture

/-! ## Runs of one field -/

section
variable {L : Lib} {d : DocKind} {root : Val} {ks : List Val} {r : Nat} {C : Classes} {rec' : TRec Path} {f : Field}
  {env : Env} {τ : TSt Path}

/-- A field at a value that is not null, given what its class makes of the value. -/
theorem start_run {w : Val} {R : Val → TSt Path → Prop} (hf : f.Undecorated) (hw : w.isIgnore = false)
    (hnn : w.isNull = false) (h : Standing L d root ks r τ) (hs : d.Sees L root ks w)
    (hparse : ∀ τ1, Standing L d root ks r τ1 → Calm τ τ1 → ∃ v τ2,
      Lex.kindParse (Path.ops L) L C rec' f env τ1 = (.ok v, τ2) ∧ Standing L d root ks r τ2 ∧ v.isIgnore = false ∧
      f.Lets v ∧ Lex.kindValidate (Path.ops L) L f v = T.pure true ∧ R v τ2) :
    ∃ v τ', Lex.fieldStart (Path.ops L) L C rec' f env τ = (.ok v, τ') ∧ Standing L d root ks r τ' ∧
      v.isIgnore = false ∧ R v τ' := by
  have hN : w.isNONE = false := by cases w <;> first | rfl | (cases hw)
  obtain ⟨τ1, e1, s1, c1⟩ := h.exists_ env hs
  obtain ⟨τ2, e2, s2, c2⟩ := s1.isNull env hs
  obtain ⟨v, τ3, e3, s3, hv, hl, hval, hR⟩ := hparse τ2 s2 (c1.trans c2)
  have hc : Lex.fieldCompute (Path.ops L) L C rec' f env τ = (.ok v, τ3) := by
    unfold Lex.fieldCompute
    rw [hf.free.fieldParse]
    rw [hN] at e1
    rw [hnn] at e2
    refine (T.bind_ok e1).trans ?_
    simp only [Bool.not_false, Bool.not_true, Bool.false_eq_true, if_false]
    refine (T.bind_ok e2).trans ?_
    simp only [Bool.false_eq_true, if_false]
    unfold T.tryCatch
    rw [e3]
  refine ⟨v, τ3, ?_, s3, hv, hR⟩
  have hin : v.inList f.core.ignores = false := by
    unfold Val.inList
    rw [List.any_eq_false]
    intro x hx
    rw [hl x hx]
    simp
  rw [fieldStart_value hf.free hc hv, fieldCheck_plain hf.free hf.translations hv hin, hval]
  rfl

/-- A nullable field at null. -/
theorem start_null (hf : f.Undecorated) (hn : f.core.nullable.truthy = true) (hl : f.Lets .none)
    (h : Standing L d root ks r τ) (hs : d.Sees L root ks .none) :
    ∃ τ', Lex.fieldStart (Path.ops L) L C rec' f env τ = (.ok .none, τ') ∧ Standing L d root ks r τ' ∧ Calm τ τ' := by
  obtain ⟨τ1, e1, s1, c1⟩ := h.exists_ env hs
  obtain ⟨τ2, e2, s2, c2⟩ := s1.isNull env hs
  refine ⟨τ2, ?_, s2, c1.trans c2⟩
  have hc : Lex.fieldCompute (Path.ops L) L C rec' f env τ = (.ok .none, τ2) := by
    unfold Lex.fieldCompute
    refine (T.bind_ok e1).trans ?_
    simp only [Val.isNONE, Bool.not_false, Bool.not_true, Bool.false_eq_true, if_false]
    refine (T.bind_ok e2).trans ?_
    rfl
  have hin : Val.none.inList f.core.ignores = false := by
    unfold Val.inList
    rw [List.any_eq_false]
    intro x hx
    rw [hl x hx]
    simp
  rw [fieldStart_value hf.free hc rfl, fieldCheck_plain hf.free hf.translations rfl hin, validate_null.1 hn]
  rfl

/-- A field whose class keeps the value, at the value. -/
theorem leaf_parse {v : Val} (hk : f.kind.Keeps v) (h : Standing L d root ks r τ) (hs : d.Sees L root ks v) :
    ∃ τ', Lex.kindParse (Path.ops L) L C rec' f env τ = (.ok v, τ') ∧ Standing L d root ks r τ' ∧ Calm τ τ' := by
  unfold Lex.kindParse
  cases hkind : f.kind <;> rw [hkind] at hk <;> simp only [Kind.Keeps] at hk <;> try exact hk.elim
  case base => exact h.auto env hs
  case string c =>
    obtain ⟨x, rfl, -⟩ := hk
    exact h.primitive env hs (by cases d <;> rfl)
  case integer c =>
    obtain ⟨x, rfl, -⟩ := hk
    exact h.primitive env hs (by cases d <;> rfl)
  case float c =>
    obtain ⟨x, rfl, -⟩ := hk
    exact h.primitive env hs (by cases d <;> rfl)
  case decimal c =>
    obtain ⟨x, rfl, -⟩ := hk
    obtain ⟨τ', e, s, c⟩ := h.value env hs
    exact ⟨τ', (T.bind_ok e).trans rfl, s, c⟩
  case boolean =>
    obtain ⟨x, rfl⟩ := hk
    exact h.primitive env hs (by cases d <;> rfl)
  case date c =>
    obtain ⟨t, m, rfl, ht, -⟩ := hk
    obtain ⟨τ', e, s, c⟩ := h.value env hs
    exact ⟨τ', (T.bind_ok e).trans (by rcases ht with rfl | rfl <;> rfl), s, c⟩
  case time c =>
    obtain ⟨t, m, rfl, ht, -⟩ := hk
    obtain ⟨τ', e, s, c⟩ := h.value env hs
    exact ⟨τ', (T.bind_ok e).trans (by rcases ht with rfl | rfl <;> rfl), s, c⟩
  case datetime c =>
    obtain ⟨m, rfl, -⟩ := hk
    obtain ⟨τ', e, s, c⟩ := h.value env hs
    exact ⟨τ', (T.bind_ok e).trans rfl, s, c⟩
  case code =>
    obtain ⟨τ', e, s, c⟩ := h.auto env hs
    refine ⟨τ', (T.bind_ok e).trans ?_, s, c⟩
    have := hk.2.2
    cases v <;> first | rfl | (cases this)
  case uuid =>
    obtain ⟨m, rfl⟩ := hk
    obtain ⟨τ', e, s, c⟩ := h.auto env hs
    exact ⟨τ', (T.bind_ok e).trans rfl, s, c⟩

theorem leaf_valid {v : Val} (ht : f.core.translations = []) (hk : f.kind.Keeps v) :
    Lex.kindValidate (Path.ops L) L f v = T.pure true := by
  rw [kindValidate_nonnull hk.usable.2]
  cases hkind : f.kind <;> rw [hkind] at hk <;> simp only [Kind.Keeps] at hk <;> try exact hk.elim
  case string c =>
    obtain ⟨x, rfl, hx⟩ := hk
    exact (stringValidate_spec c x ht).1 hx
  case integer c =>
    obtain ⟨x, rfl, hb, hx⟩ := hk
    exact (rangeValidate_spec hb rfl (by intro h; cases h)).1 hx
  case float c =>
    obtain ⟨x, rfl, hn, hb, hx⟩ := hk
    exact (rangeValidate_spec hb rfl hn).1 hx
  case decimal c =>
    obtain ⟨x, rfl, hn, hb, hx⟩ := hk
    exact (rangeValidate_spec hb rfl hn).1 hx
  case date c =>
    obtain ⟨t, m, rfl, -, hb, hx⟩ := hk
    exact (dateValidate_spec hb).1 hx
  case time c =>
    obtain ⟨t, m, rfl, -, hb, hx⟩ := hk
    exact (dateValidate_spec hb).1 hx
  case datetime c =>
    obtain ⟨m, rfl, hb, hx⟩ := hk
    exact (dateValidate_spec hb).1 hx

/-- `field.map(value)` with a value the field keeps. -/
theorem given_run {v : Val} (n : Nat) (hf : f.Undecorated) (hk : f.kind.Keeps v) (hl : f.Lets v) :
    Lex.mapField (Path.ops L) L C (n + 1) f v env τ = (.ok v, τ) := by
  have hv := hk.usable.1
  have hN : v.isNONE = false := by cases v <;> first | rfl | (cases hv)
  have hin : v.inList f.core.ignores = false := by
    unfold Val.inList
    rw [List.any_eq_false]
    intro x hx
    rw [hl x hx]
    simp
  show Lex.mapFieldF (Path.ops L) L C _ f v env τ = _
  unfold Lex.mapFieldF Lex.fieldMapInner
  simp only [hN, Bool.false_eq_true, if_false, hf.attach, Bool.false_and]
  rw [fieldCheck_plain hf.free hf.translations hv hin, leaf_valid hf.translations hk]
  rfl

end

end Pilo
