import Verif.Positional
import Mathlib.Data.List.Nodup
import Verif.Props.Compose
import Verif.Props.Munge
import Verif.Props.Resolve

/-!
# C22: positional sources
-/

namespace Pilo
namespace Positional
open Twin

/-! ### Reading the first key -/

section
variable {L : Lib} {fs : List Field} {xs : List Val}

/-- The dictionary with the i-th item under the name of the i-th field; fields without an item are absent. -/
def byName (fs : List Field) (xs : List Val) : List (Val × Val) := (fs.zip xs).map fun p => (p.1.key, p.2)

/-- A list or tuple of these items. -/
inductive Seq (xs : List Val) : Val → Prop
  | list : Seq xs (.list xs)
  | tuple : Seq xs (.tuple xs)

/-- A name as Python has it: no dots and no parentheses. -/
structure Ident (k : String) : Prop where
  noDot : '.' ∉ k.toList
  noParen : ')' ∉ k.toList

theorem zipIdx_keys (fs : List Field) : (fs.zipIdx.map fun p => p.1.key) = fs.map Field.key := by
  have h := congrArg (List.map Field.key) (List.zipIdx_map_fst 0 fs)
  rw [List.map_map] at h
  exact h

theorem zip_sublist (fs : List Field) : ∀ xs : List Val, ((fs.zip xs).map Prod.fst).Sublist fs := by
  induction fs with
  | nil => intro xs; simp
  | cons f fs ih =>
    intro xs
    cases xs with
    | nil => simp
    | cons x xs =>
      simp only [List.zip_cons_cons, List.map_cons]
      exact (ih xs).cons_cons _

theorem seqAliases_eq (hn : (fs.map Field.key).Nodup) :
    seqAliases fs = (fs.zipIdx.map fun p => (p.1, Val.int (p.2 : Int))).map fun p => (p.1.key, p.2) := by
  unfold seqAliases
  have key : ∀ (l : List (Field × Nat)) (d : List (Val × Val)), (l.map fun p => p.1.key).Nodup →
      (∀ p ∈ l, ∀ kv ∈ d, p.1.key.pyEq kv.1 = false) →
      (l.map fun p => (p.1.key, Val.int (p.2 : Int))).foldl (fun d kv => dictSet d kv.1 kv.2) d =
        d ++ l.map fun p => (p.1.key, Val.int (p.2 : Int)) := by
    intro l
    induction l with
    | nil => intro d _ _; simp
    | cons p l ih =>
      intro d h1 h2
      simp only [List.map_cons, List.nodup_cons] at h1
      simp only [List.map_cons, List.foldl_cons]
      rw [dictSet_fresh (h2 p List.mem_cons_self), ih _ h1.2]
      · simp
      · intro q hq kv hkv
        rcases List.mem_append.1 hkv with h | h
        · exact h2 q (List.mem_cons_of_mem _ hq) kv h
        · rw [List.mem_singleton.1 h, Bool.eq_false_iff, ne_eq, key_pyEq]
          intro e
          exact h1.1 (List.mem_map.2 ⟨q, hq, e.symm⟩)
  have h1 : (fs.zipIdx.map fun p => p.1.key).Nodup := by
    rw [zipIdx_keys]
    exact hn
  have h2 := key fs.zipIdx [] h1 (by intro _ _ kv h; cases h)
  rw [List.map_map]
  rw [List.nil_append] at h2
  exact h2

theorem alias_get (hn : (fs.map Field.key).Nodup) {i : Nat} {f : Field} (hf : fs[i]? = some f) :
    dictGet? (seqAliases fs) f.key = some (.int (i : Int)) := by
  rw [seqAliases_eq hn]
  refine dictGet?_ofFields (p := (f, .int (i : Int))) ?_ ?_
  · have : (fs.zipIdx.map fun p => (p.1, Val.int (p.2 : Int))).map (fun p => p.1.key) = fs.map Field.key := by
      rw [List.map_map]
      exact zipIdx_keys fs
    rw [this]
    exact hn
  · refine List.mem_map.2 ⟨(f, i), ?_, rfl⟩
    rw [List.mem_zipIdx_iff_getElem?]
    exact hf

theorem byName_get (hn : (fs.map Field.key).Nodup) {i : Nat} {f : Field} (hf : fs[i]? = some f) :
    dictGet? (byName fs xs) f.key = xs[i]? := by
  unfold byName
  have hz : ((fs.zip xs).map fun p => p.1.key).Nodup := by
    have h1 : ((fs.zip xs).map fun p => p.1.key) = ((fs.zip xs).map Prod.fst).map Field.key := by simp
    rw [h1]
    exact hn.sublist (List.Sublist.map _ (zip_sublist fs xs))
  cases hx : xs[i]? with
  | some v =>
    refine dictGet?_ofFields (p := (f, v)) hz ?_
    refine List.mem_of_getElem? (i := i) ?_
    rw [List.getElem?_zip_eq_some]
    exact ⟨hf, hx⟩
  | none =>
    refine dictGet?_ofFields_none fun p hp he => ?_
    obtain ⟨j, hj⟩ := List.mem_iff_getElem?.1 hp
    rw [List.getElem?_zip_eq_some] at hj
    have hij : i = j := by
      refine (List.getElem?_inj ?_ hn).1 ?_
      · rw [List.length_map]; exact (List.getElem?_eq_some_iff.1 hf).1
      · rw [List.getElem?_map, List.getElem?_map, hf, hj.1]
        simp [he]
    rw [hij, hj.2] at hx
    cases hx

theorem resolve_ident {cfg : DefaultCfg} {ks : List Val} {c : Val} {k : String} (hk : Ident k) :
    resolveDefault L cfg ks c (.str k) = .ok (resolveAtom L cfg ks c (.str k)) := by
  have h1 : ∀ rest, k.toList.reverse = ')' :: '(' :: rest → False := by
    intro rest h
    apply hk.noParen
    rw [← List.mem_reverse, h]
    simp
  have h2 : dotSplit k = [k] := by
    unfold dotSplit
    rw [splitDots_single (by
      rw [Bool.eq_false_iff]
      intro h
      exact hk.noDot (by simpa using h))]
    simp
  unfold resolveDefault
  dsimp only
  rw [resolveRev.eq_2 L cfg ks c _ h1]
  congr 1
  unfold resolvePlain
  rw [List.reverse_reverse, String.ofList_toList, h2]
  dsimp only
  split
  · next h =>
    simp only [resolveAtoms]
    rw [if_pos h]
    have : ∀ v : Val, v.isNONE = true → v = .NONE := by
      intro v hv
      cases v <;> first | cases hv | skip
      rename_i c
      cases c <;> first | rfl | (cases hv)
    rw [this _ h]
  · rfl

/-- The item a field is to be read from is there. -/
def HasItem (xs : List Val) (i : Nat) : Prop := ∃ v, xs[i]? = some v ∧ v.isNONE = false

theorem read_seq {seq : Val} (hs : Seq xs seq) (hn : (fs.map Field.key).Nodup) {i : Nat} {f : Field} {k : String}
    (hf : fs[i]? = some f) (hk : f.name = some k) (hid : Ident k)
    (hat : ¬ HasItem xs i → L.attrs seq k = none) :
    resolveDefault L { aliases := some (seqAliases fs) } [.str k] seq (.str k) = .ok ((xs[i]?).getD .NONE) := by
  rw [resolve_ident hid]
  congr 1
  have hkey : f.key = .str k := by unfold Field.key; rw [hk]
  have hal := alias_get hn hf
  rw [hkey] at hal
  have hne : seqAliases fs ≠ [] := by
    intro h0
    rw [h0] at hal
    cases hal
  have h1 : asItem seq (.str k) = .NONE := by cases hs <;> rfl
  have h2 : asItem seq (.int (i : Int)) = (xs[i]?).getD .NONE := by
    have : seqGet? xs (i : Int) = xs[i]? := by unfold seqGet?; simp
    cases hs <;> (unfold asItem getItem; simp only [Val.index?, this]; cases xs[i]? <;> rfl)
  have h3 : asAlias { aliases := some (seqAliases fs) } [.str k] seq (.str k) = (xs[i]?).getD .NONE := by
    unfold asAlias
    dsimp only
    rw [hal]
    simp only [h2]
    simp [hne]
  have h4 : pyGetAttr L seq k = L.attrs seq k := by cases hs <;> rfl
  unfold resolveAtom
  have hig : ({ aliases := some (seqAliases fs) } : DefaultCfg).ignore [.str k] = false := rfl
  simp only [hig, h1, h3]
  by_cases hi : HasItem xs i
  · obtain ⟨v, hv, hv'⟩ := hi
    rw [hv]
    have hN : Val.NONE.isNONE = true := rfl
    simp [hv', hN]
  · have : asAttr L seq (.str k) = .NONE := by
      unfold asAttr
      dsimp only
      rw [h4, hat hi]
      rfl
    rw [this]
    cases hx : xs[i]? with
    | none => rfl
    | some v =>
      have : v.isNONE = true := by
        cases hv : v.isNONE with
        | true => rfl
        | false => exact absurd ⟨v, hx, hv⟩ hi
      simp only [Option.getD_some]
      have hv : v = .NONE := by
        cases v <;> first | cases this | skip
        rename_i c
        cases c <;> first | rfl | (cases this)
      rw [hv]
      rfl

theorem read_dict (hn : (fs.map Field.key).Nodup) {i : Nat} {f : Field} {k : String}
    (hf : fs[i]? = some f) (hk : f.name = some k) (hid : Ident k)
    (hat : ¬ HasItem xs i → L.attrs (.dict (byName fs xs)) k = none) :
    resolveDefault L {} [.str k] (.dict (byName fs xs)) (.str k) = .ok ((xs[i]?).getD .NONE) := by
  rw [resolve_ident hid]
  congr 1
  have hkey : f.key = .str k := by unfold Field.key; rw [hk]
  have hg := byName_get (xs := xs) hn hf
  rw [hkey] at hg
  have h1 : asItem (.dict (byName fs xs)) (.str k) = (xs[i]?).getD .NONE := by
    unfold asItem getItem
    simp only [Val.hashable, hg]
    cases xs[i]? <;> rfl
  unfold resolveAtom
  have hig : ({} : DefaultCfg).ignore [.str k] = false := rfl
  have hal : asAlias {} [.str k] (.dict (byName fs xs)) (.str k) = .NONE := rfl
  simp only [hig, h1, hal]
  by_cases hi : HasItem xs i
  · obtain ⟨v, hv, hv'⟩ := hi
    rw [hv]
    simp [hv']
  · have : asAttr L (.dict (byName fs xs)) (.str k) = .NONE := by
      unfold asAttr pyGetAttr
      dsimp only
      rw [hat hi]
      rfl
    rw [this]
    cases hx : xs[i]? with
    | none => rfl
    | some v =>
      have : v.isNONE = true := by
        cases hv : v.isNONE with
        | true => rfl
        | false => exact absurd ⟨v, hx, hv⟩ hi
      simp only [Option.getD_some]
      have hv : v = .NONE := by
        cases v <;> first | cases this | skip
        rename_i c
        cases c <;> first | rfl | (cases this)
      rw [hv]
      rfl

end

/-! ### Fields -/

section
variable {L : Lib} {C : Classes} {a b : DefaultCfg} {x y : Val}

/-- The path at the start of native data. -/
abbrev top (a : DefaultCfg) (x : Val) : Path := .base (.simple (.dflt a { root := x, parts := [] }))

/-- One run is at the start of `x`, the other at the start of `y`; otherwise they agree. -/
structure Level (Z : PathTwin (Path.ops L) (Path.lawful L)) (a b : DefaultCfg) (x y : Val) (τ σ : TSt Path) : Prop where
  left : ∃ r, τ.path = some (some (r, top a x))
  right : ∃ r, σ.path = some (some (r, top b y))
  errs : match τ.errs, σ.errs with
    | none, none => True
    | some b, some c => b.raising = c.raising ∧ (b.raising = true → Z.exact) ∧ Errs Z b.items c.items
    | _, _ => False
  forms : τ.forms = σ.forms

variable {Z : PathTwin (Path.ops L) (Path.lawful L)}

/-- The computations give matching results in the two runs. -/
def Steps (Z : PathTwin (Path.ops L) (Path.lawful L)) (a b : DefaultCfg) (x y : Val) {α : Type} (t : T Path α) : Prop :=
  ∀ env τ σ, Level Z a b x y τ σ → Res Z Eq (t env τ).1 (t env σ).1 ∧ Level Z a b x y (t env τ).2 (t env σ).2

theorem Steps.bind {α β : Type} {t : T Path α} {f : α → T Path β} (h : Steps Z a b x y t)
    (hf : ∀ v, Steps Z a b x y (f v)) : Steps Z a b x y (t >>= f) := by
  intro env τ σ hl
  obtain ⟨h1, h2⟩ := h env τ σ hl
  rcases ht : t env τ with ⟨r, τ'⟩
  rcases hu : t env σ with ⟨r', σ'⟩
  rw [ht, hu] at h1 h2
  cases h1 with
  | error hx => rw [T.bind_error ht, T.bind_error hu]; exact ⟨.error hx, h2⟩
  | ok ha => subst ha; rw [T.bind_ok ht, T.bind_ok hu]; exact hf _ env τ' σ' h2

theorem Steps.pure {α : Type} (v : α) : Steps Z a b x y (T.pure v) := fun _ _ _ h => ⟨.ok rfl, h⟩

theorem Steps.raise {α : Type} (e : Exc) : Steps Z a b x y (T.raise e : T Path α) :=
  fun _ _ _ h => ⟨.error (.refl _ _), h⟩

theorem Steps.withEnv {α : Type} (g : Env → Env) {t : T Path α} (h : Steps Z a b x y t) :
    Steps Z a b x y (T.withEnv g t) := fun env τ σ hl => h (g env) τ σ hl

/-- Depends on the environment and the forms only. -/
theorem Steps.state {α : Type} {t : T Path α} (h : ∀ env, ∃ (f : List FormObj → Except Exc α)
    (g : List FormObj → List FormObj), ∀ τ, t env τ = (f τ.forms, { τ with forms := g τ.forms })) :
    Steps Z a b x y t := by
  intro env τ σ hl
  obtain ⟨f, g, hx⟩ := h env
  rw [hx, hx, hl.forms]
  exact ⟨.of_eq rfl, hl.left, hl.right, hl.errs, rfl⟩

theorem Steps.ctxGet? {α : Type} (proj : Env → Option α) : Steps Z a b x y (T.ctxGet? proj : T Path _) :=
  .state fun env => ⟨fun _ => .ok (proj env), id, fun _ => rfl⟩

theorem Steps.formModify (id : Nat) (g : List (Val × Val) → List (Val × Val)) :
    Steps Z a b x y (T.formModify id g : T Path Unit) :=
  .state fun _ => ⟨fun _ => .ok (), fun fs => fs.modify id fun o => { o with items := g o.items }, fun _ => rfl⟩

theorem Steps.formCls (id : Nat) : Steps Z a b x y (T.formCls id : T Path Nat) :=
  .state fun _ => ⟨fun fs => match fs[id]? with
    | some o => .ok o.cls
    | none => .error (.other "ReferenceError" "dangling form"), _root_.id, fun τ => by
      unfold T.formCls
      dsimp only
      split <;> simp [*]⟩

theorem Steps.setParent (v : Val) : Steps Z a b x y (Lex.setParent v : T Path Unit) := by
  unfold Lex.setParent
  refine .bind (.ctxGet? _) fun par => ?_
  split
  · exact .state fun _ => ⟨fun _ => .ok (), fun fs => fs.modify _ fun o => { o with parent := some par }, fun _ => rfl⟩
  · exact .pure _
  · exact .pure _
  · exact .raise _

theorem bind_congr {α β : Type} {t : T Path α} {f : α → T Path β} {env : Env} {τ τ' : TSt Path}
    (h : t env τ = t env τ') : (t >>= f) env τ = (t >>= f) env τ' := by
  show T.bind t f env τ = T.bind t f env τ'
  unfold T.bind
  rw [h]

/-- A field reads its own key first, so mapping it goes the same way at the start of `x` and of `y` if they have
the same under that key. -/
theorem Steps.field (ha : a.Bare) (hb : b.Bare) (hC : C.All (ValueHooks True)) {f : Field} (hf : f.All (ValueHooks True)) {k : String}
    (hsrc : f.core.src = .str k) (hg : ∀ fs, f.kind ≠ .group fs)
    (hread : resolveDefault L a [.str k] x (.str k) = resolveDefault L b [.str k] y (.str k)) (n : Nat) :
    Steps (Path.embed (SPath.sharedTwin L ha hb x y)) a b x y (Lex.mapField (Path.ops L) L C n f .NONE) := by
  cases n with
  | zero => exact .raise _
  | succ n =>
    have hfit : ∀ g : Field, ValueHooks True g → (Twin.closed (Path.lawful L) True False L C).Fit g :=
      fun g h => ⟨h, .inl ⟨trivial, False.elim⟩⟩
    have hrun : Run (Path.embed (SPath.sharedTwin L ha hb x y)) Eq
        (Lex.fieldStart (Path.ops L) L C (Lex.mapField (Path.ops L) L C n) f)
        (Lex.fieldStart (Path.ops L) L C (Lex.mapField (Path.ops L) L C n) f) :=
      Closed.fieldStart (K := Twin.closed (Path.lawful L) True False L C) (hC.imp hfit)
        (Closed.mapField (hC.imp hfit) n) (hf.imp hfit) _ fun _ => .inl trivial
    have hcomp : ∀ rec, Lex.fieldStart (Path.ops L) L C rec f = (T.onPath (Path.ops L).exists_ >>= fun ex =>
        (if !ex then T.pure Val.NONE else do
          let nl ← T.onPath (Path.ops L).isNull
          if nl then T.pure .none
          else T.tryCatch (Lex.fieldParse (Path.ops L) L C rec f) fun e =>
            if e.isSourceError || e.isValueError then Lex.failWith (Path.ops L) e.str else T.raise e)) >>= fun v =>
        if v.isNONE then
          match f.core.default with
          | .hook h => Lex.callHook (Path.ops L) L C rec h
          | _ => Lex.fieldDefault (Path.ops L) L C rec f
        else if v.isIgnore then T.pure v
        else Lex.fieldCheck (Path.ops L) L C rec f v := by
      intro rec
      unfold Lex.fieldStart Lex.computeStep
      rw [hf.node.compute]
      rfl
    show Steps _ a b x y (Lex.mapFieldF (Path.ops L) L C (Lex.mapField (Path.ops L) L C n) f .NONE)
    unfold Lex.mapFieldF
    refine .bind (.withEnv _ ?_) fun v => ?_
    · rw [show Lex.fieldMapInner (Path.ops L) L C (Lex.mapField (Path.ops L) L C n) f .NONE =
        Lex.withResolve (Path.ops L) L C (Lex.mapField (Path.ops L) L C n) f
          (Lex.fieldStart (Path.ops L) L C (Lex.mapField (Path.ops L) L C n) f) from if_pos rfl]
      have hres : Lex.withResolve (Path.ops L) L C (Lex.mapField (Path.ops L) L C n) f
          (Lex.fieldStart (Path.ops L) L C (Lex.mapField (Path.ops L) L C n) f) =
          T.withKey (Path.ops L) (.str k) (Lex.fieldStart (Path.ops L) L C (Lex.mapField (Path.ops L) L C n) f) := by
        unfold Lex.withResolve
        rw [hf.node.resolve]
        dsimp only
        have hns : noSrc f.core.src = false := by rw [hsrc]; rfl
        cases hk : f.kind <;> first
          | exact absurd hk (hg _)
          | (dsimp only; rw [hns, hsrc]; rfl)
      rw [hres]
      intro env τ σ hl
      obtain ⟨r, hp⟩ := hl.left
      obtain ⟨r', hq⟩ := hl.right
      generalize hF : Lex.fieldStart (Path.ops L) L C (Lex.mapField (Path.ops L) L C n) f = F at hrun
      have hF' := (hcomp (Lex.mapField (Path.ops L) L C n)).symm.trans hF
      have step : ∀ (p : SPath) (r : Nat) (τ : TSt Path) env, T.onPath (Path.ops L).exists_ env
          { τ with path := some (some (r, .base (.simple p))) } =
          ((p.exists_ L).1, { τ with path := some (some (r, .base (.simple (p.exists_ L).2))) }) := by
        intro p r τ env
        rw [T.onPath_run rfl]
        rfl
      have popTop : ∀ (cfg : DefaultCfg) (z : Val) (c : Part Val), (Path.ops L).pop
          (.base (.simple (.dflt cfg { root := z, parts := [c] }))) = .ok (top cfg z) := by
        intro cfg z c
        have : SPath.pop (.dflt cfg { root := z, parts := [c] }) = .ok (.dflt cfg { root := z, parts := [] }) := by
          have := PathSt.pop_concat z [] c
          simp only [List.nil_append] at this
          simp only [SPath.pop, this]
        simp only [Path.ops, BPath.pop, this]
      rcases SPath.Shared.start (L := L) k hread with ⟨e, h1, h2⟩ | ⟨h1, h2, h3, h4⟩
      · have one : ∀ (cfg : DefaultCfg) (z : Val) (r : Nat) (τ : TSt Path),
            (SPath.dflt cfg { root := z, parts := [Part.ofKey (.str k)] }).exists_ L =
              (.error e, SPath.dflt cfg { root := z, parts := [Part.ofKey (.str k)] }) →
            τ.path = some (some (r, top cfg z)) →
            T.withKey (Path.ops L) (.str k) F env τ = (.error e, τ) := by
          intro cfg z r τ hex hp
          have hFx : F { env with src := some (!(Val.str k).isNull) }
              { τ with path := some (some (r, .base (.simple (.dflt cfg { root := z, parts := [Part.ofKey (.str k)] })))) } =
              (.error e, { τ with path := some (some (r, .base (.simple (.dflt cfg
                { root := z, parts := [Part.ofKey (.str k)] })))) }) := by
            rw [← hF']
            refine T.bind_error (T.bind_error ?_)
            rw [step, hex]
          rw [T.withKey_run hp rfl hFx rfl (popTop _ _ _)]
          show (_, { τ with path := some (some (r, top cfg z)) }) = _
          rw [TSt.path_eta hp]
        rw [one a x r τ h1 hp, one b y r' σ h2 hq]
        exact ⟨.error (.refl _ _), hl⟩
      · have one : ∀ (cfg : DefaultCfg) (z : Val) (r : Nat) (τ : TSt Path) env,
            ((SPath.dflt cfg { root := z, parts := [Part.ofKey (.str k)] }).exists_ L).2.exists_ L =
              (SPath.dflt cfg { root := z, parts := [Part.ofKey (.str k)] }).exists_ L →
            F env { τ with path := some (some (r, .base (.simple (.dflt cfg { root := z, parts := [Part.ofKey (.str k)] })))) } =
            F env { τ with path := some (some (r, .base (.simple
              ((SPath.dflt cfg { root := z, parts := [Part.ofKey (.str k)] }).exists_ L).2))) } := by
          intro cfg z r τ env hex
          rw [← hF']
          refine bind_congr (bind_congr ?_)
          rw [step, step, hex]
        obtain ⟨h5, -, h6⟩ := hrun 0 { env with src := some (!(Val.str k).isNull) }
          { τ with path := some (some (r, .base (.simple
              ((SPath.dflt a { root := x, parts := [Part.ofKey (.str k)] }).exists_ L).2))) }
          { σ with path := some (some (r', .base (.simple
              ((SPath.dflt b { root := y, parts := [Part.ofKey (.str k)] }).exists_ L).2))) }
          ⟨⟨_, _, rfl, rfl, h2⟩, hl.errs, hl.forms⟩
        replace h6 := h6 (.inl trivial)
        rw [← one a x r τ _ h3, ← one b y r' σ _ h4] at h5 h6
        rcases hX : F { env with src := some (!(Val.str k).isNull) } { τ with path := some (some (r, .base (.simple
          (.dflt a { root := x, parts := [Part.ofKey (.str k)] })))) } with ⟨rx, τ2⟩
        rcases hY : F { env with src := some (!(Val.str k).isNull) } { σ with path := some (some (r', .base (.simple
          (.dflt b { root := y, parts := [Part.ofKey (.str k)] })))) } with ⟨ry, σ2⟩
        rw [hX, hY] at h5 h6
        have keep := (TKeeps.fieldStart (I := Path.ops L) (W := Path.lawful L) (L := L) (ok := fun _ => True) hC
          (TKeeps.mapField (I := Path.ops L) (L := L) hC n) hf { env with src := some (!(Val.str k).isNull) }
          { τ with path := some (some (r, .base (.simple (.dflt a { root := x, parts := [Part.ofKey (.str k)] })))) } (by
            intro r1 p1 hp1
            cases hp1
            exact PathSt.append_tidy (p := { root := x, parts := [] }) (by intro z hz; cases hz) (.str k))).path
        rw [hF, hX] at keep
        obtain ⟨p2, hp2, -⟩ := keep
        rcases h6.paths with ⟨h7, -⟩ | ⟨-, h7, -⟩ | ⟨r2, p3, r3, q3, h7, h8, p4, q4, rfl, rfl, h9⟩
        · rw [hp2] at h7; cases h7
        · rw [hp2] at h7; cases h7
        · obtain ⟨c, rest, rfl, rfl, -, -, -, h10⟩ := h9
          obtain rfl := List.length_eq_zero_iff.1 h10
          rw [T.withKey_run hp rfl hX h7 (popTop _ _ _), T.withKey_run hq rfl hY h8 (popTop _ _ _)]
          exact ⟨h5, ⟨_, rfl⟩, ⟨_, rfl⟩, h6.errs, h6.forms⟩
    · split
      · exact .bind (.setParent v) fun _ => .pure _
      · exact .pure _

theorem Steps.mapFields {rec : TRec Path} (id : Nat) (tags : List String) (fs : List Field)
    (h : ∀ f ∈ fs, selected tags f = true → Steps Z a b x y (rec f .NONE)) :
    Steps Z a b x y (Lex.mapFields rec id tags fs) := by
  induction fs with
  | nil => exact .pure _
  | cons f fs ih =>
    unfold Lex.mapFields
    refine .bind ?_ fun _ => ih fun g hg => h g (List.mem_cons_of_mem _ hg)
    unfold Lex.mapOne
    split
    · rename_i hsel
      refine .bind (h f List.mem_cons_self hsel) fun v => ?_
      split
      · exact .pure _
      · exact .formModify _ _
    · exact .pure _

theorem mapping_top {cfg : DefaultCfg} {z : Val} {kv : KeysView} (h : defaultMapping cfg [] z = .ok kv) :
    (Path.ops L).mapping (top cfg z) = (.ok (some kv), top cfg z) := by
  have h1 : SPath.valueDflt L cfg { root := z, parts := [] } = (.ok z, { root := z, parts := [] }) := by
    unfold SPath.valueDflt PathSt.value
    rfl
  have h2 : SPath.mapping L (.dflt cfg { root := z, parts := [] }) = (.ok kv, .dflt cfg { root := z, parts := [] }) := by
    unfold SPath.mapping SPath.withValue
    simp only [h1]
    exact congrArg (fun r => (r, _)) h
  simp only [Path.ops, Path.read, BPath.mapping, BPath.read, h2]
  rfl

theorem Steps.body {rec : TRec Path} {kv kv' : KeysView} (h1 : defaultMapping a [] x = .ok kv)
    (h2 : defaultMapping b [] y = .ok kv') (id : Nat) (tags : List String) {cls : Nat}
    (h : ∀ f ∈ (C cls).fields, selected tags f = true → Steps Z a b x y (rec f .NONE)) {env : Env} {τ σ : TSt Path}
    (hc : (τ.forms[id]?).map FormObj.cls = some cls) (hl : Level Z a b x y τ σ) :
    Res Z Eq (Lex.formMapBody (Path.ops L) C rec id tags (.str .ignore) env τ).1
      (Lex.formMapBody (Path.ops L) C rec id tags (.str .ignore) env σ).1 ∧
    Level Z a b x y (Lex.formMapBody (Path.ops L) C rec id tags (.str .ignore) env τ).2
      (Lex.formMapBody (Path.ops L) C rec id tags (.str .ignore) env σ).2 := by
  obtain ⟨r, hp⟩ := hl.left
  obtain ⟨r', hq⟩ := hl.right
  have go : ∀ (cfg : DefaultCfg) (z : Val) (kv : KeysView) (r : Nat) (ρ : TSt Path), defaultMapping cfg [] z = .ok kv →
      ρ.path = some (some (r, top cfg z)) → ρ.forms = τ.forms →
      Lex.formMapBody (Path.ops L) C rec id tags (.str .ignore) env ρ =
        (T.withEnv (fun env => { env with form := some id, parent := some (.form id) })
          (Lex.mapFields rec id tags (C cls).fields) >>= fun _ => Lex.applyUnmapped rec id (.str .ignore)) env ρ := by
    intro cfg z kv r ρ hm hr hfs
    unfold Lex.formMapBody
    have e1 : T.onPath (Path.ops L).mapping env ρ = (.ok (some kv), ρ) := by
      rw [T.onPath_run hr, mapping_top hm]
      show (_, { ρ with path := some (some (r, top cfg z)) }) = _
      rw [TSt.path_eta hr]
    have e2 : T.formCls id env ρ = (.ok cls, ρ) := by
      unfold T.formCls
      rw [hfs]
      cases ho : τ.forms[id]? with
      | none => rw [ho] at hc; cases hc
      | some o => rw [ho] at hc; cases hc; rfl
    rw [T.bind_ok e1, T.bind_ok e2]
  rw [go a x kv r τ h1 hp rfl, go b y kv' r' σ h2 hq hl.forms.symm]
  exact Steps.bind (.withEnv _ (.mapFields id tags _ h)) (fun _ => .pure _) env τ σ hl

/-- Root mappings of the same form from `x` and from `y`. -/
theorem root_maps (hx : Z.exact) {body : T Path Unit} {raising : Bool} {env : Env} {τ : TSt Path}
    (h : ∀ (env : Env) (τ' σ' : TSt Path), τ'.forms = τ.forms → Level Z a b x y τ' σ' →
      Res Z Eq (body env τ').1 (body env σ').1 ∧ Level Z a b x y (body env τ').2 (body env σ').2) :
    let A := T.withErrs raising (T.withSource (.ok (top a x)) body) env τ
    let B := T.withErrs raising (T.withSource (.ok (top b y)) body) env τ
    Res Z (fun u v => Errs Z u.2 v.2) A.1 B.1 ∧ A.2.forms = B.2.forms ∧ A.2.path = B.2.path ∧ A.2.errs = B.2.errs := by
  intro A B
  have h1 := h { env with src := some true }
    { τ with path := some (some (τ.npaths, top a x)), npaths := τ.npaths + 1, errs := some { raising := raising, items := [] } }
    { τ with path := some (some (τ.npaths, top b y)), npaths := τ.npaths + 1, errs := some { raising := raising, items := [] } }
    rfl ⟨⟨_, rfl⟩, ⟨_, rfl⟩, ⟨rfl, fun _ => hx, .nil⟩, rfl⟩
  simp only [A, B, T.withErrs, T.withSource]
  rcases hX : body { env with src := some true }
    { τ with path := some (some (τ.npaths, top a x)), npaths := τ.npaths + 1, errs := some { raising := raising, items := [] } }
    with ⟨rx, τ2⟩
  rcases hY : body { env with src := some true }
    { τ with path := some (some (τ.npaths, top b y)), npaths := τ.npaths + 1, errs := some { raising := raising, items := [] } }
    with ⟨ry, σ2⟩
  rw [hX, hY] at h1
  obtain ⟨h2, h3⟩ := h1
  have he := h3.errs
  have hf := h3.forms
  dsimp only at h2 he hf
  cases h2 with
  | error hx => exact ⟨.error hx, hf, rfl, rfl⟩
  | ok _ =>
    refine ⟨.ok ?_, hf, rfl, rfl⟩
    dsimp only
    generalize τ2.errs = e at he
    generalize σ2.errs = e' at he
    cases e <;> cases e' <;> first
      | exact he.elim
      | exact .nil
      | exact he.2.2

end

/-! ### The property -/

section
variable {L : Lib} {C : Classes}

/-- What is asked of the fields of a class and of the items.  The fields are named, under different names, and each
is read from the key that is its name (no renaming by `src`); a `Group` has no key.  Where there is no item, neither
the sequence nor a dictionary has an attribute of that name (a native path reads attributes, too). -/
structure Declared (L : Lib) (fs : List Field) (xs : List Val) (seq : Val) : Prop where
  some : fs ≠ []
  nodup : (fs.map Field.name).Nodup
  keyed : ∀ f ∈ fs, ∃ k, f.name = .some k ∧ f.core.src = .str k ∧ Ident k ∧ ∀ gs, f.kind ≠ .group gs
  attrs : ∀ (i : Nat) f k, fs[i]? = .some f → f.name = .some k → ¬ HasItem xs i →
    L.attrs seq k = none ∧ L.attrs (.dict (byName fs xs)) k = none

theorem Declared.keys {fs : List Field} {xs : List Val} {seq : Val} (h : Declared L fs xs seq) :
    (fs.map Field.key).Nodup := by
  have : fs.map Field.key = (fs.map Field.name).map fun o => match o with | .some n => Val.str n | none => Val.none := by
    rw [List.map_map]; rfl
  rw [this]
  refine List.Nodup.map_on ?_ h.nodup
  intro u _ v _ huv
  cases u <;> cases v <;> first | rfl | (cases huv; rfl) | cases huv

theorem Declared.read {fs : List Field} {xs : List Val} {seq : Val} (h : Declared L fs xs seq) (hs : Seq xs seq)
    {f : Field} (hf : f ∈ fs) : ∃ k, f.core.src = .str k ∧ (∀ gs, f.kind ≠ .group gs) ∧
      resolveDefault L { aliases := .some (seqAliases fs) } [.str k] seq (.str k) =
        resolveDefault L {} [.str k] (.dict (byName fs xs)) (.str k) := by
  obtain ⟨k, h1, h2, h3, h4⟩ := h.keyed f hf
  obtain ⟨i, hi⟩ := List.mem_iff_getElem?.1 hf
  refine ⟨k, h2, h4, ?_⟩
  rw [read_seq hs h.keys hi h1 h3 fun hn => (h.attrs i f k hi h1 hn).1,
    read_dict h.keys hi h1 h3 fun hn => (h.attrs i f k hi h1 hn).2]

theorem formReset_cls (id : Nat) (tags : List String) (fs : List Field) (env : Env) (τ : TSt Path) :
    ∃ τ', Lex.formReset id tags fs env τ = (.ok (), τ') ∧
      (τ'.forms[id]?).map FormObj.cls = (τ.forms[id]?).map FormObj.cls := by
  induction fs generalizing τ with
  | nil => exact ⟨τ, rfl, rfl⟩
  | cons f fs ih =>
    unfold Lex.formReset
    by_cases hs : selected tags f = true
    · rw [if_pos hs]
      obtain ⟨τ', h1, h2⟩ := ih { τ with forms := τ.forms.modify id fun o => { o with items := dictDel o.items f.key } }
      refine ⟨τ', h1, h2.trans ?_⟩
      dsimp only
      rw [List.getElem?_modify_eq]
      cases τ.forms[id]? <;> rfl
    · rw [if_neg hs]
      exact ih τ

theorem formResetIf_cls (id : Nat) (tags : List String) (reset : Bool) {cls : Nat} (env : Env) (τ : TSt Path)
    (hc : (τ.forms[id]?).map FormObj.cls = some cls) :
    ∃ τ', Lex.formResetIf C id tags reset env τ = (.ok (), τ') ∧ (τ'.forms[id]?).map FormObj.cls = some cls := by
  unfold Lex.formResetIf
  cases reset with
  | false => exact ⟨τ, rfl, hc⟩
  | true =>
    have e2 : T.formCls id env τ = (.ok cls, τ) := by
      unfold T.formCls
      cases ho : τ.forms[id]? with
      | none => rw [ho] at hc; cases hc
      | some o => rw [ho] at hc; cases hc; rfl
    rw [if_pos rfl, T.bind_ok e2]
    obtain ⟨τ', h1, h2⟩ := formReset_cls id tags (C cls).fields env τ
    exact ⟨τ', h1, h2.trans hc⟩

theorem bare_seq (fs : List Field) : DefaultCfg.Bare { aliases := some (seqAliases fs) } := ⟨rfl, rfl⟩

theorem bare_dict : DefaultCfg.Bare {} := ⟨rfl, rfl⟩

/-- Below the starts of `x` and `y`, the field reads the same. -/
def ReadsAlike (L : Lib) (a b : DefaultCfg) (x y : Val) (f : Field) : Prop :=
  ∃ k, f.core.src = .str k ∧ (∀ gs, f.kind ≠ .group gs) ∧
    resolveDefault L a [.str k] x (.str k) = resolveDefault L b [.str k] y (.str k)

/-- Root mappings from two sources below which the selected fields read the same. -/
theorem rootMap_reads (hC : C.All (ValueHooks True)) {a b : DefaultCfg} (ha : a.Bare) (hb : b.Bare) {x y : Val} {kv kv' : KeysView}
    (hkv : defaultMapping a [] x = .ok kv) (hkv' : defaultMapping b [] y = .ok kv') (n id : Nat) (tags : List String)
    (raising : Bool) {cls : Nat} {v w : Val} {env : Env} {τ : TSt Path}
    (hv : Lex.rootSource (Path.ops L) C id (.data v) env τ = (.ok (.ok (top a x)), τ))
    (hw : Lex.rootSource (Path.ops L) C id (.data w) env τ = (.ok (.ok (top b y)), τ))
    (hread : ∀ f ∈ (C cls).fields, selected tags f = true → ReadsAlike L a b x y f)
    (hc : (τ.forms[id]?).map FormObj.cls = some cls) :
    let fld := Lex.mapField (Path.ops L) L C n
    let Z : PathTwin (Path.ops L) (Path.lawful L) := Path.embed (SPath.sharedTwin L ha hb x y)
    let A := Lex.rootMap (Path.ops L) C fld id (.data v) tags (.str .ignore) raising env τ
    let B := Lex.rootMap (Path.ops L) C fld id (.data w) tags (.str .ignore) raising env τ
    Res Z (Errs Z) A.1 B.1 ∧ A.2.forms = B.2.forms := by
  intro fld Z
  have hfields : ∀ f ∈ (C cls).fields, selected tags f = true → Steps Z a b x y (fld f .NONE) := by
    intro f hf hsel
    obtain ⟨k, h1, h2, h3⟩ := hread f hf hsel
    exact Steps.field ha hb hC (hC cls f hf) h1 h2 h3 n
  have hroot := root_maps (Z := Z) trivial (body := Lex.formMapBody (Path.ops L) C fld id tags (.str .ignore))
    (raising := raising) (env := env) (τ := τ) fun env τ' σ' hf hl =>
      Steps.body (L := L) (C := C) hkv hkv' id tags hfields (by rw [hf]; exact hc) hl
  dsimp only at hroot ⊢
  unfold Lex.rootMap
  rw [T.bind_ok hv, T.bind_ok hw]
  revert hroot
  generalize T.withErrs raising (T.withSource (.ok (top a x))
    (Lex.formMapBody (Path.ops L) C fld id tags (.str .ignore))) = t
  generalize T.withErrs raising (T.withSource (.ok (top b y))
    (Lex.formMapBody (Path.ops L) C fld id tags (.str .ignore))) = t'
  rcases hX : t env τ with ⟨rx, τ2⟩
  rcases hY : t' env τ with ⟨ry, σ2⟩
  rintro ⟨h1, h2, -, -⟩
  dsimp only at h1 h2
  cases h1 with
  | error hx => rw [T.bind_error hX, T.bind_error hY]; exact ⟨.error hx, h2⟩
  | ok h => rw [T.bind_ok hX, T.bind_ok hY]; exact ⟨.ok h, h2⟩

/-- `Form.map` from two sources below which the selected fields read the same. -/
theorem formMap_reads (hC : C.All (ValueHooks True)) {a b : DefaultCfg} (ha : a.Bare) (hb : b.Bare) {x y : Val} {kv kv' : KeysView}
    (hkv : defaultMapping a [] x = .ok kv) (hkv' : defaultMapping b [] y = .ok kv') (n id : Nat) (tags : List String)
    (reset raising : Bool) {cls : Nat} {v w : Val} (hvn : v.isNull = false) (hwn : w.isNull = false) {env : Env} {τ : TSt Path}
    (hv : ∀ τ : TSt Path, (τ.forms[id]?).map FormObj.cls = some cls →
      Lex.rootSource (Path.ops L) C id (.data v) env τ = (.ok (.ok (top a x)), τ))
    (hw : ∀ τ : TSt Path, (τ.forms[id]?).map FormObj.cls = some cls →
      Lex.rootSource (Path.ops L) C id (.data w) env τ = (.ok (.ok (top b y)), τ))
    (hread : ∀ f ∈ (C cls).fields, selected (pickTags tags env.tags) f = true → ReadsAlike L a b x y f)
    (hc : (τ.forms[id]?).map FormObj.cls = some cls) :
    let fld := Lex.mapField (Path.ops L) L C n
    let Z : PathTwin (Path.ops L) (Path.lawful L) := Path.embed (SPath.sharedTwin L ha hb x y)
    let A := Lex.formMap (Path.ops L) C fld id (.data v) tags reset (.str .ignore) raising env τ
    let B := Lex.formMap (Path.ops L) C fld id (.data w) tags reset (.str .ignore) raising env τ
    Res Z (Errs Z) A.1 B.1 ∧ A.2.forms = B.2.forms := by
  intro fld Z
  dsimp only
  obtain ⟨τ1, h1, h2⟩ := formResetIf_cls (C := C) id (pickTags tags env.tags) reset env τ hc
  have e0 : (T.ctxGet? Env.tags : T Path _) env τ = (.ok env.tags, τ) := rfl
  unfold Lex.formMap
  rw [T.bind_ok e0, T.bind_ok e0, T.bind_ok h1, T.bind_ok h1]
  rcases hsrc : env.src with _ | c
  · have e1 : (T.ctxGet Env.src "src" : T Path _) env τ1 = (.error (noCtxAttr "src"), τ1) := by
      unfold T.ctxGet; rw [hsrc]
    rw [T.bind_error e1, T.bind_error e1]
    exact ⟨.error (.refl _ _), rfl⟩
  · have e1 : (T.ctxGet Env.src "src" : T Path _) env τ1 = (.ok c, τ1) := by
      unfold T.ctxGet; rw [hsrc]
    rw [T.bind_ok e1, T.bind_ok e1]
    have e3 : ∀ v, (SrcArg.data v : SrcArg Path).isNone = false →
        Lex.formMapAt (Path.ops L) C fld id (.data v) (pickTags tags env.tags) (.str .ignore) raising c =
        Lex.rootMap (Path.ops L) C fld id (.data v) (pickTags tags env.tags) (.str .ignore) raising := by
      intro v hv
      unfold Lex.formMapAt
      rw [hv]
      rfl
    rw [e3 v hvn, e3 w hwn]
    have hroot := rootMap_reads (L := L) hC ha hb hkv hkv' n id (pickTags tags env.tags) raising (hv τ1 h2) (hw τ1 h2)
      hread h2
    dsimp only at hroot
    revert hroot
    generalize Lex.rootMap (Path.ops L) C (Lex.mapField (Path.ops L) L C n) id (.data v) (pickTags tags env.tags)
      (.str .ignore) raising = t
    generalize Lex.rootMap (Path.ops L) C (Lex.mapField (Path.ops L) L C n) id (.data w)
      (pickTags tags env.tags) (.str .ignore) raising = t'
    rcases hX : t env τ1 with ⟨rx, τ2⟩
    rcases hY : t' env τ1 with ⟨ry, σ2⟩
    rintro ⟨h3, h4⟩
    dsimp only at h3 h4
    cases h3 with
    | error hx => rw [T.bind_error hX, T.bind_error hY]; exact ⟨.error hx, h4⟩
    | ok h =>
      rw [T.bind_ok hX, T.bind_ok hY]
      unfold Lex.formFinish
      cases raising with
      | false => exact ⟨.ok h, h4⟩
      | true =>
        rw [h.isEmpty]
        simp only [if_pos]
        split
        · exact ⟨.ok h, h4⟩
        · exact ⟨.error (congrArg Exc.formError (h.bare trivial)), h4⟩

/-- The same for contexts. -/
theorem form_reads (hC : C.All (ValueHooks True)) {a b : DefaultCfg} (ha : a.Bare) (hb : b.Bare) {x y : Val} {kv kv' : KeysView}
    (hkv : defaultMapping a [] x = .ok kv) (hkv' : defaultMapping b [] y = .ok kv') (n id : Nat) (tags : List String)
    (reset raising : Bool) {cls : Nat} {v w : Val} (hvn : v.isNull = false) (hwn : w.isNull = false) {s : St Path}
    (hl : Live s)
    (hv : ∀ τ : TSt Path, (τ.forms[id]?).map FormObj.cls = some cls →
      Lex.rootSource (Path.ops L) C id (.data v) s.env τ = (.ok (.ok (top a x)), τ))
    (hw : ∀ τ : TSt Path, (τ.forms[id]?).map FormObj.cls = some cls →
      Lex.rootSource (Path.ops L) C id (.data w) s.env τ = (.ok (.ok (top b y)), τ))
    (hread : ∀ f ∈ (C cls).fields, selected (s.tagsFor tags) f = true → ReadsAlike L a b x y f)
    (hc : (s.forms[id]?).map FormObj.cls = some cls) :
    let I := Path.ops L
    let A := Form.map I L C n id (.data v) tags reset (.str .ignore) raising s
    let B := Form.map I L C n id (.data w) tags reset (.str .ignore) raising s
    A.2.forms = B.2.forms ∧ A.2.stack = s.stack ∧ B.2.stack = s.stack ∧
    match A.1, B.1 with
    | .ok e, .ok e' => (A.2.errors e).map bareErr = (B.2.errors e').map bareErr
    | .error x, .error y => bare x = bare y
    | _, _ => False := by
  intro I A B
  have hlex : C.All LexNode := hC.imp fun _ h => h.lexNode
  have href := Ref.mapField (I := I) (L := L) hlex n
  have hA := RefE.formMap (I := I) hlex href id (.data v) tags reset (u := .str .ignore) .str raising
    s.env s.view s hl.agree
  have hB := RefE.formMap (I := I) hlex href id (.data w) tags reset
    (u := .str .ignore) .str raising s.env s.view s hl.agree
  obtain ⟨hr, hforms⟩ := formMap_reads (L := L) hC ha hb hkv hkv' n id tags reset raising hvn hwn hv hw hread
    (env := s.env) (τ := s.view) hc
  refine ⟨hA.agree.forms.trans (hforms.trans hB.agree.forms.symm), hA.fr.stack, hB.fr.stack, ?_⟩
  have hra := hA.res
  have hrb := hB.res
  revert hr hra hrb
  show _ → _ → _ → (match A.1, B.1 with | .ok e, .ok e' => _ | .error x, .error y => _ | _, _ => _)
  generalize (Lex.formMap _ C _ id (.data v) tags reset _ raising s.env s.view).1 = u
  generalize (Lex.formMap _ C _ id (.data w) tags reset _ raising s.env s.view).1 = u'
  show _ → (match A.1, u with | .ok e, .ok es => _ | .error x, .error y => _ | _, _ => _) →
    (match B.1, u' with | .ok e, .ok es => _ | .error x, .error y => _ | _, _ => _) → _
  intro hr hra hrb
  cases hr with
  | ok h =>
    have h := h.bare trivial
    rcases hA1 : A.1 with x | e <;> rw [hA1] at hra <;> try exact hra.elim
    rcases hB1 : B.1 with y | e' <;> rw [hB1] at hrb <;> try exact hrb.elim
    dsimp only at hra hrb ⊢
    rw [← hra, ← hrb] at h
    exact h
  | error h =>
    rcases hA1 : A.1 with x | e <;> rw [hA1] at hra <;> try exact hra.elim
    rcases hB1 : B.1 with y | e' <;> rw [hB1] at hrb <;> try exact hrb.elim
    dsimp only at hra hrb ⊢
    subst hra hrb
    exact h

end
end Positional

section
variable {L : Lib} {C : Classes}
open Positional Twin

/-- C22, what is read: below a list or tuple as `Form.map` sees it, the key of the `i`-th declared field leads to
item `i`, and to nothing if there is no such item. -/
theorem C22_reads_partial {fs : List Field} {xs : List Val} {seq : Val} (hs : Seq xs seq) (hd : Declared L fs xs seq)
    {i : Nat} {f : Field} (hf : fs[i]? = some f) :
    ∃ p, (Path.ops L).append ((Path.ops L).native seq (some (seqAliases fs))) f.core.src = .ok p ∧
      ((Path.ops L).value p).1 = .ok ((xs[i]?).getD .NONE) ∧
      ((Path.ops L).exists_ p).1 = .ok (!((xs[i]?).getD .NONE).isNONE) := by
  obtain ⟨k, h1, h2, h3, h4⟩ := hd.keyed f (List.mem_of_getElem? hf)
  have hr := read_seq hs hd.keys hf h1 h3 fun hn => (hd.attrs i f k hf h1 hn).1
  refine ⟨_, rfl, ?_⟩
  rw [h2]
  have h5 : SPath.valueDflt L { aliases := some (seqAliases fs) } { root := seq, parts := [Part.ofKey (.str k)] } =
      (.ok ((xs[i]?).getD .NONE), { root := seq, parts := [{ key := .str k, raw := false, cache := some ((xs[i]?).getD .NONE) }] }) := by
    have h1 : PathSt.scan ([Part.ofKey (.str k)] : List (Part Val)).reverse = .ok none := by
      simp [PathSt.scan, Part.ofKey, Val.isStr]
    unfold SPath.valueDflt PathSt.value
    dsimp only
    rw [h1]
    dsimp only [PathSt.keys, List.map, PathSt.fill, Part.ofKey]
    rw [hr]
    dsimp only
    split <;> simp_all [Val.isStr]
  constructor
  · show (SPath.value L (.dflt { aliases := some (seqAliases fs) } { root := seq, parts := [Part.ofKey (.str k)] })).1 = _
    unfold SPath.value SPath.withValue
    simp only [h5]
  · show (SPath.exists_ L (.dflt { aliases := some (seqAliases fs) } { root := seq, parts := [Part.ofKey (.str k)] })).1 = _
    unfold SPath.exists_ SPath.withValue
    simp only [h5]

/-- C22.  Mapping a form from a list or tuple does what mapping it from the dictionary that has the `i`-th item under
the name of the `i`-th declared field does: the same values in the same forms, and the same errors.

What is missing: `Declared` (the code looks positions up by field name although it reads by `src`, see
`C22_counterexample`), `unmapped='capture'`, hooks. -/
theorem C22_positional_partial (hC : C.All (ValueHooks True)) (n id : Nat) (tags : List String) (reset raising : Bool) {cls : Nat}
    {xs : List Val} {seq : Val} (hs : Seq xs seq) (hd : Declared L (C cls).fields xs seq) {s : St Path} (hl : Live s)
    (hc : (s.forms[id]?).map FormObj.cls = some cls) :
    let I := Path.ops L
    let A := Form.map I L C n id (.data seq) tags reset (.str .ignore) raising s
    let B := Form.map I L C n id (.data (.dict (byName (C cls).fields xs))) tags reset (.str .ignore) raising s
    A.2.forms = B.2.forms ∧ A.2.stack = s.stack ∧ B.2.stack = s.stack ∧
    match A.1, B.1 with
    | .ok e, .ok e' => (A.2.errors e).map bareErr = (B.2.errors e').map bareErr
    | .error x, .error y => bare x = bare y
    | _, _ => False := by
  have hne : (seqAliases (C cls).fields).isEmpty = false := by
    have : (C cls).fields ≠ [] := hd.some
    rw [seqAliases_eq hd.keys]
    cases hfs : (C cls).fields with
    | nil => exact absurd hfs this
    | cons f fs => rfl
  obtain ⟨kv, hkv⟩ : ∃ kv, defaultMapping { aliases := some (seqAliases (C cls).fields) } [] seq = .ok kv := by
    unfold defaultMapping
    simp only [hne]
    cases hs <;> exact ⟨_, rfl⟩
  obtain ⟨kv', hkv'⟩ : ∃ kv, defaultMapping {} [] (.dict (byName (C cls).fields xs)) = .ok kv := ⟨_, rfl⟩
  refine form_reads hC (bare_seq _) bare_dict hkv hkv' n id tags reset raising (by cases hs <;> rfl) rfl hl
    (fun τ hc => ?_) (fun _ _ => rfl) (fun f hf _ => hd.read hs hf) hc
  have e2 : T.formCls id s.env τ = (.ok cls, τ) := by
    unfold T.formCls
    cases ho : τ.forms[id]? with
    | none => rw [ho] at hc; cases hc
    | some o => rw [ho] at hc; cases hc; rfl
  cases hs <;> exact (T.bind_ok e2).trans rfl

end
end Pilo
