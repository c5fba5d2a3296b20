import Verif.Props.Steps
import Verif.ValEq
import Verif.Demo

/-!
# C92: default hooks, and `ctx.ignore_default`

A `default` hook that returns `v` stands for the default `v`, wherever a default is called for: when the source has no
value, when `munge` gives `NONE` and when `filter` drops the value. `with ctx(ignore_default=True)` switches defaults off;
a hook is an exception when the source has no value (`pilo/fields.py:571-572` calls it without asking), which
`C92_counterexample` shows.
-/

namespace Pilo
variable {P : Type} {I : PathOps P} {L : Lib} {C : Classes} {W : LawfulPath I}

/-- The field with another default. -/
def Field.defaulting : Field → Default → Field
  | .mk c k, d => .mk { c with default := d } k

namespace Lex

theorem default_says {trec : TRec P} {f : Field} {v : Val} (hd : f.core.default = .hook (says v) ∨ (f.core.default = .value v ∧ PlainDefault v))
    {env : Env} (hctx : env.ignoreDefault = some false) (τ : TSt P) : fieldDefault I L C trec f env τ = (.ok v, τ) := by
  unfold fieldDefault
  rw [T.bind_ok (show T.ctxGet Env.ignoreDefault "ignore_default" env τ = (.ok false, τ) by unfold T.ctxGet; rw [hctx])]
  rw [if_neg (by simp)]
  rcases hd with hd | ⟨hd, h1, h2⟩
  · rw [hd]; rfl
  · rw [hd]
    cases v with
    | const c => cases c <;> first | rfl | exact absurd rfl h1
    | func id => exact absurd rfl (h2 id)
    | _ => rfl

theorem bind_congr {α β : Type} {m : T P α} {k k' : α → T P β} {env : Env} {τ : TSt P} (h : ∀ a τ', k a env τ' = k' a env τ') :
    T.bind m k env τ = T.bind m k' env τ := by
  unfold T.bind
  rcases m env τ with ⟨_ | a, τ'⟩
  · rfl
  · exact h a τ'

theorem ite_congr_run {α : Type} {c : Prop} [Decidable c] {a a' b b' : T P α} {env : Env} {τ : TSt P} (h : c → a env τ = a' env τ)
    (h' : ¬ c → b env τ = b' env τ) : (if c then a else b) env τ = (if c then a' else b') env τ := by
  split
  · exact h ‹_›
  · exact h' ‹_›

variable {trec : TRec P} {f g : Field} {v : Val} {env : Env}

/-- Two fields that differ in the default only. -/
structure But (f g : Field) : Prop where
  kind : g.kind = f.kind
  core : ∃ d, g.core = { f.core with default := d }

theorem But.get {α : Type} (h : But f g) (p : FieldCore → α) (hp : ∀ c d, p { c with default := d } = p c) : p g.core = p f.core := by
  obtain ⟨d, hd⟩ := h.core
  rw [hd, hp]

theorem check_but (hb : But f g) (h : ∀ τ, fieldDefault I L C trec f env τ = fieldDefault I L C trec g env τ) (w : Val) (τ : TSt P) :
    fieldCheck I L C trec f w env τ = fieldCheck I L C trec g w env τ := by
  have hm : mungeStep I L C trec f w = mungeStep I L C trec g w := by
    unfold mungeStep fieldMunge
    rw [hb.get FieldCore.translations (fun _ _ => rfl), hb.get FieldCore.munge (fun _ _ => rfl)]
  have hfi : ∀ w, filterStep I L C trec f w = filterStep I L C trec g w := by
    intro w
    unfold filterStep fieldFilter
    rw [hb.get FieldCore.ignores (fun _ _ => rfl), hb.get FieldCore.filter (fun _ _ => rfl)]
  have hva : ∀ w, validateStep I L C trec f w = validateStep I L C trec g w := by
    intro w
    obtain ⟨c, k⟩ := f
    obtain ⟨c', k'⟩ := g
    obtain ⟨hk, d, hd⟩ := hb
    replace hk : k' = k := hk
    replace hd : c' = { c with default := d } := hd
    subst hk hd
    cases k' <;> rfl
  unfold fieldCheck
  rw [hm]
  refine bind_congr fun w τ => ?_
  refine ite_congr_run (fun _ => h τ) fun _ => ite_congr_run (fun _ => rfl) fun _ => ?_
  rw [hfi, hva]
  refine bind_congr fun keep τ => ?_
  exact ite_congr_run (fun _ => h τ) fun _ => rfl

theorem compute_but (hb : But f g) (h : ∀ τ, fieldDefault I L C trec f env τ = fieldDefault I L C trec g env τ) (τ : TSt P) :
    computeStep I L C trec f env τ = computeStep I L C trec g env τ := by
  have hk : ∀ τ, kindParse I L C trec f env τ = kindParse I L C trec g env τ := by
    intro τ
    unfold kindParse
    rw [hb.kind]
    cases f.kind with
    | dict kf vf kfl r m =>
      refine bind_congr fun o τ => ?_
      cases o with
      | none => exact h τ
      | some kv => rfl
    | group fs =>
      refine bind_congr fun o τ => ?_
      cases o with
      | none => exact h τ
      | some kv => rfl
    | _ => rfl
  have hp : ∀ τ, fieldParse I L C trec f env τ = fieldParse I L C trec g env τ := by
    intro τ
    unfold fieldParse
    rw [hb.get FieldCore.parse (fun _ _ => rfl)]
    cases f.core.parse with
    | none => exact hk τ
    | some h => rfl
  unfold computeStep
  rw [hb.get FieldCore.compute (fun _ _ => rfl)]
  cases f.core.compute with
  | some h => rfl
  | none =>
    refine bind_congr fun ex τ => ?_
    refine ite_congr_run (fun _ => rfl) fun _ => bind_congr fun nl τ => ?_
    refine ite_congr_run (fun _ => rfl) fun _ => ?_
    unfold T.tryCatch
    dsimp only
    rw [hp τ]

theorem start_but (hb : But f g) (hf : f.core.default = .hook (says v)) (hg : g.core.default = .value v) (hv : PlainDefault v)
    (hctx : env.ignoreDefault = some false) (τ : TSt P) : fieldStart I L C trec f env τ = fieldStart I L C trec g env τ := by
  have hd : ∀ τ, fieldDefault I L C trec f env τ = (.ok v, τ) := default_says (.inl hf) hctx
  have hd' : ∀ τ, fieldDefault I L C trec g env τ = (.ok v, τ) := default_says (.inr ⟨hg, hv⟩) hctx
  have he := fun τ => (hd τ).trans (hd' τ).symm
  have hc := compute_but (I := I) (L := L) (C := C) hb he τ
  unfold fieldStart
  show T.bind _ _ env τ = T.bind _ _ env τ
  unfold T.bind
  rw [hc]
  rcases computeStep I L C trec g env τ with ⟨_ | w, τ'⟩
  · rfl
  · dsimp only
    refine ite_congr_run (fun _ => ?_) fun _ => ite_congr_run (fun _ => rfl) fun _ => check_but hb he w τ'
    rw [hf, hg]
    exact (hd' τ').symm

theorem resolve_but (hb : But f g) {α : Type} {b b' : T P α}
    (h : ∀ env', env'.ignoreDefault = env.ignoreDefault → ∀ τ, b env' τ = b' env' τ) (τ : TSt P) :
    withResolve I L C trec f b env τ = withResolve I L C trec g b' env τ := by
  have hkey : ∀ k τ, T.withKey I k b env τ = T.withKey I k b' env τ := by
    intro k τ
    unfold T.withKey
    have := h { env with src := some (!k.isNull) } rfl
    simp only [this]
  have hsrc : ∀ mk τ, T.withSource mk b env τ = T.withSource mk b' env τ := by
    intro mk τ
    unfold T.withSource
    have := h { env with src := some true } rfl
    simp only [this]
  unfold withResolve
  rw [hb.get FieldCore.resolve (fun _ _ => rfl), hb.get FieldCore.src (fun _ _ => rfl), hb.kind]
  cases f.core.resolve with
  | none =>
    dsimp only
    cases f.kind with
    | group fs => exact h env rfl τ
    | _ => exact ite_congr_run (fun _ => h env rfl τ) fun _ => hkey _ τ
  | some rh =>
    cases rh with
    | key hk => exact bind_congr fun k τ => ite_congr_run (fun _ => h env rfl τ) fun _ => hkey k τ
    | data hk => exact bind_congr fun k τ => ite_congr_run (fun _ => h env rfl τ) fun _ => hsrc _ τ

theorem map_but (hb : But f g) (hf : f.core.default = .hook (says v)) (hg : g.core.default = .value v) (hv : PlainDefault v)
    (hctx : env.ignoreDefault = some false) (n : Nat) (w : Val) (τ : TSt P) :
    Lex.mapField I L C (n + 1) f w env τ = Lex.mapField I L C (n + 1) g w env τ := by
  have hi : ∀ env τ, env.ignoreDefault = some false → Lex.fieldMapInner I L C (Lex.mapField I L C n) f w env τ =
      Lex.fieldMapInner I L C (Lex.mapField I L C n) g w env τ := by
    intro env τ hctx
    have hd : ∀ τ, fieldDefault I L C (Lex.mapField I L C n) f env τ = (.ok v, τ) := default_says (.inl hf) hctx
    have hd' : ∀ τ, fieldDefault I L C (Lex.mapField I L C n) g env τ = (.ok v, τ) := default_says (.inr ⟨hg, hv⟩) hctx
    unfold Lex.fieldMapInner
    exact ite_congr_run (fun _ => resolve_but hb (fun env' he τ => start_but hb hf hg hv (he.trans hctx) τ) τ)
      fun _ => check_but hb (fun τ => (hd τ).trans (hd' τ).symm) w τ
  have hname : g.name = f.name := hb.get FieldCore.name (fun _ _ => rfl)
  show T.bind _ _ env τ = T.bind _ _ env τ
  unfold T.bind T.withEnv
  rw [hi { env with field := some f.name, parent := some .field } τ hctx, hname, hb.get FieldCore.attachParent (fun _ _ => rfl)]

end Lex

/-- C92. Where defaults are on, a `default` hook that returns `v` stands for the default `v`: mapping the field, from the
source or with a given value, has the same outcome. -/
theorem C92_hook {f : Field} {v : Val} (hv : PlainDefault v) (hC : C.All LexNode) (hf : f.All LexNode) (n : Nat) (w : Val)
    {s : St P} (hl : Live s) (hctx : s.env.ignoreDefault = some false) :
    let A := mapField I L C (n + 1) (f.defaulting (.hook (says v))) w s
    let B := mapField I L C (n + 1) (f.defaulting (.value v)) w s
    A.1 = B.1 ∧ curErrs A.2 = curErrs B.2 ∧ A.2.forms = B.2.forms := by
  intro A B
  have hd : ∀ d : Default, d.Lex → (f.defaulting d).All LexNode := by
    intro d h
    obtain ⟨c, k⟩ := f
    cases hf with
    | mk h1 h2 => exact .mk ⟨h, h1.resolve, h1.compute, h1.parse, h1.munge, h1.filter, h1.validate, h1.keyFilter⟩ h2
  have h1 := (Ref.mapField (I := I) (L := L) hC (n + 1) _ w (hd (.hook (says v)) (says_lex v))).run hl
  have h2 := (Ref.mapField (I := I) (L := L) hC (n + 1) _ w (hd (.value v) trivial)).run hl
  rw [Lex.map_but (g := f.defaulting (.value v)) (by obtain ⟨c, k⟩ := f; exact ⟨rfl, _, rfl⟩) (by obtain ⟨c, k⟩ := f; rfl)
    (by obtain ⟨c, k⟩ := f; rfl) hv hctx] at h1
  exact ⟨h1.1.trans h2.1.symm, h1.2.1.trans h2.2.1.symm, h1.2.2.1.trans h2.2.2.1.symm⟩

/-- C92 for hook-free fields whose default is a value: `ctx(ignore_default=True)` makes it missing. What is not covered: default
hooks, for which it is false (`C92_counterexample`). -/
theorem C92_ignored_partial {f : Field} {rec : Rec P} {s : St P} {r : Nat} {q : P} {text : String} {b : ErrBuf} {v : Val}
    (sp : Spot I W f s r q text b) (hf : HookFree f) (ha : f.core.attachParent = false) (hq : Absent I q)
    (_hd : f.core.default = .value v) (hctx : s.env.ignoreDefault = some true) (hm : s.env.ignoreMissing = some false) :
    Adds (mapFieldF I L C rec f .NONE) s .NOT_SET { kind := .missing, path := text, field := f.name, pathRef := some r } :=
  C11_missing sp hf ha hq (.inr (.inr hctx)) hm

namespace Demo

/-- A context `with ctx(ignore_default=True)`. -/
def bare (v : Val) : St SPath :=
  { here (SPath.ops lib) v with stack := { ignoreDefault := some true } :: (here (SPath.ops lib) v).stack }

/-- `a = Integer(default=7)`, and with a hook: `@a.default def a(self): return 7`. -/
def seven : Field := .mk { name := some "a", src := .str "a", default := .value (.int 7) } (.integer {})
def sevenHook : Field := .mk { name := some "a", src := .str "a", default := .hook (says (.int 7)) } (.integer {})

local macro "run" f:term:max s:term:max : term => `(mapField (SPath.ops lib) lib noClasses (3 + 1) $f .NONE $s)

/-- Where defaults are on, they are alike: without a value, and for one that is dropped. -/
example : let A := run sevenHook (here (SPath.ops lib) (.dict []))
    let B := run seven (here (SPath.ops lib) (.dict []))
    A.1 = B.1 ∧ curErrs A.2 = curErrs B.2 ∧ A.2.forms = B.2.forms :=
  C92_hook (f := field "a" (.integer {})) (v := .int 7) ⟨by decide, by intro _ h; cases h⟩ noClasses_lex
    (plain_lex (c := { name := some "a", src := .str "a" }) (k := .integer {}) .integer) 3 .NONE
    (here_live _) rfl

/-- With `ignore_default`, the value is not used and the field is missing; the hook is used. -/
theorem C92_counterexample :
    ((run seven (bare (.dict []))).1.toOption, (curErrs (run seven (bare (.dict []))).2).map fun b => b.items.map Err.kind) =
      (some .NOT_SET, some [.missing]) ∧
    ((run sevenHook (bare (.dict []))).1.toOption, (curErrs (run sevenHook (bare (.dict []))).2).map fun b => b.items.map Err.kind) =
      (some (.int 7), some []) := by
  decide +kernel

end Demo

end Pilo
