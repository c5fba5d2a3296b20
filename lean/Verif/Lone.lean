import Verif.Closed
import Verif.Hush

/-!
# Fields without sub forms

What mapping a field without sub forms whose hooks are functions of the value gives depends on the environment and the current path only: not on the
forms, not on the errors collected so far.  And the path is the very same afterwards, caches included, when what is
kept at it is not looked up again (`Pin`).
-/

namespace Pilo
variable {P : Type} {I : PathOps P} {L : Lib} {C : Classes} {α β : Type}

/-- Paths that are some fixed path with further keys: `O d p` says that `p` has `d` of them.  Reading at such a path
stays within them. -/
structure Pin (I : PathOps P) where
  O : Nat → P → Prop
  value : ∀ {d p}, O d p → O d (I.value p).2
  exists_ : ∀ {d p}, O d p → O d (I.exists_ p).2
  isNull : ∀ {d p}, O d p → O d (I.isNull p).2
  mapping : ∀ {d p}, O d p → O d (I.mapping p).2
  sequence : ∀ {d p}, O d p → O d (I.sequence p).2
  primitive : ∀ {d p ty}, O d p → O d (I.primitive ty p).2
  append : ∀ {d p k p'}, O d p → I.append p k = .ok p' → O (d + 1) p'
  pop : ∀ {d p}, O (d + 1) p → ∃ p', I.pop p = .ok p' ∧ O d p'

namespace Lone

/-- States with the same path, whatever the forms and the errors collected. -/
structure Rel (Z : Pin I) (d : Nat) (τ σ : TSt P) : Prop where
  path : τ.path = σ.path
  over : ∀ r p, τ.path = some (some (r, p)) → Z.O d p
  errs : match τ.errs, σ.errs with
    | none, none => True
    | some b, some c => b.raising = c.raising ∧ (b.raising = true → b.items = c.items)
    | _, _ => False

/-- The errors collected. -/
def items (τ : TSt P) : List Err := τ.errs.elim [] ErrBuf.items

/-- The same result, the same errors added. -/
structure Post (Z : Pin I) (d : Nat) (τ σ : TSt P) (a b : Except Exc α × TSt P) : Prop where
  res : a.1 = b.1
  rel : Rel Z d a.2 b.2
  grew : ∃ es, items a.2 = items τ ++ es ∧ items b.2 = items σ ++ es
  /-- The list raises if it did. -/
  flag : a.2.errs.map ErrBuf.raising = τ.errs.map ErrBuf.raising
  /-- With a list that raises, there were no errors when a value is given. -/
  calm : τ.errs.map ErrBuf.raising = some true → ∀ x, a.1 = .ok x → a.2.errs = τ.errs

/-- The computation depends on the environment and the path only. -/
def Run (Z : Pin I) (t : T P α) : Prop := ∀ d env τ σ, Rel Z d τ σ → Post Z d τ σ (t env τ) (t env σ)

variable {Z : Pin I} {d : Nat}

theorem Post.still {τ σ : TSt P} (h : Rel Z d τ σ) (r : Except Exc α) : Post Z d τ σ (r, τ) (r, σ) :=
  ⟨rfl, h, ⟨[], by simp, by simp⟩, rfl, fun _ _ _ => rfl⟩

theorem Post.trans {τ σ τ' σ' : TSt P} {a b : Except Exc α × TSt P} (hg : ∃ es, items τ' = items τ ++ es ∧ items σ' = items σ ++ es)
    (hf : τ'.errs.map ErrBuf.raising = τ.errs.map ErrBuf.raising)
    (hc : τ.errs.map ErrBuf.raising = some true → ∀ x, a.1 = .ok x → a.2.errs = τ'.errs → τ'.errs = τ.errs)
    (h : Post Z d τ' σ' a b) : Post Z d τ σ a b := by
  obtain ⟨es, h1, h2⟩ := hg
  obtain ⟨fs, h3, h4⟩ := h.grew
  refine ⟨h.res, h.rel, ⟨es ++ fs, by rw [h3, h1, List.append_assoc], by rw [h4, h2, List.append_assoc]⟩, h.flag.trans hf, ?_⟩
  intro hr x hx
  have := h.calm (hf.trans hr) x hx
  rw [this]
  exact hc hr x hx this

theorem Run.pure (a : α) : Run Z (T.pure a : T P α) := fun _ _ _ _ h => .still h _
theorem Run.raise (e : Exc) : Run Z (T.raise e : T P α) := fun _ _ _ _ h => .still h _

theorem Run.bind {t : T P α} {f : α → T P β} (ht : Run Z t) (hf : ∀ a, Run Z (f a)) : Run Z (t >>= f) := by
  intro d env τ σ h
  have h1 := ht d env τ σ h
  rcases e1 : t env τ with ⟨r, τ'⟩
  rcases e2 : t env σ with ⟨r', σ'⟩
  rw [e1, e2] at h1
  have hr := h1.res
  dsimp only at hr
  subst hr
  cases r with
  | error e => rw [T.bind_error e1, T.bind_error e2]; exact ⟨rfl, h1.rel, h1.grew, h1.flag, fun _ _ h => nomatch h⟩
  | ok a =>
    rw [T.bind_ok e1, T.bind_ok e2]
    exact .trans h1.grew h1.flag (fun hr _ _ _ => h1.calm hr a rfl) (hf a d env τ' σ' h1.rel)

theorem Run.ite {c : Prop} [Decidable c] {t u : T P α} (ht : c → Run Z t) (hu : ¬c → Run Z u) :
    Run Z (if c then t else u) := by
  split
  · exact ht ‹_›
  · exact hu ‹_›

theorem Run.tryCatch {t : T P α} {f : Exc → T P α} (ht : Run Z t) (hf : ∀ e, Run Z (f e))
    (hc : (∀ env τ, (t env τ).2.errs = τ.errs) ∨
      ∀ e env τ, τ.errs.map ErrBuf.raising = some true → ∀ x, (f e env τ).1 ≠ .ok x) :
    Run Z (T.tryCatch t f) := by
  intro d env τ σ h
  have h1 := ht d env τ σ h
  unfold T.tryCatch
  rcases e1 : t env τ with ⟨r, τ'⟩
  rcases e2 : t env σ with ⟨r', σ'⟩
  rw [e1, e2] at h1
  have hr := h1.res
  dsimp only at hr
  subst hr
  cases r with
  | error e =>
    refine .trans h1.grew h1.flag (fun hr x hx _ => ?_) (hf e d env τ' σ' h1.rel)
    rcases hc with hc | hc
    · have := hc env τ
      rw [e1] at this
      exact this
    · exact absurd hx (hc e env τ' (h1.flag.trans hr) x)
  | ok a => exact h1

theorem Run.ctxGet (proj : Env → Option α) (n : String) : Run Z (T.ctxGet proj n : T P α) := by
  intro d env τ σ h
  unfold T.ctxGet
  cases proj env <;> exact .still h _

theorem Run.ctxGet? (proj : Env → Option α) : Run Z (T.ctxGet? proj : T P _) := fun _ _ _ _ h => .still h _

theorem onPath_post {d d' : Nat} {f : P → Except Exc α × P} (hf : ∀ p, Z.O d p → Z.O d' (f p).2) {τ σ : TSt P} (env : Env)
    (h : Rel Z d τ σ) : (T.onPath f env τ).1 = (T.onPath f env σ).1 ∧
      ((∃ r p, τ.path = some (some (r, p))) → Rel Z d' (T.onPath f env τ).2 (T.onPath f env σ).2) ∧
      ((∀ r p, τ.path ≠ some (some (r, p))) → (T.onPath f env τ).2 = τ ∧ (T.onPath f env σ).2 = σ) ∧
      items (T.onPath f env τ).2 = items τ ∧ items (T.onPath f env σ).2 = items σ ∧
      (T.onPath f env τ).2.errs = τ.errs := by
  unfold T.onPath
  rw [← h.path]
  cases hp : τ.path with
  | none => exact ⟨rfl, by (rintro ⟨_, _, h⟩; cases h), fun _ => ⟨rfl, rfl⟩, rfl, rfl, rfl⟩
  | some q =>
    cases q with
    | none => exact ⟨rfl, by (rintro ⟨_, _, h⟩; cases h), fun _ => ⟨rfl, rfl⟩, rfl, rfl, rfl⟩
    | some rp =>
      obtain ⟨r, p⟩ := rp
      refine ⟨rfl, fun _ => ⟨rfl, ?_, h.errs⟩, fun hn => absurd rfl (hn r p), rfl, rfl, rfl⟩
      intro r' p' e
      dsimp only at e
      cases e
      exact hf p (h.over r p hp)

theorem Run.onPath {f : P → Except Exc α × P} (hf : ∀ d p, Z.O d p → Z.O d (f p).2) : Run Z (T.onPath f) := by
  intro d env τ σ h
  obtain ⟨h1, h2, h3, h4, h5, h6⟩ := onPath_post (hf d) env h
  refine ⟨h1, ?_, ⟨[], by simpa using h4, by simpa using h5⟩, by rw [h6], fun _ _ _ => h6⟩
  by_cases hp : ∃ r p, τ.path = some (some (r, p))
  · exact h2 hp
  · obtain ⟨e1, e2⟩ := h3 fun r p e => hp ⟨r, p, e⟩
    rw [e1, e2]; exact h

theorem Run.report (k : ErrKind) : Run Z (T.report I k) := by
  unfold T.report
  refine .bind ?_ fun _ => .bind (.ctxGet _ _) fun fld => .bind ?_ fun x => ?_
  · intro d env τ σ h
    have he := h.errs
    unfold T.errsBound
    cases h1 : τ.errs with
    | none =>
      rw [h1] at he
      cases h2 : σ.errs with
      | none => exact .still h _
      | some c => rw [h2] at he; exact he.elim
    | some b =>
      rw [h1] at he
      cases h2 : σ.errs with
      | none => rw [h2] at he; exact he.elim
      | some c => exact .still h _
  · intro d env τ σ h
    unfold T.pathText
    rw [← h.path]
    split
    · exact .still h _
    · exact .still h _
    · split <;> exact .still h _
  · obtain ⟨text, pr⟩ := x
    intro d env τ σ h
    have he := h.errs
    dsimp only
    unfold T.record
    cases h1 : τ.errs with
    | none =>
      rw [h1] at he
      cases h2 : σ.errs with
      | none => exact .still h _
      | some c => rw [h2] at he; exact he.elim
    | some b =>
      rw [h1] at he
      cases h2 : σ.errs with
      | none => rw [h2] at he; exact he.elim
      | some c =>
        rw [h2] at he
        obtain ⟨hb, hi⟩ := he
        dsimp only
        refine ⟨?_, ⟨h.path, h.over, hb, fun hr => by rw [hi hr]⟩,
          ⟨[{ kind := k, path := text, field := fld, pathRef := pr }], ?_, ?_⟩, by rw [h1]; rfl, ?_⟩
        · dsimp only
          rw [← hb]
          split
          · rw [hi ‹_›]
          · rfl
        · show b.items ++ _ = items τ ++ _
          unfold items; rw [h1]; rfl
        · show c.items ++ _ = items σ ++ _
          unfold items; rw [h2]; rfl
        · intro hr x hx
          rw [h1] at hr
          have hr : b.raising = true := by simpa using hr
          rw [hr] at hx
          cases hx

theorem Run.withEnv (g : Env → Env) {t : T P α} (ht : Run Z t) : Run Z (T.withEnv g t) :=
  fun d env τ σ h => ht d (g env) τ σ h

theorem Run.withKey (k : Val) {t : T P α} (ht : Run Z t) : Run Z (T.withKey I k t) := by
  intro d env τ σ h
  unfold T.withKey
  by_cases hp : ∃ r p, τ.path = some (some (r, p))
  · obtain ⟨r, p, hp⟩ := hp
    have hq : σ.path = some (some (r, p)) := h.path ▸ hp
    have hO := h.over r p hp
    cases ha : I.append p k with
    | error e =>
      have e1 : T.onPath (pathAppend I k) env τ = (.error e, τ) := by
        unfold T.onPath; rw [hp]; simp only [pathAppend, ha]
        rw [← hp]
      have e2 : T.onPath (pathAppend I k) env σ = (.error e, σ) := by
        unfold T.onPath; rw [hq]; simp only [pathAppend, ha]
        rw [← hq]
      rw [e1, e2]
      exact .still h _
    | ok p1 =>
      have e1 : T.onPath (pathAppend I k) env τ = (.ok (), { τ with path := some (some (r, p1)) }) := by
        unfold T.onPath; rw [hp]; simp only [pathAppend, ha]
      have e2 : T.onPath (pathAppend I k) env σ = (.ok (), { σ with path := some (some (r, p1)) }) := by
        unfold T.onPath; rw [hq]; simp only [pathAppend, ha]
      rw [e1, e2]
      dsimp only
      have h1 := ht (d + 1) { env with src := some (!k.isNull) } { τ with path := some (some (r, p1)) }
        { σ with path := some (some (r, p1)) } ⟨rfl, (by intro r' p' e; cases e; exact Z.append hO ha), h.errs⟩
      rcases e3 : t { env with src := some (!k.isNull) } { τ with path := some (some (r, p1)) } with ⟨r3, τ3⟩
      rcases e4 : t { env with src := some (!k.isNull) } { σ with path := some (some (r, p1)) } with ⟨r4, σ4⟩
      rw [e3, e4] at h1
      have hr := h1.res
      dsimp only at hr
      subst hr
      have hrel := h1.rel
      have hg : ∃ es, items τ3 = items τ ++ es ∧ items σ4 = items σ ++ es := h1.grew
      dsimp only
      have hpq := hrel.path
      dsimp only at hpq
      unfold T.onPath
      rw [← hpq]
      cases hp3 : τ3.path with
      | none =>
        refine ⟨rfl, ⟨hpq, fun r p e => ?_, hrel.errs⟩, hg, h1.flag, (by intro _ x h; cases h)⟩
        dsimp only at e
        rw [hp3] at e; cases e
      | some q3 =>
        cases q3 with
        | none =>
          refine ⟨rfl, ⟨hpq, fun r p e => ?_, hrel.errs⟩, hg, h1.flag, (by intro _ x h; cases h)⟩
          dsimp only at e
          rw [hp3] at e; cases e
        | some rp =>
          obtain ⟨r', p3⟩ := rp
          obtain ⟨p4, h5, h6⟩ := Z.pop (hrel.over r' p3 hp3)
          simp only [pathPop, h5]
          exact ⟨rfl, ⟨rfl, by (intro r p e; cases e; exact h6), hrel.errs⟩, hg, h1.flag, h1.calm⟩
  · have hn : ∀ r p, τ.path ≠ some (some (r, p)) := fun r p e => hp ⟨r, p, e⟩
    unfold T.onPath
    rw [← h.path]
    cases hp : τ.path with
    | none => exact .still h _
    | some q =>
      cases q with
      | none => exact .still h _
      | some rp => exact absurd hp (hn rp.1 rp.2)

/-- The kinds of fields without sub forms and key filters. -/
def formless : Kind → Prop
  | .subform .. => False
  | .poly .. => False
  | .dict _ _ kfl _ _ => kfl = none
  | _ => True

/-- Mapping fields without sub forms, whose hooks are functions of the value, depends on the environment and the path only. -/
def closed (Z : Pin I) (L : Lib) (C : Classes) : Closed I L C where
  U t := Run Z t
  ok := formless
  fok _ := False
  frm := False
  okString := trivial
  okBase := trivial
  okDict _ _ _ h := h.elim
  okFilter _ _ _ _ _ h := nomatch h
  okSub _ _ _ h := h.elim
  okPoly _ _ _ _ _ h := h.elim
  asks := True
  form _ := .ctxGet _ _
  pure := .pure
  raise := .raise
  bind := .bind
  ctxGet _ _ _ := .ctxGet _ _
  ctxGet? _ _ := .ctxGet? _
  value := .onPath fun _ _ h => Z.value h
  exists_ := .onPath fun _ _ h => Z.exists_ h
  isNull := .onPath fun _ _ h => Z.isNull h
  mapping := .onPath fun _ _ h => Z.mapping h
  sequence := .onPath fun _ _ h => Z.sequence h
  primitive _ := .onPath fun _ _ h => Z.primitive h
  hasSrc := .onPath fun _ _ h => h
  report := .report
  seqTry := by
    unfold Lex.seqTry
    refine .tryCatch (.bind (.onPath fun _ _ h => Z.sequence h) fun _ => .pure _) (fun e => ?_) (.inl fun env τ => ?_)
    · exact .bind (.onPath fun _ _ h => h) fun _ => .ite (fun _ => .raise _) fun _ => .ite (fun _ => .pure _) fun _ => .raise _
    · rcases h : T.onPath I.sequence env τ with ⟨r, τ'⟩
      have h' : τ'.errs = τ.errs := by
        have : (T.onPath I.sequence env τ).2.errs = τ.errs := by unfold T.onPath; split <;> rfl
        rwa [h] at this
      cases r with
      | ok n => rw [T.bind_ok h]; exact h'
      | error e => rw [T.bind_error h]; exact h'
  compute h := .tryCatch h (fun e => .ite (fun _ => .bind (.report _) fun _ => .pure _) fun _ => .raise _) <| .inr <| by
    intro e env τ hr x
    split
    · cases hb : τ.errs with
      | none => rw [hb] at hr; cases hr
      | some b =>
        rw [hb] at hr
        obtain ⟨e', τ', h'⟩ := report_raises (I := I) (k := .invalid e.str) (env := env) hb (by simpa using hr)
        unfold Lex.failWith Lex.invalid
        rw [T.bind_error h']
        intro h; cases h
    · intro h; cases h
  withEnv g _ _ _ h := .withEnv g h
  withKey _ h := .withKey _ h
  rawKey _ _ h := .withKey _ h
  rawStart _ _ h := .withKey _ h
  nested h := h.elim
  root h := h.elim
  formItems _ h := h.elim
  formCls _ h := h.elim
  formModify _ _ _ := fun _ _ _ _ h => ⟨rfl, ⟨h.path, h.over, h.errs⟩, ⟨[], by simp [items, T.formModify], by simp [items, T.formModify]⟩, rfl, fun _ _ _ => rfl⟩
  formParent _ _ := fun _ _ _ _ h => ⟨rfl, ⟨h.path, h.over, h.errs⟩, ⟨[], by simp [items, T.formParent], by simp [items, T.formParent]⟩, rfl, fun _ _ _ => rfl⟩
  newForm _ _ h := h.elim
  poly h := h.elim

end Lone
end Pilo
