import Verif.Says
import Verif.Leaf

/-!
# Leaf fields report at most one error

`Once S t c`: when `t` returns a result `a`, exactly one error was added if `c a` holds and none otherwise;
when `t` raises, none was added.
-/

namespace Pilo

section
variable {P : Type} {I : PathOps P} (S : Sane I)

/-- A mapping that collects errors in `b`, without `ignore_missing`. -/
structure Coll (env : Env) (τ : TSt P) (b : ErrBuf) : Prop where
  ignoreMissing : env.ignoreMissing = some false
  errs : τ.errs = some b
  collect : b.raising = false
  q : QT S τ

/-- The number of errors that go with a result. -/
def count {α : Type} (c : α → Bool) : Except Exc α → Nat
  | .ok a => if c a then 1 else 0
  | .error _ => 0

def Once {α : Type} (t : T P α) (c : α → Bool) : Prop :=
  ∀ env τ b, Coll S env τ b → ∃ es, (t env τ).2.errs = some { b with items := b.items ++ es } ∧
    QT S (t env τ).2 ∧ es.length = count c (t env τ).1

variable {S} {α β : Type}

/-- No errors at all. -/
abbrev Still {α : Type} (S : Sane I) (t : T P α) : Prop := Once S t fun _ => false

theorem Once.state {t : T P α} {c : α → Bool} (h : ∀ env τ, (t env τ).2 = τ)
    (hc : ∀ env τ b, Coll S env τ b → ∀ a, (t env τ).1 = .ok a → c a = false) : Once S t c := by
  intro env τ b hi
  refine ⟨[], by rw [h, hi.errs]; simp, by rw [h]; exact hi.q, ?_⟩
  cases hr : (t env τ).1 with
  | error e => rfl
  | ok a => simp [count, hc env τ b hi a hr]

theorem Once.pure {a : α} {c : α → Bool} (h : c a = false) : Once S (T.pure a : T P α) c :=
  .state (fun _ _ => rfl) fun _ _ _ _ b hb => by cases hb; exact h

theorem Once.raise {e : Exc} {c : α → Bool} : Once S (T.raise e : T P α) c :=
  .state (fun _ _ => rfl) fun _ _ _ _ b hb => by cases hb

theorem Once.ofExcept {r : Except Exc α} {c : α → Bool} (h : ∀ a, r = .ok a → c a = false) :
    Once S (T.ofExcept r : T P α) c :=
  .state (fun _ _ => rfl) fun _ _ _ _ b hb => h b hb

theorem Once.ctxGet? (proj : Env → Option α) : Still S (T.ctxGet? proj : T P _) :=
  .state (fun _ _ => rfl) fun _ _ _ _ _ _ => rfl

theorem Once.ctxGet (proj : Env → Option α) (n : String) : Still S (T.ctxGet proj n : T P _) :=
  .state (fun env τ => by unfold T.ctxGet; cases proj env <;> rfl) fun _ _ _ _ _ _ => rfl

/-- After a failure the result only says so. -/
theorem Once.bind {t : T P α} {f : α → T P β} {c : α → Bool} {d : β → Bool} (h : Once S t c)
    (hq : ∀ a, c a = true → ∃ x, f a = T.pure x ∧ d x = true) (hf : ∀ a, c a = false → Once S (f a) d) :
    Once S (t >>= f) d := by
  intro env τ b hi
  obtain ⟨es, h1, h2, h3⟩ := h env τ b hi
  rcases ht : t env τ with ⟨r, τ'⟩
  rw [ht] at h1 h2 h3
  cases r with
  | error e => rw [T.bind_error ht]; exact ⟨es, h1, h2, h3⟩
  | ok a =>
    rw [T.bind_ok ht]
    cases hca : c a with
    | true =>
      obtain ⟨x, hx, hd⟩ := hq a hca
      rw [hx]
      refine ⟨es, h1, h2, ?_⟩
      rw [h3]
      simp [count, T.pure, hca, hd]
    | false =>
      have hes : es = [] := by
        rw [← List.length_eq_zero_iff, h3]
        simp [count, hca]
      subst hes
      obtain ⟨es', g1, g2, g3⟩ := hf a hca env τ' b
        ⟨hi.ignoreMissing, by rw [h1]; simp, hi.collect, h2⟩
      exact ⟨es', g1, g2, g3⟩

theorem Once.seq {t : T P α} {f : α → T P β} {d : β → Bool} (h : Still S t)
    (hf : ∀ a, Once S (f a) d) : Once S (t >>= f) d :=
  .bind h (fun _ h => by cases h) fun a _ => hf a

theorem Once.tryCatch {t : T P α} {h : Exc → T P α} {c : α → Bool} (ht : Once S t c)
    (hh : ∀ e, Once S (h e) c) : Once S (T.tryCatch t h) c := by
  intro env τ b hi
  obtain ⟨es, h1, h2, h3⟩ := ht env τ b hi
  unfold T.tryCatch
  rcases hr : t env τ with ⟨r, τ'⟩
  rw [hr] at h1 h2 h3
  cases r with
  | ok a => exact ⟨es, h1, h2, h3⟩
  | error e =>
    have hes : es = [] := by
      rw [← List.length_eq_zero_iff, h3]
      rfl
    subst hes
    exact hh e env τ' b ⟨hi.ignoreMissing, by rw [h1]; simp, hi.collect, h2⟩

theorem Once.ite {c : Prop} [Decidable c] {t u : T P α} {d : α → Bool} (ht : c → Once S t d)
    (hu : ¬c → Once S u d) : Once S (if c then t else u) d := by
  split
  · exact ht ‹_›
  · exact hu ‹_›

theorem Once.onPath {f : P → Except Exc α × P} {c : α → Bool}
    (h : ∀ p, S.Q p → S.Q (f p).2 ∧ ∀ a, (f p).1 = .ok a → c a = false) : Once S (T.onPath f) c := by
  intro env τ b hi
  unfold T.onPath
  rcases hp : τ.path with _ | _ | ⟨r, p⟩
  · exact ⟨[], by simp [hi.errs], hi.q, rfl⟩
  · exact ⟨[], by simp [hi.errs], hi.q, rfl⟩
  · obtain ⟨h1, h2⟩ := h p (hi.q r p hp)
    refine ⟨[], by simp [hi.errs], ?_, ?_⟩
    · intro r' q' hq; cases hq; exact h1
    · dsimp only
      cases hr : (f p).1 with
      | error e => rfl
      | ok a => simp [count, h2 a hr]

theorem Once.value : Still S (T.onPath I.value) := .onPath fun _ h => ⟨S.value h, fun _ _ => rfl⟩
theorem Once.exists_ : Still S (T.onPath I.exists_) := .onPath fun _ h => ⟨S.exists_ h, fun _ _ => rfl⟩
theorem Once.isNull : Still S (T.onPath I.isNull) := .onPath fun _ h => ⟨S.isNull h, fun _ _ => rfl⟩
theorem Once.primitive (ty : PTy) : Once S (T.onPath (I.primitive ty)) Val.isMark :=
  .onPath fun _ h => ⟨S.primitive h, fun _ ha => S.read h ha⟩
theorem Once.primitiveQ (ty : PTy) : Still S (T.onPath (I.primitive ty)) :=
  .onPath fun _ h => ⟨S.primitive h, fun _ _ => rfl⟩

theorem Once.withEnv {g : Env → Env} {t : T P α} {c : α → Bool} (h : Once S t c)
    (hm : ∀ env : Env, (g env).ignoreMissing = env.ignoreMissing := by intro _; rfl) :
    Once S (T.withEnv g t) c := by
  intro env τ b hi
  exact h (g env) τ b ⟨by rw [hm, hi.ignoreMissing], hi.errs, hi.collect, hi.q⟩

theorem Once.pathText : Still S (T.pathText I) := .state (fun env τ => by
  unfold T.pathText
  rcases τ.path with _ | _ | ⟨r, p⟩
  · rfl
  · rfl
  · cases h : I.render p <;> simp only [h]) fun _ _ _ _ _ _ => rfl

theorem Once.errsBound : Still S (T.errsBound : T P Unit) :=
  .state (fun env τ => by unfold T.errsBound; cases τ.errs <;> rfl) fun _ _ _ _ _ _ => rfl

theorem Once.record (e : Err) : Once S (T.record e : T P Unit) fun _ => true := by
  intro env τ b hi
  unfold T.record
  rw [hi.errs]
  exact ⟨[e], rfl, hi.q, by simp [count, hi.collect]⟩

theorem Once.report (k : ErrKind) : Once S (T.report I k) fun _ => true := by
  unfold T.report
  exact .seq .errsBound fun _ => .seq (.ctxGet _ _) fun _ => .seq .pathText fun _ => .record _

theorem Once.afterReport {k : ErrKind} {x : α} {c : α → Bool} (h : c x = true) :
    Once S (T.report I k >>= fun _ => T.pure x) c :=
  .bind (.report k) (fun _ _ => ⟨x, rfl, h⟩) fun _ h => by cases h

/-- Popping the key cannot fail after a lawful append, so the result stands. -/
theorem Once.withKey (W : LawfulPath I) {k : Val} {t : T P α} {c : α → Bool} (ht : TKeeps W (fun _ => False) t)
    (h : Once S t c) : ∀ env τ b, TWF W τ → Coll S env τ b →
      ∃ es, (T.withKey I k t env τ).2.errs = some { b with items := b.items ++ es } ∧
        QT S (T.withKey I k t env τ).2 ∧ es.length = count c (T.withKey I k t env τ).1 := by
  intro env τ b hw hi
  rcases hp : τ.path with _ | _ | ⟨r, p⟩
  · unfold T.withKey T.onPath; simp only [hp]; exact ⟨[], by simp [hi.errs], hi.q, rfl⟩
  · unfold T.withKey T.onPath; simp only [hp]; exact ⟨[], by simp [hi.errs], hi.q, rfl⟩
  · have hwp := hw r p hp
    have hqp := hi.q r p hp
    cases hap : I.append p k with
    | error e =>
      unfold T.withKey
      rw [T.onPath_run hp]
      simp only [pathAppend, hap]
      exact ⟨[], by simp [hi.errs], by intro r' q' h; cases h; exact hqp, rfl⟩
    | ok q =>
      obtain ⟨hk, hwq⟩ := W.append_keys hwp hap
      have h1 := ht { env with src := some (!k.isNull) } { τ with path := some (some (r, q)) }
        (by intro r' q' hq'; cases hq'; exact hwq)
      obtain ⟨es, g1, g2, g3⟩ := h { env with src := some (!k.isNull) }
        { τ with path := some (some (r, q)) } b
        ⟨hi.ignoreMissing, hi.errs, hi.collect, by intro r' q' h; cases h; exact S.append hqp hap⟩
      rcases hr : t { env with src := some (!k.isNull) } { τ with path := some (some (r, q)) }
        with ⟨res, τ2⟩
      rw [hr] at h1 g1 g2 g3
      obtain ⟨q2, hq2, hs2⟩ := h1.path
      obtain ⟨p3, hpop, -⟩ := W.pop_keys (p := q2) (ks := I.keys p) (k := k) hs2.wf
        (by rw [hs2.keys, hk])
      rw [T.withKey_run hp hap hr hq2 hpop]
      exact ⟨es, g1, by intro r' q' h; cases h; exact S.pop (g2 _ _ hq2) hpop, g3⟩

end

macro "once_step" : tactic => `(tactic| first
  | ((with_reducible refine Once.pure ?_); rfl)
  | ((with_reducible refine Once.ofExcept ?_); exact fun _ _ => rfl)
  | with_reducible first
  | assumption
  | exact Once.raise
  | exact Once.ctxGet _ _ | exact Once.ctxGet? _
  | exact Once.value | exact Once.exists_ | exact Once.isNull
  | refine Once.tryCatch ?_ ?_
  | refine Once.seq ?_ ?_
  | refine Once.ite ?_ ?_
  | intro _
  | split
  | dsimp only)

macro "onces" "[" ts:term,* "]" : tactic => do
  let ts := ts.getElems
  `(tactic| repeat' first $[| with_reducible apply $ts]* | once_step)

section
variable {P : Type} {I : PathOps P} {S : Sane I} {L : Lib} {C : Classes} {α β : Type} {rec : TRec P}

theorem Once.failWith (m : String) : Once S (Lex.failWith I m) Val.isMark := .afterReport rfl
theorem Once.rejectWith (m : String) : Once S (Lex.rejectWith I m) (!·) := .afterReport rfl

theorem Once.missingNotSet : Once S (Lex.missingNotSet I) Val.isIgnore := by
  intro env τ b hi
  unfold Lex.missingNotSet Lex.missing
  rw [T.bind_ok (show T.ctxGet Env.ignoreMissing "ignore_missing" env τ = (.ok false, τ) by
    unfold T.ctxGet; rw [hi.ignoreMissing])]
  exact Once.afterReport (S := S) (c := Val.isIgnore) rfl env τ b hi

theorem Once.baseValidate (f : Field) (v : Val) : Once S (Lex.baseValidate I f v) (!·) := by
  unfold Lex.baseValidate
  exact .ite (fun _ => .rejectWith _) fun _ => .pure rfl

theorem Once.stringValidate (f : Field) (cfg : StrCfg) (v : Val) :
    Once S (Lex.stringValidate I L f cfg v) (!·) := by
  unfold Lex.stringValidate
  onces [Once.rejectWith]

theorem Once.rangeValidate (lo hi : Option Val) (a b : Val → Val → String) (v : Val) :
    Once S (Lex.rangeValidate I L lo hi a b v) (!·) := by
  unfold Lex.rangeValidate
  onces [Once.rejectWith]

theorem Once.kindValidate {f : Field} (hk : f.kind.leaf = true) (v : Val) :
    Once S (Lex.kindValidate I L f v) (!·) := by
  unfold Lex.kindValidate Lex.numberValidate Lex.dateValidate
  refine .bind (.baseValidate f v) ?_ ?_
  · intro a ha
    rw [ha]
    exact ⟨false, rfl, rfl⟩
  · intro a ha
    rw [ha]
    simp only [Bool.false_eq_true, if_false]
    refine .ite (fun _ => .pure rfl) fun _ => ?_
    cases hkind : f.kind <;> first
      | (rw [hkind] at hk; cases hk; done)
      | exact .pure rfl
      | exact .stringValidate _ _ _
      | exact .rangeValidate _ _ _ _ _

theorem Once.decimalParse : Once S (Lex.decimalParse I L) Val.isMark := by
  unfold Lex.decimalParse
  onces [Once.primitiveQ]

theorem dateLoop_mark (s : String) (fs : List String) : (dateLoop L s fs).isMark = false := by
  induction fs with
  | nil => rfl
  | cons f fs ih =>
    unfold dateLoop
    repeat' split
    all_goals first | rfl | exact ih

theorem Once.dateParse (cfg : DateCfg) : Once S (Lex.dateParse I L cfg) Val.isMark := by
  unfold Lex.dateParse
  onces [Once.primitiveQ, Once.failWith, Once.pure (dateLoop_mark _ _)]

theorem Once.timeParse (cfg : DateCfg) : Once S (Lex.timeParse I L cfg) Val.isMark := by
  unfold Lex.timeParse
  onces [Once.primitiveQ, Once.failWith]

theorem Once.datetimeParse (cfg : DateCfg) : Once S (Lex.datetimeParse I L cfg) Val.isMark := by
  unfold Lex.datetimeParse
  onces [Once.primitiveQ, Once.failWith]

theorem Once.uuidParse : Once S (Lex.uuidParse I L) Val.isMark := by
  unfold Lex.uuidParse
  onces [Once.primitiveQ]

theorem Once.codeParse (hL : SoberLib L) : Once S (Lex.codeParse I L) Val.isMark := by
  unfold Lex.codeParse
  refine .bind (.primitive _) ?_ ?_
  · intro a ha
    cases a with
    | const c => exact ⟨_, rfl, ha⟩
    | _ => cases ha
  · intro a ha
    cases a with
    | str s =>
      dsimp only
      refine .ite (fun _ => ?_) fun _ => ?_
      · cases hc : Code.compile L s with
        | ok r => exact .pure (hL.compile s r hc)
        | error e => exact .failWith _
      · cases Code.importMatch L s with
        | none => exact .failWith _
        | some m =>
          obtain ⟨n, a⟩ := m
          cases hc : Code.load L n a with
          | ok r => simp only [hc]; exact .pure (hL.load n a r hc)
          | error e => simp only [hc]; exact .failWith _
    | _ => exact .pure ha

theorem Once.kindParse (hL : SoberLib L) {f : Field} (hk : f.kind.leaf = true) :
    Once S (Lex.kindParse I L C rec f) Val.isMark := by
  unfold Lex.kindParse
  cases hkind : f.kind <;> first
    | (rw [hkind] at hk; cases hk; done)
    | exact .decimalParse
    | exact .dateParse _
    | exact .timeParse _
    | exact .datetimeParse _
    | exact .codeParse hL
    | exact .uuidParse
    | exact .primitive _

theorem Once.fieldDefault (hL : SoberLib L) {f : Field} (hf : Tame f) :
    Once S (Lex.fieldDefault I L C rec f) Val.isIgnore := by
  unfold Lex.fieldDefault
  refine .seq (.ctxGet _ _) fun ig => .ite (fun _ => .missingNotSet) fun _ => ?_
  rcases hf.1.default with h | ⟨v, h⟩ <;> rw [h]
  · exact .missingNotSet
  · rcases hf.2.default v h with rfl | hv
    · exact .missingNotSet
    · cases v with
      | const c => cases hv
      | func id => exact .ofExcept fun a ha => hL.call id a ha
      | _ => exact .pure rfl

theorem Once.fieldCompute (hL : SoberLib L) {f : Field} (hf : HookFree f) (hk : f.kind.leaf = true) :
    Once S (Lex.fieldCompute I L C rec f) Val.isMark := by
  have h1 := Once.kindParse (S := S) (C := C) (rec := rec) hL hk
  unfold Lex.fieldCompute
  rw [hf.fieldParse]
  onces [Once.failWith]

theorem Once.fieldCheck (hL : SoberLib L) {f : Field} (hf : Tame f) (hk : f.kind.leaf = true) {v : Val}
    (hv : v.isMark = false) : Once S (Lex.fieldCheck I L C rec f v) Val.isIgnore := by
  have hd := Once.fieldDefault (S := S) (C := C) (rec := rec) hL hf
  unfold Lex.fieldCheck
  rw [hf.1.mungeStep]
  cases hm : fieldMunge f v with
  | error e => exact Once.raise (S := S) (e := e)
  | ok w =>
    have hw := munge_sober hf.2 hv hm
    rw [T.ofExcept_ok_bind]
    rw [hf.1.filterStep, hf.1.validateStep]
    refine .ite (fun _ => hd) fun hN => ?_
    have hig := ignore_cases (by simpa using hN) hw
    rw [hig]
    simp only [Bool.false_eq_true, if_false]
    refine .seq (.pure rfl) fun keep => .ite (fun _ => hd) fun _ => ?_
    refine .bind (.kindValidate hk w) (fun ok hok => ⟨.ERROR, ?_, rfl⟩) fun ok hok => ?_
    · simp only [Bool.not_eq_true'] at hok
      rw [hok]
      rfl
    · refine .pure ?_
      simp only [Bool.not_eq_false'] at hok
      rw [hok]
      exact hig

theorem Once.fieldStart (hL : SoberLib L) {f : Field} (hf : Tame f) (hk : f.kind.leaf = true) :
    Once S (Lex.fieldStart I L C rec f) Val.isIgnore := by
  have hd := Once.fieldDefault (S := S) (C := C) (rec := rec) hL hf
  rw [hf.1.fieldStart]
  refine .bind (.fieldCompute hL hf.1 hk) ?_ ?_
  · intro v hv
    have h1 : v.isNONE = false := by
      cases v with
      | const c => cases c <;> first | rfl | (cases hv; done)
      | _ => rfl
    refine ⟨v, ?_, mark_ignore hv⟩
    rw [h1, mark_ignore hv]
    rfl
  · intro v hv
    refine .ite (fun _ => hd) fun hN => ?_
    rw [ignore_cases (by simpa using hN) hv]
    exact .fieldCheck hL hf hk hv

theorem Once.setParent (v : Val) : ∀ env (τ : TSt P) b, Coll S env τ b → 
    (Lex.setParent v env τ).2.errs = τ.errs ∧ QT S (Lex.setParent v env τ).2 := by
  intro env τ b hi
  unfold Lex.setParent
  rw [T.bind_ok (show T.ctxGet? Env.parent env τ = (.ok env.parent, τ) from rfl)]
  cases v <;> exact ⟨rfl, hi.q⟩

/-- A leaf field reports exactly one error when it fails and none when it succeeds. -/
theorem Once.leaf (W : LawfulPath I) (hL : SoberLib L) (hC : C.All HookFree) (hr : RecTKeeps W rec)
    {f : Field} (hf : Tame f) (hk : f.kind.leaf = true) {v : Val} (hv : v.isMark = false) :
    ∀ env τ b, TWF W τ → Coll S env τ b →
      ∃ es, (Lex.mapFieldF I L C rec f v env τ).2.errs = some { b with items := b.items ++ es } ∧
        ∀ a, (Lex.mapFieldF I L C rec f v env τ).1 = .ok a →
          es.length = if a.isIgnore then 1 else 0 := by
  intro env τ b hw hi
  have hall := leaf_all (p := HookFree) hf.1 hk
  have main : ∃ es, (T.withEnv (fun env => { env with field := some f.name, parent := some .field })
        (Lex.fieldMapInner I L C rec f v) env τ).2.errs = some { b with items := b.items ++ es } ∧
      QT S (T.withEnv (fun env => { env with field := some f.name, parent := some .field })
        (Lex.fieldMapInner I L C rec f v) env τ).2 ∧
      es.length = count Val.isIgnore (T.withEnv
        (fun env => { env with field := some f.name, parent := some .field })
        (Lex.fieldMapInner I L C rec f v) env τ).1 := by
    have hi' : Coll S { env with field := some f.name, parent := some .field } τ b :=
      ⟨hi.ignoreMissing, hi.errs, hi.collect, hi.q⟩
    unfold T.withEnv Lex.fieldMapInner
    split
    · unfold Lex.withResolve
      rw [hf.1.resolve]
      have hs := Once.fieldStart (S := S) (C := C) (rec := rec) hL hf hk
      have ht := TKeeps.fieldStart (L := L) (ok := fun _ => False) hC.calm hr hall.calm
      cases hkind : f.kind <;> first
        | (rw [hkind] at hk; cases hk; done)
        | (dsimp only
           split
           · exact hs _ τ b hi'
           · exact Once.withKey W ht hs _ τ b hw hi')
    · exact Once.fieldCheck (S := S) (C := C) (rec := rec) hL hf hk hv _ τ b hi'
  obtain ⟨es, h1, h2, h3⟩ := main
  unfold Lex.mapFieldF
  rcases hm : T.withEnv (fun env => { env with field := some f.name, parent := some .field })
      (Lex.fieldMapInner I L C rec f v) env τ with ⟨r, τ'⟩
  rw [hm] at h1 h2 h3
  cases r with
  | error e => rw [T.bind_error hm]; exact ⟨es, h1, by intro a ha; cases ha⟩
  | ok a =>
    rw [T.bind_ok hm]
    split
    · have hp := Once.setParent (S := S) a env τ' _ ⟨hi.ignoreMissing, h1, hi.collect, h2⟩
      rcases hs : Lex.setParent a env τ' with ⟨r', τ2⟩
      rw [hs] at hp
      cases r' with
      | error e => rw [T.bind_error hs]; exact ⟨es, by rw [hp.1]; exact h1, by intro a ha; cases ha⟩
      | ok u =>
        rw [T.bind_ok hs]
        exact ⟨es, by rw [← h1, ← hp.1]; rfl, by intro x hx; cases hx; exact h3⟩
    · exact ⟨es, h1, by intro x hx; cases hx; exact h3⟩

end
end Pilo
