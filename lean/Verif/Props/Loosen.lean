import Verif.Loose
import Verif.Clean
import Verif.Props.Lenient
import Verif.Props.Apart

/-!
# C97: asking for less never rejects what was accepted

Two tables of form classes with the same fields, where those of the second ask for less: shorter texts, more choices,
wider ranges, fewer required keys, `nullable`, a default where there was none, at any depth (`Loose.Looser`).  What the
first accepts the second accepts, and makes the same forms of it.
-/

namespace Pilo

section
variable {P : Type} {I : PathOps P} {S : Sane I} {L : Lib} {C D : Classes} {o : Prop}

/-- The statement for any kind of source that reads no null keys and no marks. -/
theorem Loose.form (hC : C.All HookFree) (hD : D.All HookFree) (hCD : Loose.LooserClasses o L C D) {u v : Unmapped}
    (hu : u.All HookFree) (hv : v.All HookFree) (huv : Loose.LooserUnmapped o L C D u v) (n id : Nat)
    (tags : List String) (reset raising : Bool) {p : P} (hp : S.Q p) {s : St P} (hl : Live s)
    (ho : o → s.env.ignoreMissing = some false) :
    let A := Form.map I L C n id (.source (.ok p)) tags reset u raising s
    let B := Form.map I L D n id (.source (.ok p)) tags reset v raising s
    ∀ e, A.1 = .ok e → A.2.errors e = [] →
      ∃ e', B.1 = .ok e' ∧ B.2.errors e' = [] ∧ B.2.forms = A.2.forms ∧ B.2.stack = s.stack := by
  intro A B e he hes
  have hA := RefE.formMap (I := I) (hC.imp fun _ h => h.lexNode) (Ref.mapField (I := I) (L := L)
    (hC.imp fun _ h => h.lexNode) n) id (.source (.ok p)) tags reset (hu.imp fun _ h => h.lexNode) raising s.env s.view s
    hl.agree
  have hB := RefE.formMap (I := I) (hD.imp fun _ h => h.lexNode) (Ref.mapField (I := I) (L := L)
    (hD.imp fun _ h => h.lexNode) n) id (.source (.ok p)) tags reset (hv.imp fun _ h => h.lexNode) raising s.env s.view s
    hl.agree
  have hbody : ∀ tags, Loose.Go S o (Lex.formMapBody I C (Lex.mapField I L C n) id tags u)
      (Lex.formMapBody I D (Lex.mapField I L D n) id tags v) := fun tags =>
    .body (Loose.recGo hC hD hCD n) hC hD hCD id tags huv hu hv
  generalize hfm : Lex.mapField I L C n = fld at hA hbody
  generalize hfm' : Lex.mapField I L D n = fld' at hB hbody
  generalize hbd : s.view = τ at hA hB
  generalize hev : s.env = env at hA hB ho
  -- the lexical runs
  have key : ∀ τ', Lex.formMap I C fld id (.source (.ok p)) tags reset u raising env τ = (.ok [], τ') →
      Lex.formMap I D fld' id (.source (.ok p)) tags reset v raising env τ = (.ok [], τ') := by
    intro τ' h
    unfold Lex.formMap at h ⊢
    have e0 : (T.ctxGet? Env.tags : T P _) env τ = (.ok env.tags, τ) := rfl
    rw [T.bind_ok e0] at h ⊢
    have hreset : (Lex.formResetIf D id (pickTags tags env.tags) reset : T P Unit) =
        Lex.formResetIf C id (pickTags tags env.tags) reset := by
      unfold Lex.formResetIf
      congr; funext cls
      rw [Loose.reset_same (hCD cls)]
    rw [hreset]
    rcases h1 : (Lex.formResetIf C id (pickTags tags env.tags) reset : T P Unit) env τ with ⟨x, τ1⟩
    cases x with
    | error x => rw [T.bind_error h1] at h; cases h
    | ok _ =>
      rw [T.bind_ok h1] at h ⊢
      rcases h2 : (T.ctxGet Env.src "src" : T P _) env τ1 with ⟨x, τ2⟩
      cases x with
      | error x => rw [T.bind_error h2] at h; cases h
      | ok c =>
        rw [T.bind_ok h2] at h ⊢
        have e3 : ∀ (C : Classes) (fld : TRec P) (u : Unmapped),
            Lex.formMapAt I C fld id (.source (.ok p)) (pickTags tags env.tags) u raising c =
            (T.withErrs raising (T.withSource (.ok p) (Lex.formMapBody I C fld id (pickTags tags env.tags) u)) >>=
              fun x => T.pure x.2 : T P (List Err)) := fun _ _ _ => rfl
        rw [e3] at h ⊢
        rcases h3 : T.withErrs raising (T.withSource (.ok p) (Lex.formMapBody I C fld id (pickTags tags env.tags) u))
          env τ2 with ⟨x, τ3⟩
        cases x with
        | error x =>
          rw [T.bind_error (T.bind_error h3)] at h; cases h
        | ok x =>
          obtain ⟨a, es⟩ := x
          have hes : es = [] ∧ τ' = τ3 := by
            rw [T.bind_ok (T.bind_ok h3)] at h
            unfold Lex.formFinish at h
            cases raising with
            | false => cases h; exact ⟨rfl, rfl⟩
            | true =>
              cases es with
              | nil => cases h; exact ⟨rfl, rfl⟩
              | cons _ _ => cases h
          obtain ⟨rfl, rfl⟩ := hes
          have h4 := Loose.Go.source hp (hbody (pickTags tags env.tags)) ho h3
          rw [T.bind_ok (T.bind_ok h4)]
          unfold Lex.formFinish
          cases raising <;> rfl
  have hra := hA.res
  have hrb := hB.res
  have hfa := hA.agree.forms
  have hfb := hB.agree.forms
  rcases hX : Lex.formMap I C fld id (.source (.ok p)) tags reset u raising env τ with ⟨x, τ'⟩
  rw [hX] at hra hfa
  have he : (formMap I C (mapField I L C n) id (.source (.ok p)) tags reset u raising s).1 = .ok e := he
  rw [he] at hra
  cases x with
  | error x => exact hra.elim
  | ok es =>
    have hra : A.2.errors e = es := hra
    rw [hes] at hra
    subst hra
    rw [key τ' hX] at hrb hfb
    rcases hb1 : (formMap I D (mapField I L D n) id (.source (.ok p)) tags reset v raising s).1 with y | e'
    · rw [hb1] at hrb; exact hrb.elim
    · rw [hb1] at hrb
      exact ⟨e', hb1, hrb, hfb.trans hfa.symm, hB.fr.stack⟩

end

section
variable {L : Lib} {C D : Classes} {o : Prop}

/-- C97.  If `form.map(src)` ends normally without errors, then with the same fields asking for less it also does, and
leaves the same forms.  Defaults may be added (`o`) where missing values are not ignored. -/
theorem C97_loosen (hL : CleanLib L) (hC : C.All HookFree) (hD : D.All HookFree) (hCD : Loose.LooserClasses o L C D)
    {u v : Unmapped} (hu : u.All HookFree) (hv : v.All HookFree) (huv : Loose.LooserUnmapped o L C D u v) (n id : Nat)
    (tags : List String) (reset raising : Bool) {p : Path} (hp : p.Clean) {s : St Path} (hl : Live s)
    (ho : o → s.env.ignoreMissing = some false) :
    let I := Path.ops L
    let A := Form.map I L C n id (.source (.ok p)) tags reset u raising s
    let B := Form.map I L D n id (.source (.ok p)) tags reset v raising s
    ∀ e, A.1 = .ok e → A.2.errors e = [] →
      ∃ e', B.1 = .ok e' ∧ B.2.errors e' = [] ∧ B.2.forms = A.2.forms ∧ B.2.stack = s.stack :=
  Loose.form (S := Path.sane hL) hC hD hCD hu hv huv n id tags reset raising hp hl ho

/-- `min=b` for `min=a`, `b ≤ a`, if only numbers can be compared with numbers. -/
theorem Loose.lessLow_int (hL : ∀ v a, L.ltOther v (.int a) ≠ .ok false) {a b : Int} (h : b ≤ a) :
    Loose.LessLow L (some (.int a)) (some (.int b)) := by
  refine .inr ⟨_, _, rfl, rfl, fun v hv => ?_⟩
  have hc : (b : Rat) ≤ (a : Rat) := Rat.intCast_le_intCast.2 h
  have num : ∀ x : Num, Num.lt x (.fin (a : Rat)) = false → Num.lt x (.fin (b : Rat)) = false := by
    intro x hx
    cases x with
    | fin q =>
      simp only [Num.lt, decide_eq_false_iff_not, Rat.not_lt] at hx ⊢
      exact Rat.le_trans hc hx
    | inf neg => exact hx
    | nan => rfl
  cases v <;> simp only [pyLt, Val.num?] at hv ⊢ <;>
    first
    | (simp only [Except.ok.injEq] at hv ⊢; exact num _ hv)
    | exact absurd hv (hL _ _)
    | skip
  rename_i x
  cases x <;> simp only at hv ⊢ <;>
    first
    | (simp only [Except.ok.injEq] at hv ⊢; exact num _ hv)
    | cases hv

/-- `max=b` for `max=a`, `a ≤ b`, if only numbers can be compared with numbers. -/
theorem Loose.moreHigh_int (hL : ∀ v a, L.ltOther (.int a) v ≠ .ok false) {a b : Int} (h : a ≤ b) :
    Loose.MoreHigh L (some (.int a)) (some (.int b)) := by
  refine .inr ⟨_, _, rfl, rfl, fun v hv => ?_⟩
  have hc : (a : Rat) ≤ (b : Rat) := Rat.intCast_le_intCast.2 h
  have num : ∀ x : Num, Num.lt (.fin (a : Rat)) x = false → Num.lt (.fin (b : Rat)) x = false := by
    intro x hx
    cases x with
    | fin q =>
      simp only [Num.lt, decide_eq_false_iff_not, Rat.not_lt] at hx ⊢
      exact Rat.le_trans hx hc
    | inf neg => exact hx
    | nan => rfl
  cases v <;> simp only [pyLt, Val.num?] at hv ⊢ <;>
    first
    | (simp only [Except.ok.injEq] at hv ⊢; exact num _ hv)
    | exact absurd hv (hL _ _)
    | skip
  rename_i x
  cases x <;> simp only at hv ⊢ <;>
    first
    | (simp only [Except.ok.injEq] at hv ⊢; exact num _ hv)
    | cases hv

end

namespace Demo

/-- `class Line: sku = String(); qty = Integer(min=0, default=1)`. -/
def classLine' : ClassDef where
  fields := [field "sku" (.string {}),
    .mk { name := some "qty", src := .str "qty", default := .value (.int 1) } (.integer { min := some (.int 0) })]

/-- `orders` with a `Line` that asks for less. -/
def orders' : Classes
  | 0 => classLine'
  | 1 => classOrder
  | _ => { fields := [] }

theorem orders'_free : orders'.All HookFree := by
  intro cls f hf
  match cls with
  | 0 =>
    simp only [orders', classLine', List.mem_cons, List.not_mem_nil, or_false] at hf
    rcases hf with rfl | rfl
    · exact .mk (undecorated (by intro _ _ _ _ _ h; cases h)).1 .string
    · exact .mk ⟨.inr ⟨_, rfl⟩, rfl, rfl, rfl, rfl, rfl, rfl, by intro _ _ _ _ _ h; cases h⟩ .integer
  | 1 => exact (orders_undecorated.imp fun _ h => h.1) 1 f hf
  | n + 2 => simp [orders'] at hf

open Loose in
theorem orders_looser : LooserClasses True lib orders orders' := by
  have hc : ∀ c : FieldCore, LooserCore True c c := fun c => ⟨rfl, rfl, id, .inl rfl, rfl, rfl, rfl, rfl⟩
  have hs : LooserStr {} {} := ⟨.inl rfl, .inl rfl, .inl rfl, .inl rfl, .inl rfl⟩
  intro cls
  match cls with
  | 0 =>
    exact .cons (.mk (hc _) (.string ⟨.inl rfl, .inl rfl, .inl rfl, .inl rfl, .inl rfl⟩))
      (.cons (.mk ⟨rfl, rfl, id, .inr ⟨trivial, rfl⟩, rfl, rfl, rfl, rfl⟩
        (.integer ⟨lessLow_int (by intro _ _ h; cases h) (by decide), .inl rfl⟩)) .nil)
  | 1 =>
    exact .cons (.mk (hc _) (.list (.mk (hc _) (.subform .str)) (.inl rfl) (.inl rfl) id))
      (.cons (.mk (hc _) (.string hs))
        (.cons (.mk (hc _) (.dict (.mk (hc _) (.string hs)) (.mk (hc _) (.integer ⟨.inl rfl, .inl rfl⟩)) (.same _)
          (.inl rfl)))
          (.cons (.mk (hc _) .boolean) .nil)))
  | n + 2 => exact .nil

theorem order_clean : Clean (.dict orderData) := by
  refine .dict ?_ ?_ <;> intro kv h <;> simp only [orderData, List.mem_cons, List.not_mem_nil, or_false] at h
  · rcases h with rfl | rfl | rfl <;> exact ⟨rfl, rfl, rfl⟩
  · rcases h with rfl | rfl | rfl
    · refine .list fun v h => ?_
      simp only [List.mem_cons, List.not_mem_nil, or_false] at h
      subst h
      refine .dict ?_ ?_ <;> intro kv h <;> simp only [lineData, List.mem_cons, List.not_mem_nil, or_false] at h <;>
        rcases h with rfl | rfl
      · exact ⟨rfl, rfl, rfl⟩
      · exact ⟨rfl, rfl, rfl⟩
      · exact .str _
      · exact .int _
    · refine .dict ?_ ?_ <;> intro kv h <;> simp only [List.mem_cons, List.not_mem_nil, or_false] at h <;> subst h
      · exact ⟨rfl, rfl, rfl⟩
      · exact .int _
    · exact .none

/-- The order is accepted with the first `Line`, so it is with the second. -/
example : let A := Form.map (Path.ops lib) lib orders 12 0 (.source (.ok (.base (.simple (SPath.native (.dict orderData)
      none))))) [] false (.str .ignore) false (holding 1 [])
    let B := Form.map (Path.ops lib) lib orders' 12 0 (.source (.ok (.base (.simple (SPath.native (.dict orderData)
      none))))) [] false (.str .ignore) false (holding 1 [])
    ∃ e', B.1 = .ok e' ∧ B.2.errors e' = [] ∧ B.2.forms = A.2.forms ∧ B.2.stack = [rootFrame] :=
  C97_loosen (L := lib) lib_clean (orders_undecorated.imp fun _ h => h.1) orders'_free orders_looser .str .str .str 12 0 []
    false false (Path.native_clean order_clean (by intro _ h; cases h)) (holding_live 1 []) (fun _ => rfl) 0
    (by decide +kernel) (by decide +kernel)

/-- The second accepts more. -/
example : (Form.map (Path.ops lib) lib orders 12 0 (.source (.ok (.base (.simple (SPath.native
      (.dict [(.str "sku", .str "a")]) none))))) [] false (.str .ignore) false (holding 0 [])).2.errors 0 ≠ [] ∧
    (Form.map (Path.ops lib) lib orders' 12 0 (.source (.ok (.base (.simple (SPath.native
      (.dict [(.str "sku", .str "a")]) none))))) [] false (.str .ignore) false (holding 0 [])).2.errors 0 = [] := by
  decide +kernel

/-- Where missing values are ignored an added default shows. -/
example :
    let s := { holding 0 [] with stack := [{ rootFrame with ignoreMissing := some true }] }
    let src := SrcArg.source (.ok (Path.base (.simple (SPath.native (.dict [(.str "sku", .str "ab")]) none))))
    let A := Form.map (Path.ops lib) lib orders 12 0 src [] false (.str .ignore) false s
    let B := Form.map (Path.ops lib) lib orders' 12 0 src [] false (.str .ignore) false s
    A.2.errors 0 = [] ∧ B.2.errors 0 = [] ∧ A.2.forms.map FormObj.items = [[(.str "sku", .str "ab")]] ∧
      B.2.forms.map FormObj.items = [[(.str "sku", .str "ab"), (.str "qty", .int 1)]] := by
  decide +kernel

end Demo
end Pilo
