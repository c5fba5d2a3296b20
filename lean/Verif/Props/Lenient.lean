import Verif.Lax
import Verif.Props.Parse
import Verif.Props.Compose
import Verif.Props.RoundTrip
import Verif.ValEq

/-!
# C95: what strict JSON accepts, lenient JSON accepts alike

`JsonSource(strict=True)` takes only values of the JSON type asked for; `strict=False` also converts
(`pilo/source/json.py:45-117`).  A form that can be mapped from a strict source without an error can be mapped from a
lenient one, with the same result: no value that is accepted as it is gets converted.
-/

namespace Pilo

section
variable {P : Type} {I : PathOps P} {W : LawfulPath I} {L : Lib} {C : Classes}

/-- A form mapped without error from one source is mapped alike from another one that reads whatever the first
reads. -/
theorem Lax.form (Y : PathLax I W) (hC : C.All (ValueHooks True)) {u : Unmapped} (hu : u.All (ValueHooks True)) (n id : Nat)
    (tags : List String) (reset raising : Bool) {p q : P} (hq : Y.Q 0 p q) {s : St P} (hl : Live s) :
    let A := Form.map I L C n id (.source (.ok p)) tags reset u raising s
    let B := Form.map I L C n id (.source (.ok q)) tags reset u raising s
    ∀ e, A.1 = .ok e → A.2.errors e = [] →
      ∃ e', B.1 = .ok e' ∧ B.2.errors e' = [] ∧ B.2.forms = A.2.forms ∧ B.2.stack = s.stack := by
  intro A B e he hes
  have hlex : C.All LexNode := hC.imp fun _ h => h.lexNode
  have hulex : u.All LexNode := hu.imp fun _ h => h.lexNode
  have href := Ref.mapField (I := I) (L := L) hlex n
  have hA := RefE.formMap (I := I) hlex href id (.source (.ok p)) tags reset hulex raising s.env s.view s hl.agree
  have hB := RefE.formMap (I := I) hlex href id (.source (.ok q)) tags reset hulex raising s.env s.view s hl.agree
  have hfit : ∀ g, ValueHooks True g → (Lax.closed W L C).Fit g := fun g h => ⟨h, .inl ⟨trivial, fun h => h.elim⟩⟩
  have hbody : ∀ tags, Lax.Adding (Lex.formMapBody I C (Lex.mapField I L C n) id tags u) ∧
      ∀ Y : PathLax I W, Lax.Run Y Eq (Lex.formMapBody I C (Lex.mapField I L C n) id tags u)
        (Lex.formMapBody I C (Lex.mapField I L C n) id tags u) := fun tags =>
    (Closed.formMapBody (K := Lax.closed W L C) trivial (hC.imp hfit)
      (Closed.mapField (K := Lax.closed W L C) (hC.imp hfit) n) (id := id) trivial tags (hu.imp hfit)).2
  generalize hfm : Lex.mapField I L C n = fld at hA hB hbody
  generalize hbd : s.view = τ at hA hB
  generalize s.env = env at hA hB
  -- the lexical runs
  have key : ∀ τ', Lex.formMap I C fld id (.source (.ok p)) tags reset u raising env τ = (.ok [], τ') →
      ∃ σ', Lex.formMap I C fld id (.source (.ok q)) tags reset u raising env τ = (.ok [], σ') ∧
        τ'.forms = σ'.forms := by
    intro τ' h
    unfold Lex.formMap at h ⊢
    have e0 : (T.ctxGet? Env.tags : T P _) env τ = (.ok env.tags, τ) := rfl
    rw [T.bind_ok e0] at h ⊢
    rcases h1 : (Lex.formResetIf C id (pickTags tags env.tags) reset : T P Unit) env τ with ⟨x, τ1⟩
    cases x with
    | error x => rw [T.bind_error h1] at h; cases h
    | ok _ =>
      rw [T.bind_ok h1] at h ⊢
      rcases h2 : (T.ctxGet Env.src "src" : T P _) env τ1 with ⟨x, τ2⟩
      cases x with
      | error x => rw [T.bind_error h2] at h; cases h
      | ok c =>
        rw [T.bind_ok h2] at h ⊢
        have e3 : ∀ p, Lex.formMapAt I C fld id (.source (.ok p)) (pickTags tags env.tags) u raising c =
            (T.withErrs raising (T.withSource (.ok p) (Lex.formMapBody I C fld id (pickTags tags env.tags) u)) >>=
              fun x => T.pure x.2 : T P (List Err)) := fun p => rfl
        rw [e3] at h ⊢
        rcases h3 : T.withErrs raising (T.withSource (.ok p) (Lex.formMapBody I C fld id (pickTags tags env.tags) u))
          env τ2 with ⟨x, τ3⟩
        cases x with
        | error x =>
          rw [T.bind_error (T.bind_error h3)] at h; cases h
        | ok x =>
          obtain ⟨a, es⟩ := x
          have hes : es = [] ∧ τ' = τ3 := by
            rw [T.bind_ok (T.bind_ok h3)] at h
            unfold Lex.formFinish at h
            cases raising with
            | false => cases h; exact ⟨rfl, rfl⟩
            | true =>
              cases es with
              | nil => cases h; exact ⟨rfl, rfl⟩
              | cons _ _ => cases h
          obtain ⟨rfl, rfl⟩ := hes
          obtain ⟨a', σ', h4, -, h5⟩ := Lax.Run.start hq ((hbody (pickTags tags env.tags)).2 Y) (σ := τ2) rfl h3
            (hbody (pickTags tags env.tags)).1
          refine ⟨σ', ?_, h5⟩
          rw [T.bind_ok (T.bind_ok h4)]
          unfold Lex.formFinish
          cases raising <;> rfl
  have hra := hA.res
  have hrb := hB.res
  have hfa := hA.agree.forms
  have hfb := hB.agree.forms
  rcases hX : Lex.formMap I C fld id (.source (.ok p)) tags reset u raising env τ with ⟨x, τ'⟩
  rcases hY : Lex.formMap I C fld id (.source (.ok q)) tags reset u raising env τ with ⟨y, σ'⟩
  rw [hX] at hra hfa
  rw [hY] at hrb hfb
  have he : (formMap I C (mapField I L C n) id (.source (.ok p)) tags reset u raising s).1 = .ok e := he
  rw [he] at hra
  cases x with
  | error x => exact hra.elim
  | ok es =>
    have hra : A.2.errors e = es := hra
    rw [hes] at hra
    subst hra
    obtain ⟨σ2, h1, h2⟩ := key τ' hX
    rw [hY] at h1
    cases h1
    rcases hb1 : (formMap I C (mapField I L C n) id (.source (.ok q)) tags reset u raising s).1 with y | e'
    · rw [hb1] at hrb; exact hrb.elim
    · rw [hb1] at hrb
      exact ⟨e', hb1, hrb, hfb.trans (h2.symm.trans hfa.symm), hB.fr.stack⟩

end

section
variable {L : Lib}

/-- Paths of data, JSON and configurations among all paths. -/
def Path.embedLax (Y : PathLax (SPath.ops L) (SPath.lawful L)) : PathLax (Path.ops L) (Path.lawful L) where
  Q d p q := ∃ a b, p = .base (.simple a) ∧ q = .base (.simple b) ∧ Y.Q d a b
  wf := by rintro d _ _ ⟨a, b, rfl, rfl, h⟩; exact Y.wf h
  value := by rintro d _ _ x ⟨a, b, rfl, rfl, h⟩ hx; exact ⟨(Y.value h hx).1, _, _, rfl, rfl, (Y.value h hx).2⟩
  exists_ := by rintro d _ _ x ⟨a, b, rfl, rfl, h⟩ hx; exact ⟨(Y.exists_ h hx).1, _, _, rfl, rfl, (Y.exists_ h hx).2⟩
  isNull := by rintro d _ _ x ⟨a, b, rfl, rfl, h⟩ hx; exact ⟨(Y.isNull h hx).1, _, _, rfl, rfl, (Y.isNull h hx).2⟩
  mapping := by
    rintro d _ _ x ⟨a, b, rfl, rfl, h⟩ hx
    have e : ∀ x : SPath, (Path.ops L).mapping (.base (.simple x)) =
        (((SPath.ops L).mapping x).1, .base (.simple ((SPath.ops L).mapping x).2)) := by
      intro x
      simp only [Path.ops, SPath.ops, Path.read, BPath.mapping, BPath.read]
      rcases SPath.mapping L x with ⟨r, y⟩
      cases r <;> rfl
    rw [e] at hx ⊢
    rw [e]
    exact ⟨(Y.mapping h hx).1, _, _, rfl, rfl, (Y.mapping h hx).2⟩
  sequence := by rintro d _ _ ⟨a, b, rfl, rfl, h⟩; exact ⟨(Y.sequence h).1, _, _, rfl, rfl, (Y.sequence h).2⟩
  primitive := by
    rintro d _ _ ty x ⟨a, b, rfl, rfl, h⟩ hx
    exact ⟨(Y.primitive h hx).1, _, _, rfl, rfl, (Y.primitive h hx).2⟩
  hasSrc := by rintro d _ _ ⟨a, b, rfl, rfl, h⟩; rfl
  joinPath := by rintro d _ _ ⟨a, b, rfl, rfl, h⟩; rfl
  append := by
    rintro d _ _ k p' ⟨a, b, rfl, rfl, h⟩ hp
    obtain ⟨q', h1, h2⟩ := Y.append (k := k) h rfl
    cases hp
    cases h1
    exact ⟨_, rfl, _, _, rfl, rfl, h2⟩
  pop := by
    rintro d _ _ p' ⟨a, b, rfl, rfl, h⟩ hp
    have e : ∀ x y : SPath, (SPath.ops L).pop x = .ok y →
        (Path.ops L).pop (.base (.simple x)) = .ok (.base (.simple y)) := by
      intro x y h
      have h : SPath.pop x = .ok y := h
      simp only [Path.ops, BPath.pop, h]
    cases ha : (SPath.ops L).pop a with
    | error x =>
      have ha : SPath.pop a = .error x := ha
      simp only [Path.ops, BPath.pop, ha] at hp
      cases hp
    | ok a' =>
      rw [e _ _ ha] at hp
      cases hp
      obtain ⟨q', h1, h2⟩ := Y.pop h ha
      exact ⟨_, e _ _ h1, _, _, rfl, rfl, h2⟩

/-- Reading a JSON path. -/
theorem withValue_json {α : Type} (onD : DefaultCfg → List Val → Val → Except Exc α) (onJ : Bool → Val → Except Exc α)
    (onC : ConfigCfg → List Val → CfgVal → Except Exc α) (b : Bool) (l : Option String) (st : PathSt Val) :
    SPath.withValue L (.json b l st) onD onJ onC = ((SPath.valueJson st).1.bind (onJ b), .json b l (SPath.valueJson st).2) := by
  unfold SPath.withValue
  dsimp only
  rcases SPath.valueJson st with ⟨_ | _, _⟩ <;> rfl

/-- A strict and a lenient path of the same document. -/
def SPath.lenient (L : Lib) : PathLax (SPath.ops L) (SPath.lawful L) where
  Q d p q := ∃ l l' st, p = .json true l st ∧ q = .json false l' st ∧ (SPath.lawful L).WF p ∧ d ≤ p.keys.length
  wf := by rintro d _ _ ⟨l, l', st, rfl, rfl, h, -⟩; exact h
  value := by
    rintro d _ _ a ⟨l, l', st, rfl, rfl, h, hd⟩ ha
    have hs := (SPath.lawful L).value_keys h
    have hk : ((SPath.ops L).value (.json true l st)).2.keys = _ := hs.keys
    simp only [SPath.ops, SPath.value, withValue_json] at ha hs hk ⊢
    exact ⟨ha, l, l', _, rfl, rfl, hs.wf, hk ▸ hd⟩
  exists_ := by
    rintro d _ _ a ⟨l, l', st, rfl, rfl, h, hd⟩ ha
    have hs := (SPath.lawful L).exists_keys h
    have hk : ((SPath.ops L).exists_ (.json true l st)).2.keys = _ := hs.keys
    simp only [SPath.ops, SPath.exists_, withValue_json] at ha hs hk ⊢
    exact ⟨ha, l, l', _, rfl, rfl, hs.wf, hk ▸ hd⟩
  isNull := by
    rintro d _ _ a ⟨l, l', st, rfl, rfl, h, hd⟩ ha
    have hs := (SPath.lawful L).isNull_keys h
    have hk : ((SPath.ops L).isNull (.json true l st)).2.keys = _ := hs.keys
    simp only [SPath.ops, SPath.isNull, withValue_json] at ha hs hk ⊢
    exact ⟨ha, l, l', _, rfl, rfl, hs.wf, hk ▸ hd⟩
  mapping := by
    rintro d _ _ a ⟨l, l', st, rfl, rfl, h, hd⟩ ha
    have hs := (SPath.lawful L).mapping_keys h
    have hk : ((SPath.ops L).mapping (.json true l st)).2.keys = _ := hs.keys
    have e : ∀ b l, (SPath.ops L).mapping (.json b l st) =
        (((SPath.valueJson st).1.bind jsonMapping).map some, .json b l (SPath.valueJson st).2) := by
      intro b l
      simp only [SPath.ops, SPath.mapping, withValue_json, SPath.someKeys]
      rcases SPath.valueJson st with ⟨_ | v, _⟩
      · rfl
      · simp only [Except.bind]
        cases jsonMapping v <;> rfl
    rw [e] at ha hs hk ⊢
    rw [e]
    exact ⟨ha, l, l', _, rfl, rfl, hs.wf, hk ▸ hd⟩
  sequence := by
    rintro d _ _ ⟨l, l', st, rfl, rfl, h, hd⟩
    have hs := (SPath.lawful L).sequence_keys h
    have hk : ((SPath.ops L).sequence (.json true l st)).2.keys = _ := hs.keys
    simp only [SPath.ops, SPath.sequence, withValue_json] at hs hk ⊢
    exact ⟨trivial, l, l', _, rfl, rfl, hs.wf, hk ▸ hd⟩
  primitive := by
    rintro d _ _ ty a ⟨l, l', st, rfl, rfl, h, hd⟩ ha
    have hs := (SPath.lawful L).primitive_keys (ty := ty) h
    have hk : ((SPath.ops L).primitive ty (.json true l st)).2.keys = _ := hs.keys
    simp only [SPath.ops, SPath.primitive, withValue_json] at ha hs hk ⊢
    refine ⟨?_, l, l', _, rfl, rfl, hs.wf, hk ▸ hd⟩
    generalize (SPath.valueJson st).1 = r at ha ⊢
    rcases r with _ | v
    · cases ha
    · simp only [Except.bind] at ha ⊢
      revert ha
      cases ty <;> cases v <;> simp [parseJson, jsonString, jsonInt, jsonFloat, jsonBool]
  hasSrc := by rintro d _ _ ⟨l, l', st, rfl, rfl, -⟩; rfl
  joinPath := by rintro d _ _ ⟨l, l', st, rfl, rfl, -⟩; rfl
  append := by
    rintro d _ _ k p' ⟨l, l', st, rfl, rfl, h, hd⟩ ha
    obtain ⟨h1, h2⟩ := (SPath.lawful L).append_keys h ha
    cases ha
    exact ⟨_, rfl, l, l', _, rfl, rfl, h2, by
      have h1 := congrArg List.length h1
      simp only [SPath.ops, List.length_append, List.length_singleton] at h1
      omega⟩
  pop := by
    rintro d _ _ p' ⟨l, l', st, rfl, rfl, h, hd⟩ hp
    rcases List.eq_nil_or_concat ((SPath.ops L).keys (.json true l st)) with h0 | ⟨ks, k, hk⟩
    · have h0 := congrArg List.length h0
      simp only [SPath.ops, List.length_nil] at h0
      omega
    · rw [List.concat_eq_append] at hk
      obtain ⟨q, h1, h2, h3, -⟩ := (SPath.lawful L).pop_keys h hk
      rw [hp] at h1
      cases h1
      have hp' : (match st.pop with | .ok st' => .ok (.json true l st') | .error e => .error e) = Except.ok p' := hp
      have hk := congrArg List.length hk
      have h2 := congrArg List.length h2
      simp only [SPath.ops, List.length_append, List.length_singleton] at hk h2
      cases hst : st.pop with
      | error e => rw [hst] at hp'; cases hp'
      | ok st' =>
        rw [hst] at hp'
        cases hp'
        refine ⟨.json false l' st', ?_, l, l', st', rfl, rfl, h3, ?_⟩
        · show (match st.pop with | .ok st' => Except.ok (SPath.json false l' st') | .error e => .error e) = _
          rw [hst]
        · show d ≤ (SPath.json true l st').keys.length
          omega

variable {C : Classes}

/-- C95.  If `form.map(JsonSource(v, strict=True))` ends normally without errors then so does
`form.map(JsonSource(v, strict=False))` in the same context, and it leaves the same forms. -/
theorem C95_lenient (hC : C.All (ValueHooks True)) {u : Unmapped} (hu : u.All (ValueHooks True)) (n id : Nat) (tags : List String)
    (reset raising : Bool) (v : Val) (loc loc' : Option String) {s : St Path} (hl : Live s) :
    let I := Path.ops L
    let A := Form.map I L C n id (.source (.ok (.base (.simple (.json true loc { root := v, parts := [] }))))) tags reset u
      raising s
    let B := Form.map I L C n id (.source (.ok (.base (.simple (.json false loc' { root := v, parts := [] }))))) tags reset u
      raising s
    ∀ e, A.1 = .ok e → A.2.errors e = [] →
      ∃ e', B.1 = .ok e' ∧ B.2.errors e' = [] ∧ B.2.forms = A.2.forms ∧ B.2.stack = s.stack :=
  Lax.form (Path.embedLax (SPath.lenient L)) hC hu n id tags reset raising
    ⟨_, _, rfl, rfl, loc, loc', _, rfl, rfl, (by
      show PathSt.Tidy _
      intro q hq; cases hq), Nat.zero_le _⟩ hl

end

namespace Demo

/-- Both kinds of source of the order: the same forms, whatever the strict one finds. -/
example : let A := Form.map (Path.ops lib) lib orders 12 0 (.source (.ok (.base (.simple
      (.json true none { root := .dict orderData, parts := [] }))))) [] false (.str .ignore) false (holding 1 [])
    let B := Form.map (Path.ops lib) lib orders 12 0 (.source (.ok (.base (.simple
      (.json false none { root := .dict orderData, parts := [] }))))) [] false (.str .ignore) false (holding 1 [])
    ∃ e', B.1 = .ok e' ∧ B.2.errors e' = [] ∧ B.2.forms = A.2.forms ∧ B.2.stack = [rootFrame] :=
  C95_lenient (L := lib) (orders_undecorated.imp fun _ h => h.1.calm) .str 12 0 [] false false (.dict orderData) none none
    (holding_live 1 []) 0 (by decide +kernel) (by decide +kernel)

/-- The other way round it does not hold: the lenient source reads a text as an integer. -/
example : (Form.map (Path.ops lib) lib orders 12 0 (.source (.ok (.base (.simple
      (.json false none { root := .dict [(.str "sku", .str "ab"), (.str "qty", .str "12")], parts := [] })))))
      [] false (.str .ignore) false (holding 0 [])).2.errors 0 = [] ∧
    (Form.map (Path.ops lib) lib orders 12 0 (.source (.ok (.base (.simple
      (.json true none { root := .dict [(.str "sku", .str "ab"), (.str "qty", .str "12")], parts := [] })))))
      [] false (.str .ignore) false (holding 0 [])).2.errors 0 ≠ [] := by decide +kernel

end Demo
end Pilo
