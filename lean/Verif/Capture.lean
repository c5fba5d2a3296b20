import Verif.Props.Munge
import Verif.Props.FormsDemo

/-!
# `Form._unmapped` at any path

What the `Dict` field of `unmapped='capture'` does where the current path lists keys and reads a value at each.
-/

namespace Pilo
namespace Capture
variable {P : Type} {I : PathOps P} {W : LawfulPath I} {L : Lib} {C : Classes} {r : Nat}

/-- Only the path differs. -/
structure Calm (τ τ' : TSt P) : Prop where
  errs : τ'.errs = τ.errs
  forms : τ'.forms = τ.forms
  npaths : τ'.npaths = τ.npaths

theorem Calm.refl (τ : TSt P) : Calm τ τ := ⟨rfl, rfl, rfl⟩
theorem Calm.trans {a b c : TSt P} (h : Calm a b) (h' : Calm b c) : Calm a c :=
  ⟨h'.errs.trans h.errs, h'.forms.trans h.forms, h'.npaths.trans h.npaths⟩

/-- The value of `path[k]`: it exists and is null, or exists, is not null and `primitive()` returns it. -/
def Has (I : PathOps P) (p : P) (k v : Val) : Prop :=
  ∃ q0 q1 b q2, I.append p k = .ok q0 ∧ I.exists_ q0 = (.ok true, q1) ∧ I.isNull q1 = (.ok b, q2) ∧
    if b then v = .none else (I.primitive .auto q2).1 = .ok v

/-- The path is at a mapping with these entries: the keys `path.mapping()` lists, all strings, once each, and what
`path[k]` reads, none of the constants `NONE`, `ERROR`, `NOT_SET`. -/
structure Offers (I : PathOps P) (p : P) (kvs : List (Val × Val)) : Prop where
  exists_ : (I.exists_ p).1 = .ok true
  isNull : (I.isNull p).1 = .ok false
  mapping : (I.mapping p).1 = .ok (some { ks := kvs.map Prod.fst })
  entries : ∀ kv ∈ kvs, Has I p kv.1 kv.2
  keys : ∀ kv ∈ kvs, kv.1.isStr = true
  values : ∀ kv ∈ kvs, kv.2.isIgnore = false
  nodup : (kvs.map Prod.fst).Nodup

/-- The current path is `p`, but for caches. -/
def Stands (W : LawfulPath I) (p : P) (r : Nat) (τ : TSt P) : Prop :=
  ∃ q, τ.path = some (some (r, q)) ∧ W.WF q ∧ Same I W.WF W.shape p q

theorem Stands.read {α : Type} {f : P → Except Exc α × P} {a : α} {p : P} {τ : TSt P} (env : Env) (h : Stands W p r τ)
    (hf : ∀ q, W.WF q → Same I W.WF W.shape p q → (f q).1 = .ok a)
    (hs : ∀ q, W.WF q → Same I W.WF W.shape q (f q).2) :
    ∃ τ', T.onPath f env τ = (.ok a, τ') ∧ Stands W p r τ' ∧ Calm τ τ' := by
  obtain ⟨q, hp, hw, hq⟩ := h
  have h1 := hf q hw hq
  have h2 := hs q hw
  refine ⟨{ τ with path := some (some (r, (f q).2)) }, ?_, ⟨(f q).2, rfl, h2.wf, h2.keys.trans hq.keys, h2.wf,
    h2.shape.trans hq.shape⟩, ⟨rfl, rfl, rfl⟩⟩
  unfold T.onPath
  rw [hp]
  simp only [h1]

/-- A read of the path object itself. -/
theorem onPath_run {α : Type} {f : P → Except Exc α × P} {q q' : P} {x : Except Exc α} {τ : TSt P} (env : Env)
    (hp : τ.path = some (some (r, q))) (hf : f q = (x, q')) :
    T.onPath f env τ = (x, { τ with path := some (some (r, q')) }) := by
  unfold T.onPath
  rw [hp]
  simp only [hf]

/-- `Field()` at `path[k]` maps to the value. -/
theorem value_field {p : P} {k v : Val} {τ : TSt P} (env : Env) (n : Nat) (h : Stands W p r τ)
    (hh : ∀ q, W.WF q → Same I W.WF W.shape p q → Has I q k v) (hv : v.isIgnore = false) :
    ∃ τ', T.withKey I k (Lex.mapField I L C (n + 1) captureValueField .NONE) env τ = (.ok v, τ') ∧
      Stands W p r τ' ∧ Calm τ τ' := by
  obtain ⟨q, hp, hw, hq⟩ := h
  obtain ⟨q0, q1, b, q2, e0, e1, e2, e3⟩ := hh q hw hq
  have hf : HookFree captureValueField := captureValue_free.node
  obtain ⟨hk0, hw0⟩ := W.append_keys hw e0
  have hs0 := W.append_shape hw e0
  have h1 : Same I W.WF W.shape q0 q1 := by have := W.exists_keys hw0; rwa [e1] at this
  have h2 : Same I W.WF W.shape q1 q2 := by have := W.isNull_keys h1.wf; rwa [e2] at this
  have h3 : Same I W.WF W.shape q2 (I.primitive .auto q2).2 := W.primitive_keys h2.wf
  let env1 : Env := { env with src := some (!k.isNull) }
  let env' : Env := { env1 with field := some captureValueField.name, parent := some .field }
  let rec' := Lex.mapField I L C n
  let at_ (x : P) : TSt P := { τ with path := some (some (r, x)) }
  have hcomp : ∃ q3, Lex.fieldCompute I L C rec' captureValueField env' (at_ q0) = (.ok v, at_ q3) ∧
      Same I W.WF W.shape q0 q3 := by
    have a1 : T.onPath I.exists_ env' (at_ q0) = (.ok true, at_ q1) := onPath_run (r := r) env' rfl e1
    have a2 : T.onPath I.isNull env' (at_ q1) = (.ok b, at_ q2) := onPath_run (r := r) env' rfl e2
    unfold Lex.fieldCompute
    rw [hf.fieldParse]
    cases b with
    | true =>
      simp only [if_true] at e3
      subst e3
      refine ⟨q2, ?_, h2.keys.trans h1.keys, h2.wf, h2.shape.trans h1.shape⟩
      refine (T.bind_ok a1).trans ?_
      simp only [Bool.not_true, Bool.false_eq_true, if_false]
      refine (T.bind_ok a2).trans ?_
      rfl
    | false =>
      simp only [Bool.false_eq_true, if_false] at e3
      have a3 : T.onPath (I.primitive .auto) env' (at_ q2) = (.ok v, at_ (I.primitive .auto q2).2) :=
        onPath_run (r := r) env' rfl (Prod.ext e3 rfl)
      refine ⟨_, ?_, h3.keys.trans (h2.keys.trans h1.keys), h3.wf, h3.shape.trans (h2.shape.trans h1.shape)⟩
      refine (T.bind_ok a1).trans ?_
      simp only [Bool.not_true, Bool.false_eq_true, if_false]
      refine (T.bind_ok a2).trans ?_
      simp only [Bool.false_eq_true, if_false]
      unfold T.tryCatch
      have : Lex.kindParse I L C rec' captureValueField env' (at_ q2) = (.ok v, at_ (I.primitive .auto q2).2) := a3
      rw [this]
  obtain ⟨q3, hc, hs3⟩ := hcomp
  have hm : Lex.mapField I L C (n + 1) captureValueField .NONE env1 (at_ q0) = (.ok v, at_ q3) := by
    have e0 : Lex.mapField I L C (n + 1) captureValueField .NONE env1 (at_ q0) =
        (Lex.fieldStart I L C rec' captureValueField >>= fun v => T.pure v) env' (at_ q0) := rfl
    rw [e0, T.bind_ok (a := v) (τ' := at_ q3)]
    · rfl
    · rw [fieldStart_value hf hc hv, fieldCheck_plain hf rfl hv rfl]
      have : Lex.kindValidate I L captureValueField v env' (at_ q3) = (.ok true, at_ q3) := by
        have hb : Lex.baseValidate I captureValueField v env' (at_ q3) = (.ok true, at_ q3) := by
          unfold Lex.baseValidate
          cases v.isNull <;> rfl
        unfold Lex.kindValidate
        refine (T.bind_ok hb).trans ?_
        cases v.isNull <;> rfl
      exact T.bind_ok this
  obtain ⟨q4, hp4, hk4, hw4, hs4⟩ := W.pop_keys hs3.wf (hs3.keys.trans hk0)
  refine ⟨at_ q4, ?_, ⟨q4, rfl, hw4, hk4.trans hq.keys, hw4, hs4.trans (hs3.shape.trans (hs0.trans hq.shape))⟩,
    ⟨rfl, rfl, rfl⟩⟩
  have a0 : T.onPath (pathAppend I k) env τ = (.ok (), at_ q0) := by
    unfold T.onPath pathAppend
    rw [hp]
    simp only [e0]
    rfl
  have a4 : T.onPath (pathPop I) env (at_ q3) = (.ok (), at_ q4) := by
    unfold T.onPath pathPop
    simp only [at_, hp4]
  unfold T.withKey
  rw [a0]
  dsimp only
  rw [hm]
  dsimp only
  rw [a4]

/-- `String()` keeps a string key. -/
theorem key_field (env : Env) (n : Nat) (k : String) (τ : TSt P) :
    Lex.mapField I L C (n + 1) captureKeyField (.str k) env τ = (.ok (.str k), τ) := by
  rfl

/-- The key filter: `key not in self`. -/
def keyFilter (id : Nat) : Hook (Val → Prog) :=
  { target := some (.form id), body := fun self key => .bind (.hasItem self key) fun r => .ret (.bool (!r.truthy)) }

theorem keep_key (env : Env) (rec' : TRec P) (id : Nat) (k : String) (τ : TSt P) :
    Lex.keepKey I L C rec' (some (keyFilter id)) (.str k) env τ =
      (.ok (!dictHas ((τ.forms[id]?).elim [] FormObj.items) (.str k)), τ) := by
  rfl

/-- The entries that are not in the form. -/
def rest (items kvs : List (Val × Val)) : List (Val × Val) := kvs.filter fun kv => !dictHas items kv.1

theorem dict_loop {p : P} {id : Nat} {items : List (Val × Val)} (env : Env) (n : Nat)
    (l : List (Val × Val)) : ∀ (acc : List (Val × Val)) (τ : TSt P), Stands W p r τ →
    (τ.forms[id]?).elim [] FormObj.items = items →
    (∀ kv ∈ l, kv.1.isStr = true ∧ kv.2.isIgnore = false ∧
      ∀ q, W.WF q → Same I W.WF W.shape p q → Has I q kv.1 kv.2) →
    (l.map Prod.fst).Nodup → (∀ kv ∈ l, ∀ x ∈ acc, x.1 ≠ kv.1) →
    ∃ τ', Lex.dictLoop I L C (Lex.mapField I L C (n + 1)) captureKeyField captureValueField
        (some (keyFilter id)) (l.map Prod.fst) acc env τ = (.ok (acc ++ rest items l), τ') ∧
      Stands W p r τ' ∧ Calm τ τ' := by
  induction l with
  | nil =>
    intro acc τ h _ _ _ _
    exact ⟨τ, by simp [Lex.dictLoop, T.pure, rest], h, .refl τ⟩
  | cons kv l ih =>
    intro acc τ h hit hl hnd hacc
    obtain ⟨k, v⟩ := kv
    obtain ⟨hk, hv, hhas⟩ := hl (k, v) (by simp)
    have hl' := fun kv hkv => hl kv (List.mem_cons_of_mem _ hkv)
    simp only [List.map_cons, List.nodup_cons] at hnd
    obtain ⟨hnk, hnd⟩ := hnd
    have hacc' : ∀ kv ∈ l, ∀ x ∈ acc, x.1 ≠ kv.1 := fun kv hkv => hacc kv (by simp [hkv])
    cases k <;> simp [Val.isStr] at hk
    rename_i k
    have ekeep := keep_key (I := I) (L := L) (C := C) env (Lex.mapField I L C (n + 1)) id k τ
    rw [hit] at ekeep
    simp only [List.map_cons, Lex.dictLoop]
    cases hin : dictHas items (.str k) with
    | true =>
      rw [hin] at ekeep
      obtain ⟨τ', e', s', c'⟩ := ih acc τ h hit hl' hnd hacc'
      refine ⟨τ', ?_, s', c'⟩
      refine (T.bind_ok ekeep).trans ?_
      simp only [Bool.not_true, Bool.not_false, if_true]
      rw [e']
      simp [rest, hin]
    | false =>
      rw [hin] at ekeep
      obtain ⟨τ1, e1, s1, c1⟩ := value_field (L := L) (C := C) env n h hhas hv
      obtain ⟨τ', e', s', c'⟩ := ih (acc ++ [(.str k, v)]) τ1 s1 (by rw [c1.forms]; exact hit) hl' hnd (by
        intro kv hkv x hx
        rw [List.mem_append, List.mem_singleton] at hx
        rcases hx with hx | rfl
        · exact hacc' kv hkv x hx
        · intro he
          exact hnk (List.mem_map.2 ⟨kv, hkv, he.symm⟩))
      refine ⟨τ', ?_, s', c1.trans c'⟩
      refine (T.bind_ok ekeep).trans ?_
      simp only [Bool.not_false, Bool.not_true, Bool.false_eq_true, if_false]
      refine (T.bind_ok e1).trans ?_
      simp only [hv, Bool.false_eq_true, if_false]
      refine (T.bind_ok (key_field env n k τ1)).trans ?_
      have hfresh : dictSet acc (.str k) v = acc ++ [(.str k, v)] := by
        refine dictSet_fresh fun kv hkv => ?_
        cases hp : Val.pyEq (.str k) kv.1 with
        | false => rfl
        | true => exact absurd (pyEq_str.1 hp) (hacc (.str k, v) (by simp) kv hkv)
      show Lex.dictLoop I L C (Lex.mapField I L C (n + 1)) captureKeyField captureValueField
        (some (keyFilter id)) (l.map Prod.fst) (dictSet acc (.str k) v) env τ1 = _
      rw [hfresh, e']
      simp [rest, hin]

/-- `Form._unmapped` with `'capture'`: the `Dict` field maps to the entries that are not in the form. -/
theorem dict_field {p : P} {kvs : List (Val × Val)} {id : Nat} {τ : TSt P} (env : Env) (n : Nat)
    (h : Stands W p r τ) (ho : ∀ q, W.WF q → Same I W.WF W.shape p q → Offers I q kvs) :
    ∃ τ', Lex.mapField I L C (n + 2) (unmappedField id captureKeyField captureValueField) .NONE env τ =
        (.ok (.dict (rest ((τ.forms[id]?).elim [] FormObj.items) kvs)), τ') ∧
      Stands W p r τ' ∧ Calm τ τ' := by
  have hf : HookFree (unmappedField id captureKeyField captureValueField) :=
    (unmappedField_free captureKey_free captureValue_free).node
  generalize hF : unmappedField id captureKeyField captureValueField = F at hf
  let env' : Env := { env with field := some F.name, parent := some .field }
  let rec' := Lex.mapField I L C (n + 1)
  let v := Val.dict (rest ((τ.forms[id]?).elim [] FormObj.items) kvs)
  have h0 := h
  obtain ⟨q0, -, hw0, hq0⟩ := h0
  have ho0 := ho q0 hw0 hq0
  have hcomp : ∃ τ', Lex.fieldCompute I L C rec' F env' τ = (.ok v, τ') ∧
      Stands W p r τ' ∧ Calm τ τ' := by
    obtain ⟨τ1, e1, s1, c1⟩ := h.read env' (fun q hw hq => (ho q hw hq).exists_) fun _ => W.exists_keys
    obtain ⟨τ2, e2, s2, c2⟩ := s1.read env' (fun q hw hq => (ho q hw hq).isNull) fun _ => W.isNull_keys
    obtain ⟨τ3, e3, s3, c3⟩ := s2.read env' (fun q hw hq => (ho q hw hq).mapping) fun _ => W.mapping_keys
    have c13 := (c1.trans c2).trans c3
    obtain ⟨τ4, e4, s4, c4⟩ := dict_loop (id := id) (L := L) (C := C) env' n kvs [] τ3 s3 rfl
      (fun kv hkv => ⟨ho0.keys kv hkv, ho0.values kv hkv, fun q hw hq => (ho q hw hq).entries kv hkv⟩) ho0.nodup
      (fun _ _ _ hx => by cases hx)
    refine ⟨τ4, ?_, s4, c13.trans c4⟩
    unfold Lex.fieldCompute
    rw [hf.fieldParse]
    refine (T.bind_ok e1).trans ?_
    simp only [Bool.not_true, Bool.false_eq_true, if_false]
    refine (T.bind_ok e2).trans ?_
    have hp : Lex.kindParse I L C rec' F env' τ2 = (.ok v, τ4) := by
      subst hF
      show Lex.dictParse I L C rec' _ captureKeyField captureValueField (some (keyFilter id)) env' τ2 = _
      unfold Lex.dictParse
      refine (T.bind_ok e3).trans ?_
      dsimp only
      refine (T.bind_ok (show Lex.iterKeys { ks := kvs.map Prod.fst } env' τ3 = (.ok (kvs.map Prod.fst), τ3) from rfl)).trans ?_
      refine (T.bind_ok e4).trans ?_
      simp only [v, List.nil_append, c13.forms]
      rfl
    show T.tryCatch (Lex.kindParse I L C rec' F) _ env' τ2 = _
    unfold T.tryCatch
    rw [hp]
  obtain ⟨τ', e, hs', hc⟩ := hcomp
  refine ⟨τ', ?_, hs', hc⟩
  have e0 : Lex.mapField I L C (n + 2) F .NONE env τ =
      (Lex.fieldStart I L C rec' F >>= fun v => T.pure v) env' τ := by
    subst hF; rfl
  rw [e0, T.bind_ok (a := v) (τ' := τ')]
  · rfl
  · rw [fieldStart_value hf e rfl, fieldCheck_plain hf (by subst hF; rfl) rfl (by subst hF; rfl)]
    have : Lex.kindValidate I L F v env' τ' = (.ok true, τ') := by
      subst hF; rfl
    exact T.bind_ok this

/-! ## In the context -/

section
variable {P : Type} {I : PathOps P} {C' : Classes} {rec rec' : Rec P}

theorem keepKey_irrel (id : Nat) (k : Val) :
    keepKey I L C rec (some (keyFilter id)) k = keepKey I L C' rec' (some (keyFilter id)) k := rfl

theorem dictLoop_irrel {kf vf : Field} (hk : ∀ v, rec kf v = rec' kf v) (hv : ∀ v, rec vf v = rec' vf v) (id : Nat)
    (l : List Val) : ∀ acc, dictLoop I L C rec kf vf (some (keyFilter id)) l acc =
      dictLoop I L C' rec' kf vf (some (keyFilter id)) l acc := by
  induction l with
  | nil => intro acc; rfl
  | cons k l ih =>
    intro acc
    unfold dictLoop
    rw [keepKey_irrel (C' := C') (rec' := rec'), hv, hk]
    simp only [ih]

/-- The `Dict` of `unmapped='capture'` uses neither the class table nor deep recursion. -/
theorem capture_irrel (id n : Nat) (v : Val) :
    mapField I L C (n + 2) (unmappedField id captureKeyField captureValueField) v =
      mapField I L C' (n + 2) (unmappedField id captureKeyField captureValueField) v := by
  have hf : HookFree (unmappedField id captureKeyField captureValueField) :=
    (unmappedField_free captureKey_free captureValue_free).node
  have hk : ∀ v, mapField I L C (n + 1) captureKeyField v = mapField I L C' (n + 1) captureKeyField v := fun v =>
    leaf_irrel captureKey_free.node rfl v
  have hv : ∀ v, mapField I L C (n + 1) captureValueField v = mapField I L C' (n + 1) captureValueField v := fun v =>
    leaf_irrel captureValue_free.node rfl v
  have hd := hf.default_irrel (I := I) (L := L) (C := C) (C' := C') (rec := mapField I L C (n + 1))
    (rec' := mapField I L C' (n + 1))
  have hp : fieldParse I L C (mapField I L C (n + 1)) (unmappedField id captureKeyField captureValueField) =
      fieldParse I L C' (mapField I L C' (n + 1)) (unmappedField id captureKeyField captureValueField) := by
    unfold fieldParse kindParse
    rw [hf.parse]
    show dictParse I L C _ _ captureKeyField captureValueField (some (keyFilter id)) =
      dictParse I L C' _ _ captureKeyField captureValueField (some (keyFilter id))
    unfold dictParse
    rw [hd]
    simp only [dictLoop_irrel (C := C) (C' := C') hk hv]
  show mapFieldF I L C _ _ v = mapFieldF I L C' _ _ v
  unfold mapFieldF fieldMapInner withResolve fieldStart computeStep fieldCompute
  rw [hf.resolve, hf.check_irrel (C' := C') (rec' := mapField I L C' (n + 1)), hf.compute, hp, hd]
  simp only [hf.check_irrel (C' := C') (rec' := mapField I L C' (n + 1))]
  rcases hf.default with h | ⟨w, h⟩ <;> simp only [h]

theorem capture_ref (id n : Nat) :
    Ref (mapField I L C (n + 2) (unmappedField id captureKeyField captureValueField) .NONE)
      (Lex.mapField I L noClasses (n + 2) (unmappedField id captureKeyField captureValueField) .NONE) := by
  rw [capture_irrel (C' := noClasses)]
  exact Ref.mapField (noClasses_all _) (n + 2) _ _ (unmappedField_lex id captureKey_lex captureValue_lex)

end

/-- The form table after capturing. -/
def captured (kvs : List (Val × Val)) (id : Nat) (forms : List FormObj) : List FormObj :=
  forms.modify id fun o => { o with items := o.items ++ kvs.filter fun kv => !dictHas o.items kv.1 }

theorem update_rest (l : List (Val × Val)) (hs : ∀ kv ∈ l, kv.1.isStr = true)
    (hn : (l.map Prod.fst).Nodup) : ∀ (items' : List (Val × Val)), (∀ kv ∈ l, dictHas items' kv.1 = false) →
    dictUpdate items' l = items' ++ l := by
  induction l with
  | nil => intro items' _; simp [dictUpdate]
  | cons kv l ih =>
    intro items' h
    obtain ⟨k, v⟩ := kv
    simp only [List.map_cons, List.nodup_cons] at hn
    have hk := hs (k, v) (by simp)
    cases k <;> simp [Val.isStr] at hk
    rename_i k
    have hfresh : dictSet items' (.str k) v = items' ++ [(.str k, v)] := by
      refine dictSet_fresh fun kv hkv => ?_
      have := h (.str k, v) (by simp)
      unfold dictHas at this
      rw [List.any_eq_false] at this
      simpa using this kv hkv
    show dictUpdate (dictSet items' (.str k) v) l = _
    rw [hfresh, ih (fun kv hkv => hs kv (by simp [hkv])) hn.2]
    · simp
    · intro kv hkv
      have h1 := h kv (by simp [hkv])
      unfold dictHas at h1 ⊢
      rw [List.any_append, h1]
      have hk2 := hs kv (by simp [hkv])
      obtain ⟨k2, v2⟩ := kv
      cases k2 <;> simp [Val.isStr] at hk2
      rename_i k2
      simp only [List.any_cons, List.any_nil, Bool.or_false, Bool.false_or]
      cases hp : Val.pyEq (.str k2) (.str k) with
      | false => rfl
      | true =>
        have := pyEq_str.1 hp
        rw [this] at hn
        exact absurd (List.mem_map.2 ⟨_, hkv, rfl⟩) hn.1

/-- The `unmapped='capture'` step of `Form._map` where the current path is at a mapping. -/
theorem apply_capture {kvs : List (Val × Val)} (n id : Nat) {s : St P} (hl : Live s) (hi : Inv W s)
    {p : P} (hp : curPathObj s = some (some (r, p))) (ho : ∀ q, W.WF q → Same I W.WF W.shape p q → Offers I q kvs) :
    let B := applyUnmapped (mapField I L C (n + 2)) id (.str .capture) s
    B.1 = .ok () ∧ curErrs B.2 = curErrs s ∧ B.2.forms = captured kvs id s.forms ∧ B.2.stack = s.stack ∧
      ∀ i, i < s.errs.length → lookup Frame.errors s.stack ≠ some i → B.2.errs[i]? = s.errs[i]? := by
  intro B
  have hw : W.WF p := curPathObj_wf hi hp
  have hself : Same I W.WF W.shape p p := ⟨rfl, hw, rfl⟩
  obtain ⟨τ', e', -, c'⟩ := dict_field (L := L) (C := noClasses) (id := id) s.env n (τ := s.view) ⟨p, hp, hw, hself⟩ ho
  obtain ⟨h1, h2, h3⟩ := capture_ref (I := I) (L := L) (C := C) id n _ _ _ hl.agree
  rw [e'] at h1 h2
  rcases hm : mapField I L C (n + 2) (unmappedField id captureKeyField captureValueField) .NONE s with ⟨x, s1⟩
  rw [hm] at h1 h2 h3
  dsimp only at h1 h2 h3
  subst h1
  have hk := ho p hw hself
  have hforms : s1.forms = s.forms := h2.forms.trans c'.forms
  have hB : B = (.ok (), { s1 with forms := s1.forms.modify id fun o =>
      { o with items := (dictUpdate o.items (rest ((s.forms[id]?).elim [] FormObj.items) kvs)) } }) :=
    (M.bind_ok hm).trans rfl
  rw [hB]
  refine ⟨rfl, ?_, ?_, h3.stack, h3.errs⟩
  · show curErrs s1 = _
    exact h2.curErrs.trans c'.errs
  · show s1.forms.modify id _ = _
    rw [hforms]
    unfold captured
    apply List.ext_getElem?
    intro i
    rw [List.getElem?_modify, List.getElem?_modify]
    by_cases hid : id = i
    · subst hid
      simp only [if_true]
      cases ho : s.forms[id]? with
      | none => rfl
      | some o =>
        simp only [Option.elim, Option.map_eq_map, Option.map_some]
        congr 2
        refine update_rest _ (fun kv hkv => hk.keys kv (List.mem_filter.1 hkv).1) ?_ o.items fun kv hkv => ?_
        · exact hk.nodup.sublist (List.Sublist.map _ List.filter_sublist)
        · have := (List.mem_filter.1 hkv).2
          simpa using this
    · simp only [hid, if_false]

end Capture

/-- Everything `Form._map` does before the `unmapped` step. -/
theorem formMapBody_ignore {P : Type} {I : PathOps P} {C : Classes} (rec : Rec P) (id : Nat) (tags : List String)
    (u : Unmapped) : formMapBody I C rec id tags u =
      (formMapBody I C rec id tags (.str .ignore) >>= fun _ => applyUnmapped rec id u) := by
  have assoc : ∀ {α β γ : Type} (m : M P α) (f : α → M P β) (g : β → M P γ),
      ((m >>= f) >>= g) = (m >>= fun a => f a >>= g) := by
    intro α β γ m f g
    funext s
    rcases h : m s with ⟨r, s1⟩
    cases r with
    | ok a =>
      rw [M.bind_ok h]
      rcases h2 : f a s1 with ⟨r2, s2⟩
      cases r2 with
      | ok b => rw [M.bind_ok (show (m >>= f) s = (.ok b, s2) by rw [M.bind_ok h, h2]), M.bind_ok h2]
      | error e => rw [M.bind_error (show (m >>= f) s = (.error e, s2) by rw [M.bind_ok h, h2]), M.bind_error h2]
    | error e => rw [M.bind_error h, M.bind_error (show (m >>= f) s = (.error e, s1) by rw [M.bind_error h])]
  unfold formMapBody
  simp only [assoc]
  rfl

namespace Capture
variable {P : Type} {I : PathOps P} {W : LawfulPath I} {L : Lib} {C : Classes}

/-- What relates a run `A` with `'ignore'` and the run `B` with `'capture'`: the same result; unless that is an
exception, the same errors in every error list, and the form `id` has got the entries it lacked. -/
def Captures {α : Type} (kvs : List (Val × Val)) (id : Nat) (A B : Except Exc α × St P) : Prop :=
  B.1 = A.1 ∧ ∀ a, A.1 = .ok a → B.2.forms = captured kvs id A.2.forms ∧ B.2.stack = A.2.stack ∧
    ∀ i, i < A.2.errs.length → B.2.errs[i]? = A.2.errs[i]?

theorem Captures.after {kvs : List (Val × Val)} {id : Nat} {α β : Type} {m : M P β} {f g : β → M P α}
    {s : St P} (h : ∀ a s', m s = (.ok a, s') → Captures kvs id (f a s') (g a s')) :
    Captures kvs id ((m >>= f) s) ((m >>= g) s) := by
  rcases hm : m s with ⟨x, s1⟩
  cases x with
  | error e =>
    rw [M.bind_error hm, M.bind_error hm]
    exact ⟨rfl, fun _ h => by cases h⟩
  | ok a =>
    rw [M.bind_ok hm, M.bind_ok hm]
    exact h a s1 hm

theorem Captures.andThen {kvs : List (Val × Val)} {id : Nat} {α β : Type} {m m' : M P β} {f : β → M P α}
    {s : St P} (h : Captures kvs id (m s) (m' s))
    (hf : ∀ a sA sB, m s = (.ok a, sA) → m' s = (.ok a, sB) → sB.forms = captured kvs id sA.forms →
      sB.stack = sA.stack → (∀ i, i < sA.errs.length → sB.errs[i]? = sA.errs[i]?) →
      Captures kvs id (f a sA) (f a sB)) :
    Captures kvs id ((m >>= f) s) ((m' >>= f) s) := by
  obtain ⟨h1, h2⟩ := h
  rcases hm : m s with ⟨x, s1⟩
  rcases hm' : m' s with ⟨x', s1'⟩
  rw [hm, hm'] at h1 h2
  dsimp only at h1 h2
  subst h1
  cases x' with
  | error e =>
    rw [M.bind_error hm, M.bind_error hm']
    exact ⟨rfl, fun _ h => by cases h⟩
  | ok e =>
    rw [M.bind_ok hm, M.bind_ok hm']
    obtain ⟨h3, h4, h5⟩ := h2 e rfl
    exact hf e s1 s1' hm hm' h3 h4 h5

theorem Captures.finish {kvs : List (Val × Val)} {id : Nat} {raising : Bool} {e : Nat} {s1 s1' : St P}
    (h : Captures kvs id (.ok e, s1) (.ok e, s1')) (he : e < s1.errs.length) :
    Captures kvs id (formFinish raising e s1) (formFinish raising e s1') := by
  obtain ⟨h3, h4, h5⟩ := h.2 e rfl
  unfold formFinish
  cases raising with
  | false => exact h
  | true =>
    simp only [if_true]
    have e1 : errItems e s1 = (.ok (s1.errors e), s1) := rfl
    have e2 : errItems e s1' = (.ok (s1'.errors e), s1') := rfl
    have e3 : s1'.errors e = s1.errors e := by unfold St.errors; rw [h5 e he]
    rw [M.bind_ok e1, M.bind_ok e2, e3]
    cases (s1.errors e).isEmpty with
    | true => exact h
    | false => exact ⟨rfl, fun _ h => by cases h⟩

/-- A block that pushes a frame around the run. -/
theorem Captures.push {kvs : List (Val × Val)} {id : Nat} {push : M P Unit} {fr : Frame} {m m' : M P Unit}
    {s s0 : St P} (hp : push s = (.ok (), { s0 with stack := fr :: s.stack })) (hf : ∀ k, fr.src ≠ .key k)
    (hm : (m { s0 with stack := fr :: s.stack }).2.stack = fr :: s.stack)
    (hm' : (m' { s0 with stack := fr :: s.stack }).2.stack = fr :: s.stack)
    (h : Captures kvs id (m { s0 with stack := fr :: s.stack }) (m' { s0 with stack := fr :: s.stack })) :
    Captures kvs id (withPush I push m s) (withPush I push m' s) := by
  rw [withPush_run hp hf (Prod.eta _).symm hm, withPush_run hp hf (Prod.eta _).symm hm']
  refine ⟨h.1, fun a ha => ?_⟩
  obtain ⟨h1, -, h2⟩ := h.2 a ha
  exact ⟨h1, rfl, h2⟩

/-- `Form._map` where the current path is at a mapping. -/
theorem body_captures {kvs : List (Val × Val)} (n id : Nat) (tags : List String) {s : St P} (hl : Live s)
    (hi : Inv W s) {r : Nat} {p : P} (hp : curPathObj s = some (some (r, p)))
    (ho : ∀ q, W.WF q → Same I W.WF W.shape p q → Offers I q kvs) :
    let A := formMapBody I C (mapField I L C (n + 2)) id tags (.str .ignore) s
    let B := formMapBody I C (mapField I L C (n + 2)) id tags (.str .capture) s
    B.1 = A.1 ∧ (∀ x, A.1 = .error x → B.2 = A.2) ∧
    (A.1 = .ok () → B.2.forms = captured kvs id A.2.forms ∧ B.2.stack = A.2.stack ∧
      ∀ i, i < A.2.errs.length → B.2.errs[i]? = A.2.errs[i]?) := by
  intro A B
  have hB : B = (formMapBody I C (mapField I L C (n + 2)) id tags (.str .ignore) >>=
      fun _ => applyUnmapped (mapField I L C (n + 2)) id (.str .capture)) s := by
    show formMapBody _ _ _ _ _ (.str .capture) s = _
    rw [formMapBody_ignore]
  have hx : Ext W s A.2 :=
    (Keeps.formMapBody (Keeps.mapField (W := W) (L := L) (C := C) (n + 2)) id tags (.str .ignore)).run s hi
  rcases hA : A with ⟨x, s1⟩
  rw [hA] at hx
  cases x with
  | error x =>
    rw [M.bind_error hA] at hB
    rw [hB]
    exact ⟨rfl, fun _ _ => rfl, fun h => by cases h⟩
  | ok a =>
    rw [M.bind_ok hA] at hB
    have hcp : curPath s.stack = some (some r) ∧ s.paths[r]? = some p := by
      unfold curPathObj at hp
      rcases hc : curPath s.stack with _ | _ | r'
      · rw [hc] at hp; cases hp
      · rw [hc] at hp; cases hp
      · rw [hc] at hp
        dsimp only at hp
        cases hp' : s.paths[r']? with
        | none => rw [hp'] at hp; cases hp
        | some q => rw [hp'] at hp; cases hp; exact ⟨rfl, hp'⟩
    obtain ⟨q, hq, hsame⟩ := hx.paths r p hcp.2
    have hp1 : curPathObj s1 = some (some (r, q)) := by
      unfold curPathObj
      have hst : s1.stack = s.stack := hx.stack
      rw [hst, hcp.1]
      have hq' : s1.paths[r]? = some q := hq
      simp only [hq', Option.map_some]
    have := apply_capture (L := L) (C := C) n id (hl.ext hx) (hx.inv hi) hp1 fun q' hw' hs' =>
      ho q' hw' ⟨hs'.keys.trans hsame.keys, hw', hs'.shape.trans hsame.shape⟩
    rw [hB]
    obtain ⟨h1, h2, h3, h4, h5⟩ := this
    refine ⟨h1, ?_, fun _ => ⟨h3, h4, fun i hi => ?_⟩⟩
    · intro x h
      cases h
    · by_cases hc : lookup Frame.errors s1.stack = some i
      · have h6 := h2
        unfold curErrs at h6
        rw [h4, hc] at h6
        exact h6
      · exact h5 i hi hc

/-- `form.map(src)` for a source whose path is at a mapping. -/
theorem map_captures {kvs : List (Val × Val)} {src : SrcArg P} {p0 : P} (hw : W.WF p0) (hnone : src.isNone = false)
    (hroot : ∀ id s, rootSource I C id src s = (.ok (.ok p0), s))
    (ho : ∀ q, W.WF q → Same I W.WF W.shape p0 q → Offers I q kvs)
    (n id : Nat) (tags : List String) (reset raising : Bool) {s : St P} (hl : Live s) (hi : Inv W s) :
    Captures kvs id (Form.map I L C (n + 2) id src tags reset (.str .ignore) raising s)
      (Form.map I L C (n + 2) id src tags reset (.str .capture) raising s) := by
  unfold Form.map formMap
  refine Captures.after fun ct s1 h1 => ?_
  have : s1 = s := by cases h1; rfl
  subst this
  refine Captures.after fun _ s2 h2 => ?_
  have hx2 : Ext W s1 s2 := by
    have hkp : Keeps W (formResetIf C id (pickTags tags ct) reset : M P Unit) := by
      unfold formResetIf
      split
      · exact .bind (.formCls id) fun cls => .formReset id _ _
      · exact .pure _
    have := hkp.run s1 hi
    rw [h2] at this
    exact this
  have hi2 := hx2.inv hi
  have hl2 := hl.ext hx2
  refine Captures.after fun b s3 h3 => ?_
  have : s3 = s2 := by
    unfold ctxGet at h3
    split at h3 <;> cases h3
    rfl
  subst this
  have hat : ∀ u, formMapAt I C (mapField I L C (n + 2)) id src (pickTags tags ct) u raising b =
      rootMap I C (mapField I L C (n + 2)) id src (pickTags tags ct) u raising := by
    intro u
    unfold formMapAt
    rw [hnone]
    rfl
  rw [hat, hat]
  refine Captures.andThen (m := rootMap _ _ _ _ _ _ _ _) (m' := rootMap _ _ _ _ _ _ _ _) ?_ ?_
  · unfold rootMap
    rw [M.bind_ok (hroot id s3), M.bind_ok (hroot id s3)]
    refine Captures.after fun e s4 h4 => ?_
    cases h4
    refine Captures.andThen (m := withPush _ _ _) (m' := withPush _ _ _) ?_ ?_
    · let fr : Frame := { errors := some s3.errs.length, src := .source s3.paths.length }
      have hin : Inv W { s3 with errs := s3.errs ++ [⟨raising, []⟩] } :=
        ((Keeps.newErrs (W := W) raising).run s3 hi2).inv hi2
      have hib := PushOK.inv (W := W) (PushOK.source (mk := .ok p0) (f := { errors := some s3.errs.length })
        (by rintro p ⟨⟩; exact hw)) hin
      let sb : St P := { s3 with errs := s3.errs ++ [⟨raising, []⟩], paths := s3.paths ++ [p0], stack := fr :: s3.stack }
      have hib : Inv W sb := hib
      have hlb : Live sb := by
        refine ⟨List.mem_cons_of_mem _ hl2.root, ?_, ?_, ?_⟩
        · intro r hr
          cases hr
          show _ < (s3.paths ++ [p0]).length
          simp
        · intro e he
          cases he
          show _ < (s3.errs ++ [_]).length
          simp
        · intro f hf i hfi
          rcases List.mem_cons.1 hf with rfl | hf
          · cases hfi
          · exact hl2.ids f hf i hfi
      have hcp : curPathObj sb = some (some (s3.paths.length, p0)) := by
        show ((s3.paths ++ [p0])[s3.paths.length]?).map _ = _
        simp
      have hst := fun u => ((Keeps.formMapBody (W := W) (C := C)
        (Keeps.mapField (L := L) (C := C) (n + 2)) id (pickTags tags ct) u).run sb hib).stack
      have hm := body_captures (L := L) (C := C) n id (pickTags tags ct) hlb hib hcp ho
      exact Captures.push (s0 := sb) rfl (by intro k hk; cases hk) (hst _) (hst _) ⟨hm.1, fun a ha => hm.2.2 ha⟩
    · intro a sA sB _ _ h1 h2 h3
      exact ⟨rfl, fun _ _ => ⟨h1, h2, h3⟩⟩
  · intro e sA sB hA hB h1 h2 h3
    refine Captures.finish ⟨rfl, fun _ _ => ⟨h1, h2, h3⟩⟩ ?_
    unfold rootMap at hA
    rw [M.bind_ok (hroot id s3)] at hA
    obtain ⟨e', s4, h4, hA⟩ := bindOk hA
    have hx4 := (Keeps.newErrs (W := W) raising).run s3 hi2
    have he4 : e' = s3.errs.length ∧ s4 = { s3 with errs := s3.errs ++ [⟨raising, []⟩] } := by cases h4; exact ⟨rfl, rfl⟩
    rw [h4] at hx4
    obtain ⟨_, s5, h5, hA⟩ := bindOk hA
    have hx5 := (Keeps.withPush (W := W) (PushOK.source (mk := .ok p0) (f := { errors := some e' })
      (by rintro p ⟨⟩; exact hw)) (Keeps.formMapBody (C := C) (Keeps.mapField (L := L) (C := C) (n + 2)) id
        (pickTags tags ct) (.str .ignore))).run s4 (hx4.inv hi2)
    rw [h5] at hx5
    cases hA
    have : e < s4.errs.length := by rw [he4.1, he4.2]; simp
    obtain ⟨b', hb', -⟩ := hx5.errs e _ (List.getElem?_eq_getElem this)
    exact (List.getElem?_eq_some_iff.1 hb').1

end Capture
end Pilo
