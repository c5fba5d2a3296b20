import Verif.Lone
import Verif.Twin
import Verif.Clean

/-!
# Mapping does not depend on which forms there are

Two runs of the same mapping from states with different forms: the values read and the errors reported are the same, and
the new forms are the same but for their identities.
-/

namespace Pilo

/-! ### Renaming forms -/

mutual
/-- The value with other forms in place of its forms. -/
def Val.mv (g : Nat → Nat) : Val → Val
  | .form i => .form (g i)
  | .list xs => .list (Val.mvList g xs)
  | .tuple xs => .tuple (Val.mvList g xs)
  | .dict kvs => .dict (Val.mvDict g kvs)
  | v => v
def Val.mvList (g : Nat → Nat) : List Val → List Val
  | [] => []
  | x :: xs => x.mv g :: Val.mvList g xs
def Val.mvDict (g : Nat → Nat) : List (Val × Val) → List (Val × Val)
  | [] => []
  | (k, v) :: kvs => (k.mv g, v.mv g) :: Val.mvDict g kvs
end

/-- The form with other forms in its entries, and another form as its parent. -/
def FormObj.mv (g : Nat → Nat) (o : FormObj) : FormObj :=
  { o with items := Val.mvDict g o.items,
           parent := o.parent.map fun p => p.map fun
             | .form i => .form (g i)
             | p => p }

/-- There is no form in the value. -/
inductive Free : Val → Prop where
  | none : Free .none
  | bool (b : Bool) : Free (.bool b)
  | int (i : Int) : Free (.int i)
  | float (x : Num) : Free (.float x)
  | decimal (x : Num) : Free (.decimal x)
  | str (s : String) : Free (.str s)
  | const (c : Const) : Free (.const c)
  | ext (ty : ExtTy) (n : Int) : Free (.ext ty n)
  | func (id : Nat) : Free (.func id)
  | obj (id : Nat) : Free (.obj id)
  | list {xs : List Val} (h : ∀ x ∈ xs, Free x) : Free (.list xs)
  | tuple {xs : List Val} (h : ∀ x ∈ xs, Free x) : Free (.tuple xs)
  | dict {kvs : List (Val × Val)} (hk : ∀ p ∈ kvs, Free p.1) (h : ∀ p ∈ kvs, Free p.2) : Free (.dict kvs)

namespace Move
variable {g : Nat → Nat}

theorem mvList_eq (xs : List Val) : Val.mvList g xs = xs.map (Val.mv g) := by
  induction xs with
  | nil => rfl
  | cons x xs ih => rw [Val.mvList, ih]; rfl

theorem mvDict_eq (kvs : List (Val × Val)) : Val.mvDict g kvs = kvs.map fun p => (p.1.mv g, p.2.mv g) := by
  induction kvs with
  | nil => rfl
  | cons x xs ih => obtain ⟨k, v⟩ := x; rw [Val.mvDict, ih]; rfl

theorem mv_free {v : Val} (h : Free v) : v.mv g = v := by
  induction h with
  | list _ ih => rw [Val.mv, mvList_eq, List.map_congr_left ih, List.map_id'']; exact fun _ => rfl
  | tuple _ ih => rw [Val.mv, mvList_eq, List.map_congr_left ih, List.map_id'']; exact fun _ => rfl
  | @dict kvs _ _ ih1 ih2 =>
    rw [Val.mv, mvDict_eq, List.map_congr_left (g := id) fun p hp => ?_, List.map_id]
    rw [ih1 p hp, ih2 p hp]
    rfl
  | _ => rfl

mutual
theorem free_of_hashable : ∀ {v : Val}, v.hashable = true → Free v
  | .none, _ => .none
  | .bool b, _ => .bool b
  | .int b, _ => .int b
  | .float b, _ => .float b
  | .decimal b, _ => .decimal b
  | .str b, _ => .str b
  | .const b, _ => .const b
  | .ext a b, _ => .ext a b
  | .func b, _ => .func b
  | .obj b, _ => .obj b
  | .list _, h => by simp [Val.hashable] at h
  | .dict _, h => by simp [Val.hashable] at h
  | .form _, h => by simp [Val.hashable] at h
  | .tuple xs, h => .tuple (free_of_hashableList (by simpa [Val.hashable] using h))
theorem free_of_hashableList : ∀ {xs : List Val}, Val.hashableList xs = true → ∀ x ∈ xs, Free x
  | [], _ => by intro x h; cases h
  | y :: ys, h => by
    rw [Val.hashableList, Bool.and_eq_true] at h
    intro x hx
    rcases List.mem_cons.1 hx with hx | hx
    · rw [hx]; exact free_of_hashable h.1
    · exact free_of_hashableList h.2 x hx
end

theorem num_mv (v : Val) : (v.mv g).num? = v.num? := by cases v <;> rfl

mutual
theorem pyEq_mv (hg : ∀ i j, g i = g j → i = j) : ∀ a b : Val, (a.mv g).pyEq (b.mv g) = a.pyEq b
  | .list xs, b => by
    cases b with
    | list ys => simpa [Val.mv, Val.pyEq] using pyEqList_mv hg xs ys
    | _ => simp [Val.mv, Val.pyEq]
  | .tuple xs, b => by
    cases b with
    | tuple ys => simpa [Val.mv, Val.pyEq] using pyEqList_mv hg xs ys
    | _ => simp [Val.mv, Val.pyEq]
  | .dict xs, b => by
    cases b with
    | dict ys =>
      have h1 : ∀ zs : List (Val × Val), (Val.mvDict g zs).length = zs.length := fun zs => by rw [mvDict_eq, List.length_map]
      rw [Val.mv, Val.mv, Val.pyEq, Val.pyEq, pyEqDict_mv hg xs ys, h1, h1]
    | _ => simp [Val.mv, Val.pyEq]
  | .form i, b => by
    cases b with
    | form j =>
      simp only [Val.mv, Val.pyEq]
      by_cases h : i = j
      · subst h; simp
      · have : g i ≠ g j := fun e => h (hg _ _ e)
        rw [beq_eq_false_iff_ne.2 this, beq_eq_false_iff_ne.2 h]
    | _ => simp [Val.mv, Val.pyEq]
  | .bool x, b => by cases b <;> simp [Val.mv, Val.pyEq, Val.num?]
  | .int x, b => by cases b <;> simp [Val.mv, Val.pyEq, Val.num?]
  | .float x, b => by cases b <;> simp [Val.mv, Val.pyEq, Val.num?]
  | .decimal x, b => by cases b <;> simp [Val.mv, Val.pyEq, Val.num?]
  | .none, b => by cases b <;> simp [Val.mv, Val.pyEq]
  | .str _, b => by cases b <;> simp [Val.mv, Val.pyEq]
  | .const _, b => by cases b <;> simp [Val.mv, Val.pyEq]
  | .ext _ _, b => by cases b <;> simp [Val.mv, Val.pyEq]
  | .func _, b => by cases b <;> simp [Val.mv, Val.pyEq]
  | .obj _, b => by cases b <;> simp [Val.mv, Val.pyEq]
theorem pyEqList_mv (hg : ∀ i j, g i = g j → i = j) : ∀ xs ys : List Val,
    Val.pyEqList (Val.mvList g xs) (Val.mvList g ys) = Val.pyEqList xs ys
  | [], [] => rfl
  | [], _ :: _ => by simp [Val.mvList, Val.pyEqList]
  | _ :: _, [] => by simp [Val.mvList, Val.pyEqList]
  | x :: xs, y :: ys => by simp only [Val.mvList, Val.pyEqList, pyEq_mv hg x y, pyEqList_mv hg xs ys]
theorem pyEqDict_mv (hg : ∀ i j, g i = g j → i = j) : ∀ xs ys : List (Val × Val),
    Val.pyEqDict (Val.mvDict g xs) (Val.mvDict g ys) = Val.pyEqDict xs ys
  | [], _ => by simp [Val.mvDict, Val.pyEqDict]
  | (k, v) :: xs, ys => by
    simp only [Val.mvDict, Val.pyEqDict, pyEqDict_mv hg xs ys]
    congr 1
    rw [mvDict_eq, List.any_map]
    congr 1
    funext p
    simp only [Function.comp, pyEq_mv hg k, pyEq_mv hg v]
end

section
variable (hg : ∀ i j, g i = g j → i = j)
include hg

theorem pyEq_mv_free (v : Val) {c : Val} (hc : Free c) : (v.mv g).pyEq c = v.pyEq c := by
  have := pyEq_mv hg v c
  rwa [mv_free hc] at this

theorem free_pyEq_mv (v : Val) {c : Val} (hc : Free c) : c.pyEq (v.mv g) = c.pyEq v := by
  have := pyEq_mv hg c v
  rwa [mv_free hc] at this

theorem inList_mv (v : Val) {cs : List Val} (hc : ∀ c ∈ cs, Free c) : (v.mv g).inList cs = v.inList cs := by
  unfold Val.inList
  induction cs with
  | nil => rfl
  | cons c cs ih =>
    simp only [List.any_cons]
    rw [pyEq_mv_free hg v (hc c (by simp)), ih fun x hx => hc x (by simp [hx])]

theorem dictSet_mv (d : List (Val × Val)) (k v : Val) :
    dictSet (Val.mvDict g d) (k.mv g) (v.mv g) = Val.mvDict g (dictSet d k v) := by
  induction d with
  | nil => rfl
  | cons x d ih =>
    obtain ⟨k', v'⟩ := x
    simp only [Val.mvDict, dictSet, pyEq_mv hg k k']
    split
    · rfl
    · rw [ih]; rfl

theorem dictSet_mv' (d : List (Val × Val)) {k : Val} (hk : Free k) (v : Val) :
    dictSet (Val.mvDict g d) k (v.mv g) = Val.mvDict g (dictSet d k v) := by
  have := dictSet_mv hg d k v
  rwa [mv_free hk] at this

theorem dictDel_mv (d : List (Val × Val)) {k : Val} (hk : Free k) :
    dictDel (Val.mvDict g d) k = Val.mvDict g (dictDel d k) := by
  unfold dictDel
  rw [mvDict_eq, mvDict_eq, List.filter_map]
  congr 1
  refine List.filter_congr fun p _ => ?_
  simp only [Function.comp]
  rw [free_pyEq_mv hg p.1 hk]

theorem dictHas_mv (d : List (Val × Val)) {k : Val} (hk : Free k) : dictHas (Val.mvDict g d) k = dictHas d k := by
  unfold dictHas
  rw [mvDict_eq, List.any_map]
  congr 1
  funext p
  exact free_pyEq_mv hg p.1 hk

theorem dictGet_mv (d : List (Val × Val)) {k : Val} (hk : Free k) :
    dictGet? (Val.mvDict g d) k = (dictGet? d k).map (Val.mv g) := by
  unfold dictGet?
  rw [mvDict_eq]
  induction d with
  | nil => rfl
  | cons x d ih =>
    simp only [List.map_cons, List.find?_cons]
    rw [free_pyEq_mv hg x.1 hk]
    cases k.pyEq x.1 with
    | true => rfl
    | false => exact ih

theorem dictUpdate_mv (d kvs : List (Val × Val)) :
    dictUpdate (Val.mvDict g d) (Val.mvDict g kvs) = Val.mvDict g (dictUpdate d kvs) := by
  unfold dictUpdate
  induction kvs generalizing d with
  | nil => rfl
  | cons x kvs ih =>
    obtain ⟨k, v⟩ := x
    simp only [Val.mvDict, List.foldl_cons]
    rw [dictSet_mv hg, ih]

end

theorem isIgnore_mv (v : Val) : (v.mv g).isIgnore = v.isIgnore := by cases v <;> rfl
theorem isNONE_mv (v : Val) : (v.mv g).isNONE = v.isNONE := by cases v <;> rfl
theorem isNull_mv (v : Val) : (v.mv g).isNull = v.isNull := by cases v <;> rfl
theorem pyLen_mv (v : Val) : pyLen (v.mv g) = pyLen v := by
  cases v <;> simp [Val.mv, pyLen, mvList_eq, mvDict_eq]

mutual
theorem hashable_mv : ∀ v : Val, (v.mv g).hashable = v.hashable
  | .tuple xs => by simpa [Val.mv, Val.hashable] using hashableList_mv xs
  | .list _ => by simp [Val.mv, Val.hashable]
  | .dict _ => by simp [Val.mv, Val.hashable]
  | .form _ => by simp [Val.mv, Val.hashable]
  | .none => rfl
  | .bool _ => rfl
  | .int _ => rfl
  | .float _ => rfl
  | .decimal _ => rfl
  | .str _ => rfl
  | .const _ => rfl
  | .ext _ _ => rfl
  | .func _ => rfl
  | .obj _ => rfl
theorem hashableList_mv : ∀ xs : List Val, Val.hashableList (Val.mvList g xs) = Val.hashableList xs
  | [] => rfl
  | x :: xs => by simp only [Val.mvList, Val.hashableList, hashable_mv x, hashableList_mv xs]
end

/-! ### The two runs -/

/-- Which form of the second run a form of the first run is: forms from `base` on are new. -/
structure Ren where
  base : Nat
  off : Nat
  g : Nat → Nat
  inj : ∀ i j, g i = g j → i = j
  new : ∀ i, base ≤ i → g i = i + off
  old : ∀ i, i < base → g i < base + off

/-- The forms of the two runs: the new ones are the same but for their identities. -/
structure Forms (R : Ren) (fs gs : List FormObj) : Prop where
  len : gs.length = fs.length + R.off
  base : R.base ≤ fs.length
  new : ∀ i : Nat, R.base ≤ i → gs[i + R.off]? = (fs[i]?).map (FormObj.mv R.g)

end Move

/-- Sources in which there are no forms. -/
structure Inert {P : Type} (I : PathOps P) where
  Q : P → Prop
  append : ∀ {p k q}, Q p → I.append p k = .ok q → Q q
  pop : ∀ {p q}, Q p → I.pop p = .ok q → Q q
  value : ∀ {p}, Q p → Q (I.value p).2
  exists_ : ∀ {p}, Q p → Q (I.exists_ p).2
  isNull : ∀ {p}, Q p → Q (I.isNull p).2
  mapping : ∀ {p}, Q p → Q (I.mapping p).2
  sequence : ∀ {p}, Q p → Q (I.sequence p).2
  primitive : ∀ {p ty}, Q p → Q (I.primitive ty p).2
  value_free : ∀ {p v}, Q p → (I.value p).1 = .ok v → Free v
  primitive_free : ∀ {p ty v}, Q p → (I.primitive ty p).1 = .ok v → Free v
  keys_free : ∀ {p kv}, Q p → (I.mapping p).1 = .ok (some kv) → ∀ k ∈ kv.ks, Free k
  join : ∀ {p q}, Q p → I.joinPath p = some (.ok q) → Q q
  empty : Q (I.native (.dict []) none)
  again : ∀ {p v}, Q p → (I.value p).1 = .ok v → Q (I.native v none)
  positional : ∀ {p v al}, Q p → (I.value p).1 = .ok v → Keyable al → Q (I.native v (some al))
  pin : ∀ {p}, Q p → ∃ Z : Pin I, Z.O 0 p

namespace Move
variable {P : Type} {I : PathOps P} {L : Lib} {C : Classes} {α β α' β' : Type}

/-- The parent in the second run. -/
def mvParent (g : Nat → Nat) : Parent → Parent
  | .form i => .form (g i)
  | .field => .field

theorem parent_mv (g : Nat → Nat) (o : FormObj) :
    (o.mv g).parent = o.parent.map fun p => p.map (mvParent g) := by
  unfold FormObj.mv
  dsimp only
  congr 1
  funext p
  congr 1
  funext p
  cases p <;> rfl

/-- The same bindings. -/
structure EnvRel (R : Ren) (a b : Env) : Prop where
  src : b.src = a.src
  form : b.form = a.form.map R.g
  parent : b.parent = a.parent.map (mvParent R.g)
  field : b.field = a.field
  tags : b.tags = a.tags
  ignoreDefault : b.ignoreDefault = a.ignoreDefault
  ignoreMissing : b.ignoreMissing = a.ignoreMissing
  inForm : a.form.isSome = true

/-- States at the same path that collect errors. -/
structure Rel (S : Inert I) (R : Ren) (Z : Pin I) (d : Nat) (τ σ : TSt P) : Prop where
  path : ∃ r r' p, τ.path = some (some (r, p)) ∧ σ.path = some (some (r', p)) ∧ S.Q p ∧ Z.O d p
  errs : ∃ a b, τ.errs = some ⟨false, a⟩ ∧ σ.errs = some ⟨false, b⟩
  forms : Forms R τ.forms σ.forms

/-- The errors collected. -/
def items (τ : TSt P) : List Err := τ.errs.elim [] ErrBuf.items

/-- Errors but for the identities of path objects. -/
def Errs (a b : List Err) : Prop := a.map Twin.bareErr = b.map Twin.bareErr

/-- Matching results. -/
def Res (ra : α → β → Prop) : Except Exc α → Except Exc β → Prop
  | .ok a, .ok b => ra a b
  | .error x, .error y => Twin.bare x = Twin.bare y
  | _, _ => False

/-- Matching outcomes, and the same errors added. -/
structure Post (S : Inert I) (R : Ren) (Z : Pin I) (d : Nat) (ra : α → β → Prop) (τ σ : TSt P) (a : Except Exc α × TSt P)
    (b : Except Exc β × TSt P) : Prop where
  res : Res ra a.1 b.1
  rel : Rel S R Z d a.2 b.2
  grew : ∃ es es', Errs es es' ∧ items a.2 = items τ ++ es ∧ items b.2 = items σ ++ es'

/-- The two computations match. -/
def Run (S : Inert I) (R : Ren) (ra : α → β → Prop) (t : T P α) (u : T P β) : Prop :=
  ∀ (Z : Pin I) d env env' τ σ, EnvRel R env env' → Rel S R Z d τ σ → Post S R Z d ra τ σ (t env τ) (u env' σ)

variable {S : Inert I} {R : Ren} {Z : Pin I} {d : Nat} {ra : α → β → Prop} {rb : α' → β' → Prop}

theorem Post.still {τ σ : TSt P} (h : Rel S R Z d τ σ) {r : Except Exc α} {r' : Except Exc β} (hr : Res ra r r') :
    Post S R Z d ra τ σ (r, τ) (r', σ) := ⟨hr, h, [], [], rfl, by simp, by simp⟩

theorem Errs.append {a b a' b' : List Err} (h : Errs a b) (h' : Errs a' b') : Errs (a ++ a') (b ++ b') := by
  unfold Errs at *
  rw [List.map_append, List.map_append, h, h']

theorem Errs.isEmpty {a b : List Err} (h : Errs a b) : b.isEmpty = a.isEmpty := by
  unfold Errs at h
  cases a <;> cases b <;> simp_all

theorem Post.trans {τ σ τ' σ' : TSt P} {a : Except Exc α × TSt P} {b : Except Exc β × TSt P}
    (hg : ∃ es es', Errs es es' ∧ items τ' = items τ ++ es ∧ items σ' = items σ ++ es')
    (h : Post S R Z d ra τ' σ' a b) : Post S R Z d ra τ σ a b := by
  obtain ⟨es, es', h0, h1, h2⟩ := hg
  obtain ⟨fs, fs', h0', h3, h4⟩ := h.grew
  exact ⟨h.res, h.rel, es ++ fs, es' ++ fs', h0.append h0', by rw [h3, h1, List.append_assoc], by rw [h4, h2, List.append_assoc]⟩

theorem Run.pure {a : α} {b : β} (h : ra a b) : Run S R ra (T.pure a : T P α) (T.pure b) :=
  fun _ _ _ _ _ _ _ hr => .still hr h
theorem Run.raise {e e' : Exc} (h : Twin.bare e = Twin.bare e') : Run S R ra (T.raise e : T P α) (T.raise e' : T P β) :=
  fun _ _ _ _ _ _ _ hr => .still hr h
theorem Run.raise' (e : Exc) : Run S R ra (T.raise e : T P α) (T.raise e : T P β) := .raise rfl

theorem Run.bind {t : T P α} {u : T P β} {f : α → T P α'} {f' : β → T P β'} (ht : Run S R ra t u)
    (hf : ∀ a b, ra a b → Run S R rb (f a) (f' b)) : Run S R rb (t >>= f) (u >>= f') := by
  intro Z d env env' τ σ he h
  have h1 := ht Z d env env' τ σ he h
  rcases e1 : t env τ with ⟨r, τ'⟩
  rcases e2 : u env' σ with ⟨r', σ'⟩
  rw [e1, e2] at h1
  have hr := h1.res
  cases r with
  | error e =>
    cases r' with
    | ok _ => exact hr.elim
    | error e' => rw [T.bind_error e1, T.bind_error e2]; exact ⟨hr, h1.rel, h1.grew⟩
  | ok a =>
    cases r' with
    | error _ => exact hr.elim
    | ok b =>
      rw [T.bind_ok e1, T.bind_ok e2]
      exact .trans h1.grew (hf a b hr Z d env env' τ' σ' he h1.rel)

theorem Run.bindEq {t u : T P α} {f : α → T P α'} {f' : α → T P β'} (ht : Run S R Eq t u)
    (hf : ∀ a, Run S R rb (f a) (f' a)) : Run S R rb (t >>= f) (u >>= f') :=
  .bind ht (by rintro a b rfl; exact hf a)

theorem Run.ite {c c' : Prop} [Decidable c] [Decidable c'] {t u : T P α} {t' u' : T P β} (hc : c ↔ c')
    (ht : c → Run S R ra t t') (hu : ¬c → Run S R ra u u') :
    Run S R ra (if c then t else u) (if c' then t' else u') := by
  by_cases h : c
  · rw [if_pos h, if_pos (hc.1 h)]; exact ht h
  · rw [if_neg h, if_neg fun h' => h (hc.2 h')]; exact hu h

theorem Run.mono {rc : α → β → Prop} {t : T P α} {u : T P β} (h : Run S R ra t u) (hi : ∀ a b, ra a b → rc a b) :
    Run S R rc t u := by
  intro Z d env env' τ σ he hr
  have h1 := h Z d env env' τ σ he hr
  refine ⟨?_, h1.rel, h1.grew⟩
  have h2 := h1.res
  cases hx : (t env τ).1 <;> cases hy : (u env' σ).1 <;> rw [hx, hy] at h2
  · exact h2
  · exact h2.elim
  · exact h2.elim
  · exact hi _ _ h2

theorem Run.tryCatch {t : T P α} {u : T P β} {f : Exc → T P α} {f' : Exc → T P β} (ht : Run S R ra t u)
    (hf : ∀ e e', Twin.bare e = Twin.bare e' → Run S R ra (f e) (f' e')) :
    Run S R ra (T.tryCatch t f) (T.tryCatch u f') := by
  intro Z d env env' τ σ he h
  have h1 := ht Z d env env' τ σ he h
  unfold T.tryCatch
  rcases e1 : t env τ with ⟨r, τ'⟩
  rcases e2 : u env' σ with ⟨r', σ'⟩
  rw [e1, e2] at h1
  have hr := h1.res
  cases r with
  | error e =>
    cases r' with
    | ok _ => exact hr.elim
    | error e' => exact .trans h1.grew (hf e e' hr Z d env env' τ' σ' he h1.rel)
  | ok a =>
    cases r' with
    | error _ => exact hr.elim
    | ok b => exact h1

theorem Run.ofExcept (r : Except Exc α) : Run S R Eq (T.ofExcept r : T P α) (T.ofExcept r) := by
  intro Z d env env' τ σ he h
  refine .still h ?_
  cases r <;> exact rfl

theorem Run.ctxGet {proj : Env → Option α} (hp : ∀ env env', EnvRel R env env' → proj env' = proj env) (n : String) :
    Run S R Eq (T.ctxGet proj n : T P α) (T.ctxGet proj n) := by
  intro Z d env env' τ σ he h
  unfold T.ctxGet
  rw [hp env env' he]
  cases proj env <;> exact .still h rfl

theorem Run.ctxGet? {proj : Env → Option α} {ra : Option α → Option α → Prop}
    (hp : ∀ env env', EnvRel R env env' → ra (proj env) (proj env')) :
    Run S R ra (T.ctxGet? proj : T P _) (T.ctxGet? proj) := by
  intro Z d env env' τ σ he h
  exact .still h (hp env env' he)

/-- Reading at the path. -/
theorem Run.onPath {f : P → Except Exc α × P} {ra : α → α → Prop} (hq : ∀ p, S.Q p → S.Q (f p).2)
    (hO : ∀ (Z : Pin I) d p, Z.O d p → Z.O d (f p).2) (hv : ∀ p a, S.Q p → (f p).1 = .ok a → ra a a) :
    Run S R ra (T.onPath f) (T.onPath f) := by
  intro Z d env env' τ σ he h
  obtain ⟨r, r', p, h1, h2, h3, h4⟩ := h.path
  unfold T.onPath
  rw [h1, h2]
  refine ⟨?_, ⟨⟨r, r', _, rfl, rfl, hq p h3, hO Z d p h4⟩, h.errs, h.forms⟩, [], [], rfl, by simp [items], by simp [items]⟩
  dsimp only
  cases hx : (f p).1 with
  | error e => exact rfl
  | ok a => exact hv p a h3 hx

theorem Run.withKey (k : Val) {t : T P α} {u : T P β} (ht : Run S R ra t u) :
    Run S R ra (T.withKey I k t) (T.withKey I k u) := by
  intro Z d env env' τ σ he h
  obtain ⟨r, r', p, h1, h2, h3, h4⟩ := h.path
  unfold T.withKey
  cases ha : I.append p k with
  | error e =>
    have e1 : T.onPath (pathAppend I k) env τ = (.error e, τ) := by
      unfold T.onPath; rw [h1]; simp only [pathAppend, ha]; rw [← h1]
    have e2 : T.onPath (pathAppend I k) env' σ = (.error e, σ) := by
      unfold T.onPath; rw [h2]; simp only [pathAppend, ha]; rw [← h2]
    rw [e1, e2]
    exact .still h rfl
  | ok p1 =>
    have e1 : T.onPath (pathAppend I k) env τ = (.ok (), { τ with path := some (some (r, p1)) }) := by
      unfold T.onPath; rw [h1]; simp only [pathAppend, ha]
    have e2 : T.onPath (pathAppend I k) env' σ = (.ok (), { σ with path := some (some (r', p1)) }) := by
      unfold T.onPath; rw [h2]; simp only [pathAppend, ha]
    rw [e1, e2]
    dsimp only
    have h5 := ht Z (d + 1) { env with src := some (!k.isNull) } { env' with src := some (!k.isNull) }
      { τ with path := some (some (r, p1)) } { σ with path := some (some (r', p1)) }
      ⟨rfl, he.form, he.parent, he.field, he.tags, he.ignoreDefault, he.ignoreMissing, he.inForm⟩
      ⟨⟨r, r', p1, rfl, rfl, S.append h3 ha, Z.append h4 ha⟩, h.errs, h.forms⟩
    rcases e3 : t { env with src := some (!k.isNull) } { τ with path := some (some (r, p1)) } with ⟨r3, τ3⟩
    rcases e4 : u { env' with src := some (!k.isNull) } { σ with path := some (some (r', p1)) } with ⟨r4, σ4⟩
    rw [e3, e4] at h5
    obtain ⟨q, q', p3, h6, h7, h8, h9⟩ := h5.rel.path
    obtain ⟨p4, h10, h11⟩ := Z.pop h9
    dsimp only at h6 h7
    have e5 : T.onPath (pathPop I) env τ3 = (.ok (), { τ3 with path := some (some (q, p4)) }) := by
      unfold T.onPath; rw [h6]; simp only [pathPop, h10]
    have e6 : T.onPath (pathPop I) env' σ4 = (.ok (), { σ4 with path := some (some (q', p4)) }) := by
      unfold T.onPath; rw [h7]; simp only [pathPop, h10]
    dsimp only
    rw [e5, e6]
    exact ⟨h5.res, ⟨⟨q, q', p4, rfl, rfl, S.pop h8 h10, h11⟩, h5.rel.errs, h5.rel.forms⟩, h5.grew⟩

theorem Run.withEnv {w w' : Env → Env} (hw : ∀ env env', EnvRel R env env' → EnvRel R (w env) (w' env')) {t : T P α} {u : T P β}
    (ht : Run S R ra t u) : Run S R ra (T.withEnv w t) (T.withEnv w' u) :=
  fun Z d env env' τ σ he h => ht Z d (w env) (w' env') τ σ (hw env env' he) h

theorem Run.withSource {mk : Except Exc P} (hm : ∀ p, mk = .ok p → S.Q p) {t : T P α} {u : T P β}
    (ht : Run S R ra t u) : Run S R ra (T.withSource mk t) (T.withSource mk u) := by
  intro Z d env env' τ σ he h
  unfold T.withSource
  cases mk with
  | error e => exact .still h rfl
  | ok p =>
    obtain ⟨Z', hZ⟩ := S.pin (hm p rfl)
    have h1 := ht Z' 0 { env with src := some true } { env' with src := some true }
      { τ with path := some (some (τ.npaths, p)), npaths := τ.npaths + 1 }
      { σ with path := some (some (σ.npaths, p)), npaths := σ.npaths + 1 }
      ⟨rfl, he.form, he.parent, he.field, he.tags, he.ignoreDefault, he.ignoreMissing, he.inForm⟩
      ⟨⟨_, _, p, rfl, rfl, hm p rfl, hZ⟩, h.errs, h.forms⟩
    exact ⟨h1.res, ⟨h.path, h1.rel.errs, h1.rel.forms⟩, h1.grew⟩

theorem Run.withErrs {t : T P α} {u : T P β} (ht : Run S R ra t u) :
    Run S R (fun x y => ra x.1 y.1 ∧ Errs x.2 y.2) (T.withErrs false t) (T.withErrs false u) := by
  intro Z d env env' τ σ he h
  unfold T.withErrs
  have h1 := ht Z d env env' { τ with errs := some { raising := false, items := [] } }
    { σ with errs := some { raising := false, items := [] } } he ⟨h.path, ⟨[], [], rfl, rfl⟩, h.forms⟩
  rcases e1 : t env { τ with errs := some { raising := false, items := [] } } with ⟨r, τ'⟩
  rcases e2 : u env' { σ with errs := some { raising := false, items := [] } } with ⟨r', σ'⟩
  rw [e1, e2] at h1
  have hr := h1.res
  obtain ⟨es, es', h2, h3, h4⟩ := h1.grew
  have h5 : items τ' = es := by simpa [items] using h3
  have h6 : items σ' = es' := by simpa [items] using h4
  cases r with
  | error e =>
    cases r' with
    | ok _ => exact hr.elim
    | error e' => exact ⟨hr, ⟨h1.rel.path, h.errs, h1.rel.forms⟩, [], [], rfl, by simp [items], by simp [items]⟩
  | ok a =>
    cases r' with
    | error _ => exact hr.elim
    | ok b =>
      refine ⟨⟨hr, ?_⟩, ⟨h1.rel.path, h.errs, h1.rel.forms⟩, [], [], rfl, by simp [items], by simp [items]⟩
      show Errs (items τ') (items σ')
      rw [h5, h6]; exact h2

theorem Run.extend {es es' : List Err} (he : Errs es es') : Run S R Eq (T.extend es : T P Unit) (T.extend es') := by
  intro Z d env env' τ σ _ h
  obtain ⟨a, b, h1, h2⟩ := h.errs
  unfold T.extend
  rw [h1, h2]
  exact ⟨rfl, ⟨h.path, ⟨_, _, rfl, rfl⟩, h.forms⟩, es, es', he, by simp [items, h1], by simp [items, h2]⟩

theorem Run.report (k : ErrKind) : Run S R Eq (T.report I k) (T.report I k) := by
  intro Z d env env' τ σ he h
  obtain ⟨a, b, h1, h2⟩ := h.errs
  obtain ⟨r, r', p, h3, h4, h5, h6⟩ := h.path
  have e1 : ∀ (env : Env) {τ : TSt P} {a : List Err}, τ.errs = some ⟨false, a⟩ →
      T.errsBound env τ = (.ok (), τ) := by intro env τ a h; unfold T.errsBound; rw [h]
  unfold T.report
  rw [T.bind_ok (e1 env h1), T.bind_ok (e1 env' h2)]
  cases hf : env.field with
  | none =>
    have e2 : ∀ (env : Env) (τ : TSt P), env.field = none →
        T.ctxGet Env.field "field" env τ = (.error (noCtxAttr "field"), τ) := by
      intro env τ h; unfold T.ctxGet; rw [h]
    rw [T.bind_error (e2 env τ hf), T.bind_error (e2 env' σ (he.field.trans hf))]
    exact .still h rfl
  | some fld =>
    have e2 : ∀ (env : Env) (τ : TSt P), env.field = some fld → T.ctxGet Env.field "field" env τ = (.ok fld, τ) := by
      intro env τ h; unfold T.ctxGet; rw [h]
    rw [T.bind_ok (e2 env τ hf), T.bind_ok (e2 env' σ (he.field.trans hf))]
    cases hr : I.render p with
    | error e =>
      have e3 : ∀ (env : Env) (τ : TSt P) (r : Nat), τ.path = some (some (r, p)) →
          T.pathText I env τ = (.error e, τ) := by
        intro env τ r h; unfold T.pathText; rw [h]; simp only [hr]
      rw [T.bind_error (e3 env τ r h3), T.bind_error (e3 env' σ r' h4)]
      exact .still h rfl
    | ok x =>
      have e3 : ∀ (env : Env) (τ : TSt P) (r : Nat), τ.path = some (some (r, p)) →
          T.pathText I env τ = (.ok (x, some r), τ) := by
        intro env τ r h; unfold T.pathText; rw [h]; simp only [hr]
      rw [T.bind_ok (e3 env τ r h3), T.bind_ok (e3 env' σ r' h4)]
      dsimp only
      unfold T.record
      rw [h1, h2]
      exact ⟨rfl, ⟨h.path, ⟨_, _, rfl, rfl⟩, h.forms⟩, [⟨k, x, fld, some r⟩], [⟨k, x, fld, some r'⟩], rfl,
        by simp [items, h1], by simp [items, h2]⟩

/-! ### Forms -/

theorem Forms.get {fs gs : List FormObj} (h : Forms R fs gs) {i : Nat} (hi : R.base ≤ i) :
    gs[R.g i]? = (fs[i]?).map (FormObj.mv R.g) := by
  rw [R.new i hi]; exact h.new i hi

theorem Forms.modify {fs gs : List FormObj} (h : Forms R fs gs) (id : Nat) {m m' : FormObj → FormObj}
    (hm : R.base ≤ id → ∀ o : FormObj, (m o).mv R.g = m' (o.mv R.g)) :
    Forms R (fs.modify id m) (gs.modify (R.g id) m') where
  len := by simp [h.len]
  base := by simpa using h.base
  new i hi := by
    rw [List.getElem?_modify, List.getElem?_modify, h.new i hi]
    by_cases hid : R.base ≤ id
    · rw [R.new id hid]
      by_cases e : id = i
      · subst e
        simp only [if_true]
        cases fs[id]? with
        | none => rfl
        | some o => exact congrArg some (hm hid o).symm
      · cases fs[i]? with
        | none => rfl
        | some o =>
          show some (if id + R.off = i + R.off then _ else _) = some (FormObj.mv R.g (if id = i then _ else _))
          rw [if_neg e, if_neg (by omega)]
    · have := R.old id (by omega)
      cases fs[i]? with
      | none => rfl
      | some o =>
        show some (if R.g id = i + R.off then _ else _) = some (FormObj.mv R.g (if id = i then _ else _))
        rw [if_neg (by omega), if_neg (by omega)]

theorem Forms.push {fs gs : List FormObj} (h : Forms R fs gs) {o o' : FormObj} (ho : o.mv R.g = o') :
    Forms R (fs ++ [o]) (gs ++ [o']) where
  len := by have := h.len; simp; omega
  base := by have := h.base; simp; omega
  new i hi := by
    have hl := h.len
    by_cases hi' : i < fs.length
    · rw [List.getElem?_append_left (by omega), List.getElem?_append_left hi']
      exact h.new i hi
    · rw [List.getElem?_append_right (by omega), List.getElem?_append_right (by omega)]
      have : i + R.off - gs.length = i - fs.length := by omega
      rw [this]
      cases hj : i - fs.length with
      | zero => exact congrArg some ho.symm
      | succ j => rfl

/-- The items, at a new form. -/
theorem Run.formItems {id : Nat} (hid : R.base ≤ id) :
    Run S R (fun a b => b = Val.mvDict R.g a) (T.formItems id : T P _) (T.formItems (R.g id)) := by
  intro Z d env env' τ σ he h
  unfold T.formItems
  rw [h.forms.get hid]
  refine .still h ?_
  cases τ.forms[id]? with
  | none => exact rfl
  | some o => exact rfl

theorem Run.formCls {id : Nat} (hid : R.base ≤ id) : Run S R Eq (T.formCls id : T P _) (T.formCls (R.g id)) := by
  intro Z d env env' τ σ he h
  unfold T.formCls
  rw [h.forms.get hid]
  cases τ.forms[id]? with
  | none => exact .still h rfl
  | some o => exact .still h rfl

theorem Run.formModify (id : Nat) {m m' : List (Val × Val) → List (Val × Val)}
    (hm : ∀ l, Val.mvDict R.g (m l) = m' (Val.mvDict R.g l)) :
    Run S R Eq (T.formModify id m : T P Unit) (T.formModify (R.g id) m') := by
  intro Z d env env' τ σ he h
  refine ⟨rfl, ⟨h.path, h.errs, h.forms.modify id fun _ o => ?_⟩, [], [], rfl, by simp [items, T.formModify], by simp [items, T.formModify]⟩
  unfold FormObj.mv
  dsimp only
  rw [hm]

theorem Run.formParent (id : Nat) (par : Option Parent) :
    Run S R Eq (T.formParent id par : T P Unit) (T.formParent (R.g id) (par.map (mvParent R.g))) := by
  intro Z d env env' τ σ he h
  refine ⟨rfl, ⟨h.path, h.errs, h.forms.modify id fun _ o => ?_⟩, [], [], rfl, by simp [items, T.formParent], by simp [items, T.formParent]⟩
  have h1 := parent_mv R.g { o with parent := some par }
  cases hx : FormObj.mv R.g { o with parent := some par } with
  | mk c i q =>
    rw [hx] at h1
    dsimp only at h1
    have h2 := congrArg FormObj.cls hx
    have h3 := congrArg FormObj.items hx
    dsimp only at h2 h3
    rw [h1, ← h2, ← h3]
    rfl

theorem Run.newForm (cls : Nat) {f : Nat → T P α} {f' : Nat → T P β}
    (hf : ∀ id, R.base ≤ id → Run S R ra (f id) (f' (R.g id))) :
    Run S R ra (T.newForm cls >>= f) (T.newForm cls >>= f') := by
  intro Z d env env' τ σ he h
  have e : ∀ {γ : Type} (f : Nat → T P γ) (env : Env) (τ : TSt P), (T.newForm cls >>= f) env τ =
      f τ.forms.length env { τ with forms := τ.forms ++ [{ cls := cls, items := [] }] } := fun _ _ _ => rfl
  rw [e, e]
  have h1 := hf τ.forms.length h.forms.base Z d env env' { τ with forms := τ.forms ++ [{ cls := cls, items := [] }] }
    { σ with forms := σ.forms ++ [{ cls := cls, items := [] }] } he ⟨h.path, h.errs, h.forms.push rfl⟩
  rw [R.new _ h.forms.base, ← h.forms.len] at h1
  exact ⟨h1.res, h1.rel, h1.grew⟩

end Move
end Pilo
