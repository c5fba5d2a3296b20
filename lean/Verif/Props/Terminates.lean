import Verif.Source.Height
import Verif.View

/-!
# C78: mapping finite data with a recursive schema terminates

`mapField n` follows `n` nested calls of `Field.map`.  `mapFieldOr e n` does the same and raises `e` where the budget is
used up.  When two budgets give the same for every choice of `e`, neither is ever used up.
-/

namespace Pilo

section
variable {P : Type} (I : PathOps P) (L : Lib) (C : Classes)

/-- `field.map(value)` where the call that exceeds the recursion budget raises `e`. -/
def mapFieldOr (e : Exc) : Nat → Rec P
  | 0 => fun _ _ => M.raise e
  | n + 1 => mapFieldF I L C (mapFieldOr e n)

/-- `mapField` raises `RecursionError` there. -/
theorem mapFieldOr_recursion (n : Nat) : mapFieldOr I L C .recursion n = mapField I L C n := by
  induction n with
  | zero => rfl
  | succ n ih => show mapFieldF I L C _ = mapFieldF I L C _; rw [ih]

/-- `form.map(...)` with a given way to map fields. -/
abbrev Form.mapOr (e : Exc) (n id : Nat) (src : SrcArg P) (tags : List String) (reset : Bool) (u : Unmapped)
    (raising : Bool) : M P Nat :=
  formMap I C (mapFieldOr I L C e n) id src tags reset u raising

/-- `cls(src)` (`pilo/fields.py:1556-1576`) where the call that exceeds the recursion budget raises `e`. -/
def Form.initOr (e : Exc) (n : Nat) (cls : Nat) (src : SrcArg P) : M P Nat := do
  let id ← newForm cls
  match src with
  | .none => M.pure id
  | src => do
    let r ← Form.mapOr I L C e n id (initSrc I src) [] false (.str .ignore) false
    let es ← errItems r
    if es.isEmpty then M.pure id else M.raise (.formError es)

theorem Form.initOr_recursion (n cls : Nat) (src : SrcArg P) :
    Form.initOr I L C .recursion n cls src = Form.init I L C n cls src := by
  unfold Form.initOr Form.init Form.mapOr Form.map
  rw [mapFieldOr_recursion]
  rfl

end

section
variable {P : Type} {I : PathOps P} {L : Lib} {C : Classes} {α : Type}

theorem Ref.mapFieldOr (hC : C.All LexNode) (e : Exc) (n : Nat) :
    RecRef (mapFieldOr I L C e n) (Lex.mapFieldOr I L C e n) := by
  induction n with
  | zero => intro f v _; exact Ref.raise _
  | succ n ih => exact Ref.mapFieldF hC ih

/-- Two runs with the same outcome: the same result or exception, the same errors recorded, the same forms, the same
place in the source, the same context. -/
structure SameRun (a b : Except Exc α × St P) : Prop where
  res : a.1 = b.1
  errs : curErrs a.2 = curErrs b.2
  forms : a.2.forms = b.2.forms
  path : curPathObj a.2 = curPathObj b.2
  stack : a.2.stack = b.2.stack

theorem Ref.same {m m' : M P α} {t t' : T P α} (h : Ref m t) (h' : Ref m' t') {s : St P} (hs : Live s)
    (he : t s.env s.view = t' s.env s.view) : SameRun (m s) (m' s) := by
  obtain ⟨a1, a2, a3, a4, a5⟩ := h.run hs
  obtain ⟨b1, b2, b3, b4, b5⟩ := h'.run hs
  rw [he] at a1 a2 a3 a4
  exact ⟨a1.trans b1.symm, a2.trans b2.symm, a3.trans b3.symm, a4.trans b4.symm, a5.trans b5.symm⟩

/-! ## A check of the schema -/

/-- At most `d` fields, `f` included, are mapped one inside the other before a name is followed: a test. -/
def depthB (C : Classes) (N : Val → Bool) : Nat → Field → Bool
  | 0, _ => false
  | d + 1, f =>
    let near (g : Field) : Bool := !g.flat N || depthB C N d g
    let rest (u : Unmapped) : Bool := match u with
      | .str .capture => depthB C N d (unmappedField 0 captureKeyField captureValueField)
      | .value vf => depthB C N d (unmappedField 0 captureKeyField vf)
      | .pair kf vf => depthB C N d (unmappedField 0 kf vf)
      | _ => true
    match f.kind with
    | .list g _ _ _ => near g
    | .tuple fs => fs.all near
    | .group fs => fs.all fun x => near x.2
    | .dict kf vf _ _ _ => near kf && near vf
    | .subform cls _ u => (C cls).fields.all near && rest u
    | .poly tf pc ts _ u =>
      near tf && (C pc).fields.all near && ts.all (fun t => (C t.2).fields.all near) && rest u
    | _ => true

theorem depthB_id {C : Classes} {N : Val → Bool} (d id : Nat) (kf vf : Field) :
    depthB C N d (unmappedField id kf vf) = depthB C N d (unmappedField 0 kf vf) := by
  cases d <;> rfl

theorem depthB_sound {C : Classes} {N : Val → Bool} : ∀ {d : Nat} {f : Field}, depthB C N d f = true → Depth C N d f := by
  intro d
  induction d with
  | zero => intro f h; cases h
  | succ d ih =>
    intro f h
    have near : ∀ {g : Field}, (!g.flat N || depthB C N d g) = true → g.flat N = true → Depth C N d g := by
      intro g h1 h2
      rw [h2] at h1
      exact ih (by simpa using h1)
    have rest : ∀ {u : Unmapped} {g : Field}, Collects u g →
        (match u with
          | .str .capture => depthB C N d (unmappedField 0 captureKeyField captureValueField)
          | .value vf => depthB C N d (unmappedField 0 captureKeyField vf)
          | .pair kf vf => depthB C N d (unmappedField 0 kf vf)
          | _ => true) = true → Depth C N d g := by
      intro u g hu h
      cases hu with
      | capture id => exact ih ((depthB_id d id _ _).trans h)
      | value id vf => exact ih ((depthB_id d id _ _).trans h)
      | pair id kf vf => exact ih ((depthB_id d id _ _).trans h)
    refine .mk fun g hg => ?_
    unfold depthB at h
    cases hg with
    | item hk hf => rw [hk] at h; exact near h hf
    | slot hk hm hf => rw [hk] at h; exact near (List.all_eq_true.1 h _ hm) hf
    | pick hk hm hf => rw [hk] at h; exact near (List.all_eq_true.1 h _ hm) hf
    | val hk hf =>
      rw [hk] at h
      simp only [Bool.and_eq_true] at h
      exact near h.2 hf
    | key hk hf =>
      rw [hk] at h
      simp only [Bool.and_eq_true] at h
      exact near h.1 hf
    | member hk hm hf =>
      rw [hk] at h
      simp only [Bool.and_eq_true] at h
      exact near (List.all_eq_true.1 h.1 _ hm) hf
    | rest hk hu =>
      rw [hk] at h
      simp only [Bool.and_eq_true] at h
      exact rest hu h.2
    | type hk hf =>
      rw [hk] at h
      simp only [Bool.and_eq_true] at h
      exact near h.1.1.1 hf
    | probe hk hm hf =>
      rw [hk] at h
      simp only [Bool.and_eq_true] at h
      exact near (List.all_eq_true.1 h.1.1.2 _ hm) hf
    | variant hk ht hm hf =>
      rw [hk] at h
      simp only [Bool.and_eq_true] at h
      exact near (List.all_eq_true.1 (List.all_eq_true.1 h.1.2 _ ht) _ hm) hf
    | variantRest hk hu =>
      rw [hk] at h
      simp only [Bool.and_eq_true] at h
      exact rest hu h.2

/-! ## Enough is enough -/

variable {W : LawfulPath I} {N : Val → Bool} {K z n m : Nat} {e e' : Exc}

theorem bounded_lex {f : Field} (h : f.All (Bounded C N K)) : f.All LexNode := h.imp fun _ h => h.free.lexNode
theorem classes_lex (h : C.All (Bounded C N K)) : C.All LexNode := h.imp fun _ h => h.free.lexNode

/-- No more than `z` can be read where the context is. -/
def Fitting (S : Sized W N) (z : Nat) (s : St P) : Prop :=
  ∀ r p, curPathObj s = some (some (r, p)) → W.WF p ∧ S.size p ≤ z

theorem Fitting.at {S : Sized W N} {s : St P} (h : Fitting S z s) : Sits S z none s.view :=
  ⟨fun r p hp => (h r p hp).1, fun r p hp => (h r p hp).2, by intro _ _ h; cases h⟩

theorem enough {K z n : Nat} (hz : 1 ≤ z) (hn : (z + 1) * K ≤ n) : (z - 1) * K + K + K ≤ n := by
  obtain ⟨y, rfl⟩ : ∃ y, z = y + 1 := ⟨z - 1, by omega⟩
  rw [Nat.add_mul, Nat.add_mul] at hn
  simp only [Nat.add_sub_cancel]
  omega

/-- **C78**: `Field.map`.  With a schema whose hooks are functions of the value and in which no more than `K` fields are mapped one inside the other
before a name is followed, at a place of size `z`, every budget of `(z + 1) * K` nested calls gives the same outcome,
whatever would happen if the budget were used up. -/
theorem C78_field (S : Sized W N) (hC : C.All (Bounded C N K)) {f : Field} (hf : f.All (Bounded C N K)) {s : St P}
    (hs : Live s) (hz : 1 ≤ z) (hp : Fitting S z s) (hn : (z + 1) * K ≤ n) (hm : (z + 1) * K ≤ m) :
    SameRun (mapFieldOr I L C e n f .NONE s) (mapFieldOr I L C e' m f .NONE s) := by
  have hl := bounded_lex hf
  refine Ref.same (Ref.mapFieldOr (classes_lex hC) e n f .NONE hl) (Ref.mapFieldOr (classes_lex hC) e' m f .NONE hl) hs ?_
  have hs : ∀ n, (z + 1) * K ≤ n → Suffices N K z K n f := by
    intro n hn
    have := enough hz hn
    unfold Suffices
    obtain ⟨y, rfl⟩ : ∃ y, z = y + 1 := ⟨z - 1, by omega⟩
    simp only [Nat.add_sub_cancel] at this ⊢
    split
    · rw [Nat.add_mul]; omega
    · omega
  exact (mapFieldOr_abreast (S := S) hC e e' n m z K f hz hf hf.node.depth (hs n hn) (hs m hm)).eq _ _ hp.at

/-- The field that maps a form of the class where the context is. -/
def holder (cls : Nat) (reset : Bool) (u : Unmapped) : Field := .mk { src := .none } (.subform cls reset u)

theorem formMap_abreast (S : Sized W N) (hC : C.All (Bounded C N K)) {cls id : Nat} {reset : Bool} {u : Unmapped}
    (hf : (holder cls reset u).All (Bounded C N K)) (hz : 1 ≤ z) {src : SrcArg P} (hsrc : SrcSize S z src)
    (tags : List String) (raising : Bool) (hn : (z + 1) * K ≤ n) (hm : (z + 1) * K ≤ m) :
    Abreast S z (some (id, cls)) (Lex.formMap I C (Lex.mapFieldOr I L C e n) id src tags reset u raising)
      (Lex.formMap I C (Lex.mapFieldOr I L C e' m) id src tags reset u raising) := by
  have hd := hf.node.depth
  have hK := hd.pos
  have h1 := enough hz hn
  have h2 := enough hz hm
  have hmul : z * K = (z - 1) * K + K := by
    obtain ⟨y, hy⟩ : ∃ y, z = y + 1 := ⟨z - 1, by omega⟩
    rw [hy]; simp [Nat.add_mul]
  have hle : (z - 1) * K ≤ z * K := Nat.mul_le_mul_right K (by omega)
  have hu : u.All (Bounded C N K) := by
    have := hf.kind
    cases this with
    | subform h => exact h
  have hc : Calls S C K z (Lex.mapFieldOr I L C e n) (Lex.mapFieldOr I L C e' m) (holder cls reset u) := by
    refine ⟨mapFieldOr_keeps (classes_free hC) e n, ?_, ?_, ?_⟩
    · intro g hg hfl
      refine mapFieldOr_abreast hC e e' n m z K g hz hg hg.node.depth ?_ ?_ <;>
      · unfold Suffices
        rw [hfl]
        simp only [Bool.false_eq_true, if_false]
        omega
    · intro g hg hi
      refine mapFieldOr_abreast hC e e' n m z (K - 1) g hz hg (hd.inline hi) ?_ ?_ <;>
      · unfold Suffices
        split <;> omega
    · intro g v hg hv
      obtain ⟨n, rfl⟩ : ∃ n', n = n' + 1 := ⟨n - 1, by omega⟩
      obtain ⟨m, rfl⟩ : ∃ m', m = m' + 1 := ⟨m - 1, by omega⟩
      exact Abreast.mapGiven hg.node.free hv
  exact .formMap hz hC hc hd (fun g hg hfl => .member rfl hg hfl) hsrc tags reset hu (fun g hg => .rest rfl hg) raising

/-- Two runs of `Form.map` with the same outcome: as `SameRun`, with the returned lists compared by content. -/
structure SameMap (a b : Except Exc Nat × St P) : Prop where
  res : match a.1, b.1 with
    | .ok x, .ok y => (a.2.errs[x]?).elim [] ErrBuf.items = (b.2.errs[y]?).elim [] ErrBuf.items
    | .error x, .error y => x = y
    | _, _ => False
  errs : curErrs a.2 = curErrs b.2
  forms : a.2.forms = b.2.forms
  path : curPathObj a.2 = curPathObj b.2
  stack : a.2.stack = b.2.stack

theorem RefE.same {m m' : M P Nat} {t t' : T P (List Err)} (h : RefE m t) (h' : RefE m' t') {s : St P} (hs : Live s)
    (he : t s.env s.view = t' s.env s.view) : SameMap (m s) (m' s) := by
  obtain ⟨a1, a2, a3⟩ := h _ _ _ hs.agree
  obtain ⟨b1, b2, b3⟩ := h' _ _ _ hs.agree
  rw [he] at a1 a2
  refine ⟨?_, a2.curErrs.trans b2.curErrs.symm, a2.forms.trans b2.forms.symm, a2.curPathObj.trans b2.curPathObj.symm,
    a3.stack.trans b3.stack.symm⟩
  generalize (t' s.env s.view).1 = x at a1 b1
  cases ha : (m s).1 <;> cases hb : (m' s).1 <;> cases x <;> rw [ha] at a1 <;> rw [hb] at b1 <;> dsimp only at a1 b1 ⊢
  all_goals first | exact a1.trans b1.symm | exact a1.elim | exact b1.elim

/-- **C78**: `Form.map`, as the outermost call or inside a field. -/
theorem C78_form (S : Sized W N) (hC : C.All (Bounded C N K)) {cls id : Nat} {reset : Bool} {u : Unmapped}
    (hf : (holder cls reset u).All (Bounded C N K)) {s : St P} (hs : Live s) {x : FormObj}
    (hx : s.forms[id]? = some x) (hcls : x.cls = cls) (hz : 1 ≤ z) (hp : Fitting S z s) {src : SrcArg P}
    (hsrc : SrcSize S z src) (tags : List String) (raising : Bool) (hn : (z + 1) * K ≤ n) (hm : (z + 1) * K ≤ m) :
    SameMap (Form.mapOr I L C e n id src tags reset u raising s) (Form.mapOr I L C e' m id src tags reset u raising s) := by
  have hu : u.All LexNode := by
    have := hf.kind
    cases this with
    | subform h => exact h.imp fun _ h => h.free.lexNode
  have hl := classes_lex hC
  refine RefE.same (RefE.formMap hl (Ref.mapFieldOr hl e n) id src tags reset hu raising)
    (RefE.formMap hl (Ref.mapFieldOr hl e' m) id src tags reset hu raising) hs ?_
  refine (formMap_abreast S hC hf hz hsrc tags raising hn hm).eq _ _ ⟨hp.at.wf, hp.at.size, ?_⟩
  intro id' cls' h
  cases h
  exact ⟨x, hx, hcls⟩

/-- `cls(src)`, lexically. -/
def Lex.initOr (I : PathOps P) (L : Lib) (C : Classes) (e : Exc) (n : Nat) (cls : Nat) (src : SrcArg P) : T P Nat := do
  let id ← T.newForm cls
  match src with
  | .none => T.pure id
  | src => do
    let es ← Lex.formMap I C (Lex.mapFieldOr I L C e n) id (initSrc I src) [] false (.str .ignore) false
    if es.isEmpty then T.pure id else T.raise (.formError es)

theorem Ref.initOr (hC : C.All LexNode) (e : Exc) (n : Nat) (cls : Nat) (src : SrcArg P) :
    Ref (Form.initOr I L C e n cls src) (Lex.initOr I L C e n cls src) := by
  unfold Form.initOr Lex.initOr
  refine Ref.bind (Ref.newForm cls) fun id => ?_
  have h := fun src => RefE.items (RefE.formMap (I := I) hC (Ref.mapFieldOr (I := I) (L := L) hC e n) id (initSrc I src) [] false
    (u := .str .ignore) .str false) (f := fun es => if es.isEmpty then M.pure id else M.raise (.formError es))
    (g := fun es => if es.isEmpty then T.pure id else T.raise (.formError es)) fun es =>
      Ref.ite (fun _ => Ref.pure _) fun _ => Ref.raise _
  cases src with
  | none => exact Ref.pure _
  | source mk => exact h _
  | data v => exact h _

/-- **C78**: `cls(src)`.  One more is needed for the form itself. -/
theorem C78_init (S : Sized W N) (hC : C.All (Bounded C N K)) (cls : Nat) {s : St P} (hs : Live s) (hz : 1 ≤ z)
    (hp : Fitting S z s) {src : SrcArg P} (hsrc : SrcSize S z (initSrc I src)) (hn : (z + 1) * (K + 1) ≤ n)
    (hm : (z + 1) * (K + 1) ≤ m) :
    SameRun (Form.initOr I L C e n cls src s) (Form.initOr I L C e' m cls src s) := by
  have hmono : ∀ f, Bounded C N K f → Bounded C N (K + 1) f := fun f h => ⟨h.free, h.depth.mono (by omega)⟩
  have hl := classes_lex hC
  refine Ref.same (Ref.initOr hl e n cls src) (Ref.initOr hl e' m cls src) hs ?_
  have hf : (holder cls false (.str .ignore)).All (Bounded C N (K + 1)) := by
    refine .mk ⟨(hookFree_plain (fun _ _ _ _ _ h => by cases h)).calm, .mk ?_⟩ (.subform .str)
    intro g hg
    cases hg with
    | member hk hm hf => cases hk; exact (hC _ _ hm).node.depth
    | rest hk hu => cases hk; cases hu
    | item hk => cases hk
    | slot hk => cases hk
    | pick hk => cases hk
    | val hk => cases hk
    | key hk => cases hk
    | type hk => cases hk
    | probe hk => cases hk
    | variant hk => cases hk
    | variantRest hk => cases hk
  have ha : Abreast S z none (Lex.initOr I L C e n cls src) (Lex.initOr I L C e' m cls src) := by
    unfold Lex.initOr
    refine .newForm fun id => ?_
    have go := fun hs => (formMap_abreast (L := L) (id := id) (n := n) (m := m) (e := e) (e' := e') (src := initSrc I src) S
      (fun c f hf => (hC c f hf).imp hmono) hf hz hs [] false hn hm)
    cases src with
    | none => exact .pure _
    | source mk => exact .bind (go hsrc) fun es => .ite (fun _ => .pure _) fun _ => .raise _
    | data v => exact .bind (go hsrc) fun es => .ite (fun _ => .pure _) fun _ => .raise _
  exact ha.eq _ _ hp.at

end

/-! ## The built-in sources -/

section
variable {L : Lib} {C : Classes} {N : String → Bool} {K z n m : Nat} {e e' : Exc}

/-- **C78**: constructing a form from data.  With heights of functions and objects under which the runtime gives nothing
higher (none are needed when the data has neither), data of height `z` is mapped with `(z + 1) * (K + 1)` nested calls. -/
theorem C78_data (H : Heights L N) (hC : C.All (Bounded C (named N) K)) (cls : Nat) {v : Val}
    (hz : v.height H.fn H.ob ≤ z) (hn : (z + 1) * (K + 1) ≤ n) (hm : (z + 1) * (K + 1) ≤ m) :
    SameRun (Form.initOr (Path.ops L) L C e n cls (.data v) St.init)
      (Form.initOr (Path.ops L) L C e' m cls (.data v) St.init) := by
  have h1 : 1 ≤ z := Nat.le_trans (Val.height_pos v) hz
  refine C78_init (Path.sized H.rank) hC cls Live.init h1 ?_ ?_ hn hm
  · intro r p hp
    cases hp
  · have hsz : ∀ v : Val, v.height H.fn H.ob ≤ z → (Path.roomy H.rank).WF ((Path.ops L).native v none) ∧
        (Path.sized H.rank).size ((Path.ops L).native v none) ≤ z := fun v hv => ⟨(Path.roomy H.rank).native_wf, hv⟩
    have hbox : ∀ v : Val, v.height H.fn H.ob ≤ z → SrcSize (Path.sized H.rank) z (.data v) := by
      intro v hv hb al
      have h : Path.size H.rank ((Path.ops L).native v al) ≤ z := by
        rw [Path.native_size H.rank hb]
        exact hv
      exact h
    cases v with
    | list xs => exact hbox _ hz
    | tuple xs => exact hbox _ hz
    | _ => exact hsz _ hz

/-- **C78**: constructing a form from any built-in source. -/
theorem C78_source (R : Rank L N) (hC : C.All (Bounded C (named N) K)) (cls : Nat) {p : Path}
    (hp : (Path.roomy R).WF p) (hz : Path.size R p ≤ z) (h1 : 1 ≤ z) (hn : (z + 1) * (K + 1) ≤ n)
    (hm : (z + 1) * (K + 1) ≤ m) :
    SameRun (Form.initOr (Path.ops L) L C e n cls (.source (.ok p)) St.init)
      (Form.initOr (Path.ops L) L C e' m cls (.source (.ok p)) St.init) :=
  C78_init (Path.sized R) hC cls Live.init h1 (by intro r p hp; cases hp) ⟨hp, hz⟩ hn hm

/-- A path at the root of a source is one the theorem is about. -/
theorem SPath.fresh_roomy (R : Rank L N) {p : SPath} (h : p.keys = []) : (Path.roomy R).WF (.base (.simple p)) := by
  cases p with
  | dflt cfg st =>
    have : st.parts = [] := by simpa [SPath.keys, PathSt.keys] using h
    exact ⟨(show st.Tidy by intro q hq; rw [this] at hq; cases hq),
      InRoom.root, by intro pre q post v hq; rw [this] at hq; simp at hq⟩
  | json s l st =>
    have : st.parts = [] := by simpa [SPath.keys, PathSt.keys] using h
    exact ⟨(show st.Tidy by intro q hq; rw [this] at hq; cases hq),
      InRoom.root, by intro pre q post v hq; rw [this] at hq; simp at hq⟩
  | config cfg st =>
    have : st.parts = [] := by simpa [SPath.keys, PathSt.keys] using h
    exact ⟨(show st.Tidy by intro q hq; rw [this] at hq; cases hq),
      InRoom.root, by intro pre q post v hq; rw [this] at hq; simp at hq⟩

/-- **C78**: constructing a form from a `JsonSource` of a document of height `z`. -/
theorem C78_json (H : Heights L N) (hC : C.All (Bounded C (named N) K)) (cls : Nat) (strict : Bool)
    (loc : Option String) {v : Val} (hz : v.height H.fn H.ob ≤ z) (hn : (z + 1) * (K + 1) ≤ n)
    (hm : (z + 1) * (K + 1) ≤ m) :
    let p : Path := .base (.simple (.json strict loc { root := v, parts := [] }))
    SameRun (Form.initOr (Path.ops L) L C e n cls (.source (.ok p)) St.init)
      (Form.initOr (Path.ops L) L C e' m cls (.source (.ok p)) St.init) :=
  C78_source H.rank hC cls (SPath.fresh_roomy H.rank rfl) (by exact hz) (Nat.le_trans (Val.height_pos v) hz) hn hm

/-- **C78**: constructing a form from a `ConfigSource` without `defaults`: whatever the configuration holds, four names
can be followed. -/
theorem C78_config (H : Heights L N) (hC : C.All (Bounded C (named N) K)) (cls : Nat) {cfg : ConfigCfg}
    (hd : cfg.defaults = none) (hn : 5 * (K + 1) ≤ n) (hm : 5 * (K + 1) ≤ m) :
    let p : Path := .base (.simple (.config cfg { root := cfg.rootVal, parts := [] }))
    SameRun (Form.initOr (Path.ops L) L C e n cls (.source (.ok p)) St.init)
      (Form.initOr (Path.ops L) L C e' m cls (.source (.ok p)) St.init) := by
  intro p
  refine C78_source (z := 4) H.rank hC cls (SPath.fresh_roomy H.rank rfl) ?_ (by omega) hn hm
  have h : H.rank.config cfg cfg.rootVal ≤ 4 := by
    unfold ConfigCfg.rootVal
    split
    · split <;> simp [Rank.config, hd]
    · simp [Rank.config, hd]
  exact h

end
end Pilo
