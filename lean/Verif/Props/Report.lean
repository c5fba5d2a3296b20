import Verif.Props.Forms
import Verif.ValEq

/-!
# C83: the text of a `FormError`

`pilo/fields.py:89-135`.
-/

namespace Pilo
namespace Report

/-- What is said about one error: the class, the path and what is wrong. -/
def said (e : Err) : String :=
  match e.kind with
  | .missing => "* Missing: " ++ e.path ++ " - missing"
  | .invalid v => "* Invalid: " ++ e.path ++ " - " ++ v

/-- An empty line, then a line per error. -/
def full : List Err → String
  | [] => "\n"
  | e :: es => "\n" ++ said e ++ full es

/-- No line break in what is said. -/
def OneLine (e : Err) : Prop := '\n' ∉ (said e).toList

theorem said_eq (e : Err) : "* " ++ (e.className ++ ": " ++ e.message) = said e := by
  unfold said Err.className Err.message
  cases e.kind with
  | missing =>
    show "* " ++ ("Missing" ++ ": " ++ (e.path ++ " - missing")) = "* Missing: " ++ e.path ++ " - missing"
    rw [← String.append_assoc, ← String.append_assoc]
    rfl
  | invalid v =>
    show "* " ++ ("Invalid" ++ ": " ++ (e.path ++ " - " ++ v)) = "* Invalid: " ++ e.path ++ " - " ++ v
    simp only [← String.append_assoc]
    rfl

theorem split_unique {a b a' b' : List Char} (h : a ++ '\n' :: a' = b ++ '\n' :: b') (ha : '\n' ∉ a) (hb : '\n' ∉ b) :
    a = b ∧ a' = b' := by
  induction a generalizing b with
  | nil =>
    cases b with
    | nil => simpa using h
    | cons y ys =>
      simp only [List.nil_append, List.cons_append, List.cons.injEq] at h
      exact absurd (by rw [h.1]; exact List.mem_cons_self) hb
  | cons x xs ih =>
    cases b with
    | nil =>
      simp only [List.nil_append, List.cons_append, List.cons.injEq] at h
      exact absurd (by rw [← h.1]; exact List.mem_cons_self) ha
    | cons y ys =>
      simp only [List.cons_append, List.cons.injEq] at h
      obtain ⟨h1, h2⟩ := ih h.2 (fun hm => ha (List.mem_cons_of_mem _ hm)) (fun hm => hb (List.mem_cons_of_mem _ hm))
      exact ⟨by rw [h.1, h1], h2⟩

theorem full_cons (es : List Err) : ∃ t : List Char, (full es).toList = '\n' :: t := by
  cases es with
  | nil => exact ⟨[], rfl⟩
  | cons e es => exact ⟨(said e ++ full es).toList, by
      show ("\n" ++ said e ++ full es).toList = _
      simp only [String.toList_append]
      rfl⟩

theorem full_inj {es fs : List Err} (he : ∀ e ∈ es, OneLine e) (hf : ∀ e ∈ fs, OneLine e) (h : full es = full fs) :
    es.map said = fs.map said := by
  have key : ∀ (e : Err), (said e).toList ≠ [] := by
    intro e h
    unfold said at h
    split at h <;> simp [String.toList_append] at h
  induction es generalizing fs with
  | nil =>
    cases fs with
    | nil => rfl
    | cons f fs =>
      have := congrArg String.toList h
      unfold full at this
      simp only [String.toList_append] at this
      simp at this
      exact absurd (by rw [this.1]; rfl) (key f)
  | cons e es ih =>
    cases fs with
    | nil =>
      have := congrArg String.toList h
      unfold full at this
      simp only [String.toList_append] at this
      simp at this
      exact absurd (by rw [this.1]; rfl) (key e)
    | cons f fs =>
      have h' := congrArg String.toList h
      unfold full at h'
      simp only [String.toList_append, List.append_assoc] at h'
      have h' := List.append_cancel_left h'
      obtain ⟨t, ht⟩ := full_cons es
      obtain ⟨u, hu⟩ := full_cons fs
      rw [ht, hu] at h'
      obtain ⟨h1, h2⟩ := split_unique h' (he e List.mem_cons_self) (hf f List.mem_cons_self)
      rw [List.map_cons, List.map_cons, String.toList_inj.1 h1,
        ih (fun e h => he e (List.mem_cons_of_mem _ h)) (fun e h => hf e (List.mem_cons_of_mem _ h))
          (String.toList_inj.1 (by rw [ht, hu, h2]))]

end Report

open Report

/-- C83. The text of a `FormError` with errors `es` has a line for each of them, in order, with its class, its path and what is
wrong; nothing else. -/
theorem C83_text {es : List Err} (h : es ≠ []) : (Exc.formError es).str = full es := by
  show formErrorMessage es = full es
  unfold formErrorMessage
  induction es with
  | nil => exact absurd rfl h
  | cons e es ih =>
    cases es with
    | nil =>
      rw [List.map_cons, List.map_nil, String.intercalate_singleton]
      show "\n" ++ "* " ++ _ ++ _ = "\n" ++ said e ++ full []
      rw [← said_eq e]
      simp only [← String.append_assoc]
      rfl
    | cons e' es' =>
      have ih := ih (by intro h; cases h)
      rw [List.map_cons] at ih ⊢
      rw [List.map_cons, String.intercalate_cons_cons]
      show _ = "\n" ++ said e ++ full (e' :: es')
      rw [← ih, ← said_eq e]
      simp only [← String.append_assoc]
      rfl

/-- C83. Nothing is lost: two lists of errors with the same text say the same, error by error (as long as no path and no reason
has a line break in it). -/
theorem C83_nothing_lost {es fs : List Err} (he : es ≠ []) (hf : fs ≠ []) (oe : ∀ e ∈ es, OneLine e) (of : ∀ e ∈ fs, OneLine e)
    (h : (Exc.formError es).str = (Exc.formError fs).str) : es.map said = fs.map said := by
  rw [C83_text he, C83_text hf] at h
  exact full_inj oe of h

/-- C83 for a `FieldError` alone: its text is its path and what is wrong. -/
theorem C83_field (e : Err) : (Exc.fieldError e).str = e.path ++ " - " ++ (match e.kind with | .missing => "missing" | .invalid v => v) := by
  show e.message = _
  unfold Err.message
  cases e.kind with
  | missing => exact (String.append_assoc (s₁ := e.path) (s₂ := " - ") (s₃ := "missing")).symm
  | invalid v => rfl

/-- C83 for the constructor: what `Form(src)` raises says exactly what `Form().map(src)` returns (C10). -/
theorem C83_constructor {P : Type} {I : PathOps P} {L : Lib} {C : Classes} (n cls : Nat) (src : SrcArg P) (hsrc : src ≠ .none)
    (hd : ∀ v, src = .data v → (∃ d, v = .dict d) ∨ (∃ l, v = .list l) ∨ ∃ t, v = .tuple t) (s s' : St P) (e : Nat)
    (h : Form.map I L C n s.forms.length src [] false (.str .ignore) false
      { s with forms := s.forms ++ [{ cls := cls, items := [] }] } = (.ok e, s')) (he : s'.errors e ≠ []) :
    ∃ x, (Form.init I L C n cls src s).1 = .error x ∧ x.isValueError = true ∧ x.str = full (s'.errors e) := by
  refine ⟨.formError (s'.errors e), ?_, rfl, C83_text he⟩
  rw [(C10_constructor n cls src hsrc hd s).1 e s' h, if_neg he]

/-! ## Examples -/

/-- Two errors. -/
example : (Exc.formError [⟨.missing, "a", some "a", some 0⟩, ⟨.invalid "\"x\" is not an integer", "b[1]", none, some 0⟩]).str =
    "\n* Missing: a - missing\n* Invalid: b[1] - \"x\" is not an integer\n" := by
  rw [C83_text (by intro h; cases h)]
  decide +kernel

/-- The errors of C83_nothing_lost have one line each. -/
example : OneLine ⟨.invalid "\"x\" is not an integer", "b[1]", none, some 0⟩ := by unfold OneLine; decide +kernel

/-- Without that it is false: a reason with a line break passes for two errors. -/
theorem C83_line_break_counterexample : ∃ es fs : List Err, es ≠ [] ∧ fs ≠ [] ∧
    (Exc.formError es).str = (Exc.formError fs).str ∧ es.map said ≠ fs.map said := by
  refine ⟨[⟨.invalid "x\n* Missing: b - missing", "a", none, none⟩], [⟨.invalid "x", "a", none, none⟩, ⟨.missing, "b", none, none⟩],
    (by intro h; cases h), (by intro h; cases h), by decide +kernel, by decide +kernel⟩

section
open Demo

/-- `F({'a': 'x', 'b': 'y'})`, where `a` is an `Integer` and `b` a `String(min_length=2)`. -/
example : ∃ x, (Form.init (Path.ops lib) lib classes 10 0 (.data (.dict [(.str "a", .str "x"), (.str "b", .str "y")])) St.init).1 =
      .error x ∧ x.isValueError = true ∧
      x.str = "\n* Invalid: a - \"x\" is not an integer\n* Invalid: b - \"y\" must have length >= 2\n" := by
  have pair : ∀ p : Except Exc Nat × St Path, p.1 = .ok 0 → p = (.ok 0, p.2) := by rintro ⟨a, b⟩ ⟨⟩; rfl
  have h := C83_constructor (I := Path.ops lib) (L := lib) (C := classes) 10 0
    (.data (.dict [(.str "a", .str "x"), (.str "b", .str "y")])) (by intro h; cases h) (by rintro v ⟨⟩; exact .inl ⟨_, rfl⟩)
    St.init (Form.map (Path.ops lib) lib classes 10 (St.init : St Path).forms.length
      (.data (.dict [(.str "a", .str "x"), (.str "b", .str "y")])) [] false (.str .ignore) false
      { St.init with forms := (St.init : St Path).forms ++ [{ cls := 0, items := [] }] }).2 0
    (pair _ (by decide +kernel)) (by decide +kernel)
  obtain ⟨x, h1, h2, h3⟩ := h
  refine ⟨x, h1, h2, h3.trans ?_⟩
  decide +kernel

end

end Pilo
