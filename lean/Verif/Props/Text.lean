import Mathlib.Data.List.Induction
import Verif.Source.Make
import Verif.Props.Parse
import Verif.Props.Resolve

/-!
# C104, C105: what a `JsonSource` makes of its text, and the text of a path
-/

namespace Pilo
variable {L : Lib}

/-! ## C105: `str(path)` -/

/-- The text of keys: names after dots, indices in brackets, and no punctuation on the first one. -/
inductive Printed (L : Lib) : List Val → String → Prop where
  | root : Printed L [] ""
  | name (s : String) : Printed L [.str s] s
  | number (i : Int) : Printed L [.int i] (L.fmt (.int i))
  | dot {ks : List Val} {t : String} (h : Printed L ks t) (hk : ks ≠ []) (s : String) :
      Printed L (ks ++ [.str s]) (t ++ "." ++ s)
  | index {ks : List Val} {t : String} (h : Printed L ks t) (hk : ks ≠ []) (i : Int) :
      Printed L (ks ++ [.int i]) (t ++ "[" ++ L.fmt (.int i) ++ "]")

/-- A setting that may be missing or empty, and what it puts in front of the text of a path. -/
inductive Heads (deco : String → String) : Option String → List String → Prop where
  | missing : Heads deco none []
  | empty : Heads deco (some "") []
  | given {l : String} (h : l ≠ "") : Heads deco (some l) [deco l]

theorem keysTailText_snoc {ks : List Val} : ∀ {t : String}, PathSt.keysTailText L ks = .ok t → ∀ {k : Val} {a : String},
    PathSt.keyText L k = .ok a → PathSt.keysTailText L (ks ++ [k]) = .ok (t ++ a) := by
  induction ks with
  | nil =>
    intro t h k a ha
    cases h
    simp [PathSt.keysTailText, ha]
  | cons k' ks ih =>
    intro t h k a ha
    unfold PathSt.keysTailText at h
    cases h1 : PathSt.keyText L k' with
    | error e => simp [h1] at h
    | ok b =>
      cases h2 : PathSt.keysTailText L ks with
      | error e => simp [h1, h2] at h
      | ok c =>
        simp only [h1, h2, Except.ok.injEq] at h
        subst h
        simp only [List.cons_append, PathSt.keysTailText, h1, ih h2 ha, String.append_assoc]

theorem keysText_snoc {ks : List Val} (hk : ks ≠ []) {t : String} (h : PathSt.keysText L ks = .ok t) {k : Val}
    {a : String} (ha : PathSt.keyText L k = .ok a) : PathSt.keysText L (ks ++ [k]) = .ok (t ++ a) := by
  cases ks with
  | nil => exact absurd rfl hk
  | cons k' ks =>
    unfold PathSt.keysText at h
    cases h2 : PathSt.keysTailText L ks with
    | error e => simp [h2] at h
    | ok c =>
      simp only [h2, Except.ok.injEq] at h
      subst h
      simp only [List.cons_append, PathSt.keysText, keysTailText_snoc h2 ha, String.append_assoc]

theorem Printed.keysText {ks : List Val} {t : String} (h : Printed L ks t) : PathSt.keysText L ks = .ok t := by
  induction h with
  | root => rfl
  | name s => simp [PathSt.keysText, PathSt.keysTailText]
  | number i => simp [PathSt.keysText, PathSt.keysTailText]
  | dot h hk s ih =>
    rw [keysText_snoc hk ih (a := "." ++ s) rfl, String.append_assoc]
  | index h hk i ih =>
    rw [keysText_snoc hk ih (a := "[" ++ L.fmt (.int i) ++ "]") rfl]
    simp only [String.append_assoc]

theorem Printed.total {ks : List Val} (h : ∀ k ∈ ks, IsAtom k) : ∃ t, Printed L ks t := by
  induction ks using List.reverseRecOn with
  | nil => exact ⟨_, .root⟩
  | append_singleton ks k ih =>
    obtain ⟨t, ht⟩ := ih fun k' hk' => h k' (by simp [hk'])
    have hk := h k (by simp)
    by_cases hn : ks = []
    · subst hn
      cases k <;> first | exact hk.elim | exact ⟨_, .name _⟩ | exact ⟨_, .number _⟩
    · cases k <;> first | exact hk.elim | exact ⟨_, ht.dot hn _⟩ | exact ⟨_, ht.index hn _⟩

theorem SPath.act_text {p : SPath} (h : p.Tidy) (op : PathOp) :
    (p.act L op).Tidy ∧ (p.act L op).keys = op.keys p.keys ∧ (p.act L op).text L = p.text L := by
  have hv : ∀ {q : SPath}, SPath.Keeps p q → q.Tidy ∧ q.keys = p.keys ∧ q.text L = p.text L :=
    fun k => ⟨k.tidy h, k.keys, k.text L⟩
  cases op with
  | append k => exact ⟨SPath.append_tidy h k, SPath.keys_append p k, SPath.append_text L p k⟩
  | pop =>
    simp only [SPath.act, PathOp.keys]
    rcases List.eq_nil_or_concat p.keys with hk | ⟨ks, k, hk⟩
    · cases hp : p.pop with
      | error e => exact ⟨h, by rw [hk]; rfl, rfl⟩
      | ok q =>
        exfalso
        cases p <;> simp only [SPath.keys, PathSt.keys, List.map_eq_nil_iff] at hk <;>
          simp [SPath.pop, PathSt.pop, hk] at hp
    · rw [List.concat_eq_append] at hk
      obtain ⟨q, h1, h2, h3, h4⟩ := SPath.pop_keys hk
      simp only [h1]
      exact ⟨h3 h, by rw [h2, hk, List.dropLast_concat], h4 L⟩
  | value => exact hv (SPath.withValue_keeps L p _ _ _)
  | exists_ => exact hv (SPath.withValue_keeps L p _ _ _)
  | isNull => exact hv (SPath.withValue_keeps L p _ _ _)
  | mapping => exact hv (SPath.withValue_keeps L p _ _ _)
  | sequence => exact hv (SPath.withValue_keeps L p _ _ _)
  | primitive ty => exact hv (SPath.withValue_keeps L p _ _ _)

theorem SPath.hist_text (ops : List PathOp) : ∀ {p : SPath}, p.Tidy →
    (ops.foldl (SPath.act L) p).render L = p.text L (ops.foldl PathOp.keys p.keys) := by
  induction ops with
  | nil => intro p h; exact SPath.render_text L h
  | cons op ops ih =>
    intro p h
    obtain ⟨h1, h2, h3⟩ := SPath.act_text (L := L) h op
    rw [List.foldl_cons, List.foldl_cons, ih h1, h2, h3]

theorem SSrc.path_tidy (s : SSrc) : s.path.Tidy := by
  cases s <;> exact fun q h => nomatch h

theorem SSrc.hist_text (s : SSrc) (ops : List PathOp) :
    (ops.foldl (SPath.act L) s.path).render L = s.path.text L (histKeys ops) := by
  rw [SPath.hist_text ops s.path_tidy]
  cases s <;> rfl

theorem Heads.located {l : Option String} {hs : List String} (h : Heads id l hs) (ts : List String) (hts : ts ≠ []) :
    withLocation l (.ok (String.intercalate ":" ts)) = .ok (String.intercalate ":" (hs ++ ts)) := by
  obtain ⟨t, ts, rfl⟩ := List.exists_cons_of_ne_nil hts
  cases h with
  | missing => rfl
  | empty => rfl
  | given h =>
    simp only [withLocation, if_neg h, id, List.cons_append, List.nil_append, String.intercalate_cons_cons]

/-- C105, native data: after any history of reads and moves along string and integer keys, `str(path)` is the
location, if there is one, and the keys that are left. Aliases and ignores do not show. -/
theorem C105_native (data : Val) (cfg : DefaultCfg) (ops : List PathOp) {t : String} (ht : Printed L (histKeys ops) t)
    {hs : List String} (hh : Heads id cfg.location hs) :
    (ops.foldl (SPath.act L) (SSrc.dflt data cfg).path).render L = .ok (String.intercalate ":" (hs ++ [t])) := by
  rw [SSrc.hist_text]
  show withLocation cfg.location (PathSt.keysText L (histKeys ops)) = _
  rw [ht.keysText, ← hh.located [t] (by simp), String.intercalate_singleton]

/-- C105, JSON. -/
theorem C105_json (data : Val) (strict : Bool) (loc : Option String) (ops : List PathOp) {t : String}
    (ht : Printed L (histKeys ops) t) {hs : List String} (hh : Heads id loc hs) :
    (ops.foldl (SPath.act L) (SSrc.json data strict loc).path).render L
      = .ok (String.intercalate ":" (hs ++ [t])) := by
  rw [SSrc.hist_text]
  show withLocation loc (PathSt.keysText L (histKeys ops)) = _
  rw [ht.keysText, ← hh.located [t] (by simp), String.intercalate_singleton]

/-- C105, config files: the section, if there is one, comes between the two, in brackets. -/
theorem C105_config (cfg : ConfigCfg) (ops : List PathOp) {t : String} (ht : Printed L (histKeys ops) t)
    {hs gs : List String} (hh : Heads id cfg.location hs) (hg : Heads (fun s => "[" ++ s ++ "]") cfg.sectionName gs) :
    (ops.foldl (SPath.act L) (SSrc.config cfg).path).render L
      = .ok (String.intercalate ":" (hs ++ gs ++ [t])) := by
  rw [SSrc.hist_text]
  show withLocation cfg.location (match cfg.sectionName with
    | some s => if s = "" then PathSt.keysText L (histKeys ops)
        else withLocation (some ("[" ++ s ++ "]")) (PathSt.keysText L (histKeys ops))
    | none => PathSt.keysText L (histKeys ops)) = _
  rw [ht.keysText, List.append_assoc, ← hh.located (gs ++ [t]) (by simp)]
  congr 1
  generalize cfg.sectionName = sec at hg
  cases hg with
  | missing => simp only [List.nil_append, String.intercalate_singleton]
  | empty => simp only [if_true, List.nil_append, String.intercalate_singleton]
  | @given s h =>
    have hb : "[" ++ s ++ "]" ≠ "" := by
      intro hb
      have := congrArg String.toList hb
      simp at this
    simp only [if_neg h]
    rw [← String.intercalate_singleton (s := ":") (t := t)]
    have := (Heads.given (deco := id) hb).located [t] (by simp)
    rw [this, String.intercalate_singleton]
    rfl

/-- C105: every history along string and integer keys has a text. -/
theorem C105_total (ops : List PathOp) (hk : ∀ k ∈ histKeys ops, IsAtom k) : ∃ t, Printed L (histKeys ops) t :=
  Printed.total hk

example : ([PathOp.append (.str "xs"), .value, .append (.int 1), .append (.str "a")].foldl (SPath.act Demo.lib)
    (SSrc.json Demo.doc true (some "in.json")).path).render Demo.lib = .ok "in.json:xs[1].a" :=
  C105_json (L := Demo.lib) Demo.doc true (some "in.json")
    [.append (.str "xs"), .value, .append (.int 1), .append (.str "a")]
    (t := "xs[1].a") (.dot (.index (.name "xs") (by simp) 1) (by simp) "a") (.given (by decide))

example : Printed Demo.lib [.str "xs", .int 1, .str "a"] "xs[1].a" :=
  .dot (.index (.name "xs") (by simp) 1) (by simp) "a"

/-! ## C104: `JsonSource` -/

/-- What a strict `JsonSource` reads: values of the type that is asked for, and integers and booleans as floats. -/
inductive Strictly (L : Lib) : PTy → Val → Val → Prop where
  | str (s : String) : Strictly L .str (.str s) (.str s)
  | int (i : Int) : Strictly L .int (.int i) (.int i)
  | bool (b : Bool) : Strictly L .bool (.bool b) (.bool b)
  | float (x : Num) : Strictly L .float (.float x) (.float x)
  | widen {i : Int} {x : Num} (h : L.floatOfInt i = some x) : Strictly L .float (.int i) (.float x)
  | truth {b : Bool} {x : Num} (h : L.floatOfInt (if b then 1 else 0) = some x) : Strictly L .float (.bool b) (.float x)
  | auto (v : Val) : Strictly L .auto v v

/-- What it reads when it is not strict. -/
inductive Leniently (L : Lib) : PTy → Val → Val → Prop where
  | strict {ty : PTy} {v w : Val} (h : Strictly L ty v w) : Leniently L ty v w
  | show_ {v : Val} (h : ∀ s, v ≠ .str s) : Leniently L .str v (.str (L.fmt v))
  | whole (i : Int) : Leniently L .int (.float (.fin i)) (.int i)
  | parsed {s : String} {i : Int} (h : L.intOfStr s = some i) : Leniently L .int (.str s) (.int i)
  | parsedFloat {s : String} {x : Num} (h : L.floatOfStr s = some x) : Leniently L .float (.str s) (.float x)
  | zero : Leniently L .bool (.int 0) (.bool false)
  | nonzero {i : Int} (h : i ≠ 0) (hp : L.py3 = true ∨ -(2 ^ 63) ≤ i ∧ i < 2 ^ 63) : Leniently L .bool (.int i) (.bool true)

/-- What a `JsonSource` reads. -/
def JsonAccepts (L : Lib) (strict : Bool) (ty : PTy) (v w : Val) : Prop :=
  (strict = true → Strictly L ty v w) ∧ (strict = false → Leniently L ty v w)

theorem isPyInt_iff (i : Int) : isPyInt L i = true ↔ (L.py3 = true ∨ -(2 ^ 63) ≤ i ∧ i < 2 ^ 63) := by
  simp [isPyInt]

theorem floatInt_ok (i : Int) (w : Val) : floatInt L i = .ok w ↔ ∃ x, w = .float x ∧ L.floatOfInt i = some x := by
  unfold floatInt
  cases L.floatOfInt i <;> simp [eq_comm]

theorem parseJson_strict (ty : PTy) (v w : Val) : parseJson L true ty v = .ok w ↔ Strictly L ty v w := by
  constructor
  · intro h
    cases ty with
    | str => cases v <;> simp [parseJson, jsonString] at h; subst h; exact .str _
    | int => cases v <;> simp [parseJson, jsonInt] at h; subst h; exact .int _
    | bool => cases v <;> simp [parseJson, jsonBool] at h; subst h; exact .bool _
    | float =>
      cases v <;> simp [parseJson, jsonFloat] at h
      case float x => subst h; exact .float _
      case int i => obtain ⟨x, rfl, hx⟩ := (floatInt_ok _ _).1 h; exact .widen hx
      case bool b => obtain ⟨x, rfl, hx⟩ := (floatInt_ok _ _).1 h; exact .truth hx
    | auto => cases h; exact .auto _
  · intro h
    cases h with
    | widen h => exact (floatInt_ok _ _).2 ⟨_, rfl, h⟩
    | truth h => exact (floatInt_ok _ _).2 ⟨_, rfl, h⟩
    | _ => rfl

theorem parseJson_lenient (ty : PTy) (v w : Val) : parseJson L false ty v = .ok w ↔ Leniently L ty v w := by
  constructor
  · intro h
    by_cases hs : parseJson L true ty v = .ok w
    · exact .strict ((parseJson_strict ty v w).1 hs)
    cases ty with
    | str =>
      cases v <;> simp [parseJson, jsonString] at h hs <;> first
        | exact (hs h).elim
        | (subst h; exact .show_ (by simp))
    | int =>
      cases v <;> simp [parseJson, jsonInt] at h hs
      case int i => exact (hs h).elim
      case float x =>
        by_cases hx : x.isInteger = true
        · obtain ⟨i, rfl⟩ := (Num.isInteger_iff x).1 hx
          simp only [hx, if_true, Except.ok.injEq] at h
          subst h
          exact .whole i
        · simp [hx] at h
      case str s =>
        cases hi : L.intOfStr s with
        | none => simp [hi] at h
        | some i => simp only [hi, Except.ok.injEq] at h; subst h; exact .parsed hi
    | bool =>
      cases v <;> simp [parseJson, jsonBool] at h hs
      case bool b => exact (hs h).elim
      case int i =>
        by_cases hp : isPyInt L i = true
        · simp only [hp, if_true, Except.ok.injEq] at h
          subst h
          by_cases h0 : i = 0
          · subst h0; exact .zero
          · have : (i != 0) = true := by simp [h0]
            rw [this]
            exact .nonzero h0 ((isPyInt_iff i).1 hp)
        · simp [hp] at h
    | float =>
      cases v <;> simp [parseJson, jsonFloat] at h hs <;> first
        | exact (hs h).elim
        | skip
      case str s =>
        cases hx : L.floatOfStr s with
        | none => simp [hx] at h
        | some x => simp only [hx, Except.ok.injEq] at h; subst h; exact .parsedFloat hx
    | auto => exact (hs h).elim
  · intro h
    cases h with
    | strict h =>
      cases h with
      | widen h => exact (floatInt_ok _ _).2 ⟨_, rfl, h⟩
      | truth h => exact (floatInt_ok _ _).2 ⟨_, rfl, h⟩
      | _ => rfl
    | show_ h => cases v <;> first | exact (h _ rfl).elim | rfl
    | whole i =>
      have : (Num.fin (i : Rat)).isInteger = true := (Num.isInteger_iff _).2 ⟨i, rfl⟩
      simp only [parseJson, jsonInt, this, Bool.not_false, Bool.and_self, if_true]
      rfl
    | parsed h => simp [parseJson, jsonInt, h]
    | parsedFloat h => simp [parseJson, jsonFloat, h]
    | zero =>
      have : isPyInt L 0 = true := (isPyInt_iff 0).2 (.inr (by decide))
      simp [parseJson, jsonBool, this]
    | nonzero h hp => simp [parseJson, jsonBool, (isPyInt_iff _).2 hp, h]

/-- Too large for a float: the exception is Python's own. -/
theorem parseJson_refuses (strict : Bool) (ty : PTy) (v : Val) (e : Exc) (h : parseJson L strict ty v = .error e)
    (hf : ty = .float → (∀ i, v ≠ .int i) ∧ ∀ b, v ≠ .bool b) : ∃ msg, e = .sourceError msg := by
  cases ty with
  | str =>
    cases v <;> simp [parseJson, jsonString, notAJ] at h
    all_goals (split at h <;> first | (cases h; exact ⟨_, rfl⟩) | cases h)
  | int =>
    cases v <;> simp [parseJson, jsonInt, notAJ] at h
    all_goals first
      | exact ⟨_, h.symm⟩
      | (repeat' split at h) <;> first | (cases h; exact ⟨_, rfl⟩) | cases h
  | bool =>
    cases v <;> simp [parseJson, jsonBool, notAJ] at h
    all_goals first
      | exact ⟨_, h.symm⟩
      | (repeat' split at h) <;> first | (cases h; exact ⟨_, rfl⟩) | cases h
  | float =>
    cases v <;> simp [parseJson, jsonFloat, notAJ] at h
    case int i => exact ((hf rfl).1 i rfl).elim
    case bool b => exact ((hf rfl).2 b rfl).elim
    all_goals first
      | exact ⟨_, h.symm⟩
      | (repeat' split at h) <;> first | (cases h; exact ⟨_, rfl⟩) | cases h
  | auto => cases h

/-- C104: a text that `json.loads` does not take makes no source, and what `json.loads` raises comes through. -/
theorem C104_refused {loads : String → Except Exc Val} {text : String} {e : Exc} (h : loads text = .error e)
    (strict : Bool) (loc : Option String) : makeJson loads text strict loc = .error e := by
  simp [makeJson, h]

/-- C104: otherwise there is a source, and after any history of reads and moves that leads to a value of the
document, the value is read as it is, and as a type exactly when the strictness the source was made with allows it;
else the read is a `SourceError`, except for integers that are too large for a float. -/
theorem C104_reads {loads : String → Except Exc Val} {text : String} {doc : Val} (h : loads text = .ok doc)
    (hdoc : Doc doc) (strict : Bool) (loc : Option String) :
    ∃ s, makeJson loads text strict loc = .ok s ∧ ∀ (ops : List PathOp), (∀ k ∈ histKeys ops, IsAtom k) →
      ∀ steps, Spelled (histKeys ops) steps → ∀ v, Nested doc steps v →
        let p := ops.foldl (SPath.act L) s.path
        (SPath.value L p).1 = .ok v ∧ ∀ ty,
          (∀ w, (SPath.primitive L ty p).1 = .ok w ↔ JsonAccepts L strict ty v w) ∧
          ((∀ w, ¬ JsonAccepts L strict ty v w) → (ty = .float → (∀ i, v ≠ .int i) ∧ ∀ b, v ≠ .bool b) →
            ∃ msg, (SPath.primitive L ty p).1 = .error (.sourceError msg)) := by
  refine ⟨.json doc strict loc, by simp [makeJson, h], ?_⟩
  intro ops hk steps hs v hv
  have hval := ((C20_json_lookup (L := L) strict loc hdoc ops hk).2 steps hs).1 v hv
  obtain ⟨st, hst, -⟩ := FineJson.hist (L := L) (strict := strict) (loc := loc) (doc := doc) ops
  have hp : (SSrc.json doc strict loc).path = .json strict loc { root := doc, parts := [] } := rfl
  simp only [hp]
  refine ⟨hval, fun ty => ?_⟩
  rw [hst] at hval ⊢
  rw [primitive_json ty strict loc st hval]
  have hiff : ∀ w, parseJson L strict ty v = .ok w ↔ JsonAccepts L strict ty v w := by
    intro w
    cases strict with
    | true => simp [JsonAccepts, parseJson_strict]
    | false => simp [JsonAccepts, parseJson_lenient]
  refine ⟨hiff, fun hno hf => ?_⟩
  cases hr : parseJson L strict ty v with
  | ok w => exact (hno w ((hiff w).1 hr)).elim
  | error e =>
    obtain ⟨msg, rfl⟩ := parseJson_refuses strict ty v e hr hf
    exact ⟨msg, rfl⟩

/-- `json.loads` for the examples. -/
def Demo.loads (text : String) : Except Exc Val :=
  if text = "12" then .ok (.str "12") else .error (.valueError "No JSON object could be decoded")

example : ∃ s, makeJson Demo.loads "12" false none = .ok s ∧
    (SPath.primitive Demo.lib .int s.path).1 = .ok (.int 12) := by
  obtain ⟨s, hs, h⟩ := C104_reads (L := Demo.lib) (loads := Demo.loads) (text := "12") (doc := .str "12") rfl
    ⟨.str _, .leaf (by simp) (by simp)⟩ false none
  exact ⟨s, hs, (((h [] (by simp [histKeys]) [] .nil _ (.here _)).2 .int).1 (.int 12)).2
    ⟨by simp, fun _ => .parsed (by decide +kernel)⟩⟩

example : makeJson Demo.loads "{" true none = .error (.valueError "No JSON object could be decoded") :=
  C104_refused (by decide +kernel) true none

end Pilo
