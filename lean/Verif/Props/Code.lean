import Verif.Props.Unparsable
import Verif.Dots

/-!
# C84 and C85: `Code` fields

`pilo/fields.py:1193-1251`.
-/

namespace Pilo
variable {P : Type} {I : PathOps P} {L : Lib} {W : LawfulPath I} {C : Classes} {rec : Rec P}
  {f : Field} {s : St P} {r : Nat} {q : P} {text : String} {b : ErrBuf}

/-! ## What texts mean -/

namespace Naming

/-- `:` and the line break are not letters of the `re` module. -/
structure Regular (L : Lib) : Prop where
  colon : L.isWord ':' = false
  newline : L.isWord '\n' = false

/-- A character that names are made of. -/
def Letter (L : Lib) (c : Char) : Prop := L.isWord c = true ∨ c = '.'

/-- A name, maybe with dots in it. -/
structure Name (L : Lib) (x : String) : Prop where
  nonempty : x ≠ ""
  letters : ∀ c ∈ x.toList, Letter L c

/-- The text does not begin with a letter. -/
def Breaks (L : Lib) (x : String) : Prop := ∀ c cs, x.toList = c :: cs → ¬ Letter L c

/-- `w` is what the attributes `ns` lead to from `v`. -/
inductive Attr (L : Lib) : Val → List String → Val → Prop
  | here (v : Val) : Attr L v [] v
  | step {v u w : Val} {n : String} {ns : List String} (h : L.attrs v n = some u) (hr : Attr L u ns w) : Attr L v (n :: ns) w

end Naming

open Naming

/-! ## The functions of `Code` -/

namespace Naming

theorem isPart_iff {c : Char} : Code.isPart L c = true ↔ Letter L c := by
  unfold Code.isPart Letter
  simp

theorem not_part {c : Char} (h : ¬ Letter L c) : Code.isPart L c = false := by
  cases hp : Code.isPart L c with
  | false => rfl
  | true => exact absurd (isPart_iff.1 hp) h

theorem take_name {m : String} (hm : Name L m) {rest : List Char} (hr : ∀ c cs, rest = c :: cs → ¬ Letter L c) :
    (m.toList ++ rest).takeWhile (Code.isPart L) = m.toList ∧ (m.toList ++ rest).dropWhile (Code.isPart L) = rest := by
  have hall : ∀ c ∈ m.toList, Code.isPart L c = true := fun c h => isPart_iff.2 (hm.letters c h)
  rw [List.takeWhile_append_of_pos hall, List.dropWhile_append_of_pos hall]
  cases rest with
  | nil => simp
  | cons c cs =>
    have := not_part (hr c cs rfl)
    simp [this]

theorem name_ne {m : String} (hm : Name L m) : m.toList.isEmpty = false := by
  cases h : m.toList with
  | nil => exact absurd (String.toList_inj.1 (by rw [h]; rfl)) hm.nonempty
  | cons c cs => rfl

theorem colon_not (hR : Regular L) : ¬ Letter L ':' := by
  rintro (h | h)
  · rw [hR.colon] at h; cases h
  · cases h

theorem newline_not (hR : Regular L) : ¬ Letter L '\n' := by
  rintro (h | h)
  · rw [hR.newline] at h; cases h
  · cases h

theorem match_pair (hR : Regular L) {m a rest : String} (hm : Name L m) (ha : Name L a) (hr : Breaks L rest) :
    Code.importMatch L (m ++ ":" ++ a ++ rest) = some (some m, a) := by
  have h0 : (m ++ ":" ++ a ++ rest).toList = m.toList ++ ':' :: (a.toList ++ rest.toList) := by
    simp only [String.toList_append]
    simp
  obtain ⟨h1, h2⟩ := take_name hm (rest := ':' :: (a.toList ++ rest.toList)) (by rintro c cs ⟨⟩; exact colon_not hR)
  obtain ⟨h3, -⟩ := take_name ha (rest := rest.toList) hr
  unfold Code.importMatch
  simp only [h0, h1, h2, name_ne hm, h3, name_ne ha, Bool.false_eq_true, if_false, String.ofList_toList]

theorem match_alone {a rest : String} (ha : Name L a) (hr : Breaks L rest)
    (hc : ∀ cs, rest.toList = ':' :: cs → Breaks L (String.ofList cs)) : Code.importMatch L (a ++ rest) = some (none, a) := by
  have h0 : (a ++ rest).toList = a.toList ++ rest.toList := String.toList_append
  obtain ⟨h1, h2⟩ := take_name ha (rest := rest.toList) hr
  unfold Code.importMatch
  simp only [h0, h1, h2, name_ne ha, Bool.false_eq_true, if_false, String.ofList_toList]
  split
  · rename_i more hm
    have : more.takeWhile (Code.isPart L) = [] := by
      cases more with
      | nil => rfl
      | cons c cs => exact List.takeWhile_cons_of_neg (by rw [not_part (hc _ hm c cs String.toList_ofList)]; simp)
    rw [this]
    rfl
  · rfl

theorem match_none {x : String} (hx : Breaks L x) : Code.importMatch L x = none := by
  unfold Code.importMatch
  cases h : x.toList with
  | nil => rfl
  | cons c cs => simp [not_part (hx c cs h)]

theorem inline_iff {x : String} : Code.inlineMatch x = true ↔ '\n' ∈ x.toList := by
  unfold Code.inlineMatch
  rw [decide_eq_true_eq, List.count_pos_iff]

theorem inline_not {x : String} (h : '\n' ∉ x.toList) : Code.inlineMatch x = false := by
  cases hi : Code.inlineMatch x with
  | false => rfl
  | true => exact absurd (inline_iff.1 hi) h

theorem splitDots_part {n : List Char} (hn : '.' ∉ n) (acc rest : List Char) :
    Code.splitDots acc (n ++ rest) = Code.splitDots (n.reverse ++ acc) rest := by
  induction n generalizing acc with
  | nil => rfl
  | cons c cs ih =>
    have h1 : c ≠ '.' := by rintro rfl; exact hn List.mem_cons_self
    rw [List.cons_append, Code.splitDots, if_neg h1, ih (fun h => hn (List.mem_cons_of_mem _ h))]
    simp

theorem splitDots_dotted {x : String} {ns : List String} (h : Dotted x ns) : Code.splitDots [] x.toList = ns := by
  rw [h.text]
  have h0 := h.nonempty
  have hp := h.parts
  clear h
  induction ns with
  | nil => exact absurd rfl h0
  | cons n ns ih =>
    cases ns with
    | nil =>
      rw [String.intercalate_singleton]
      have := splitDots_part (hp n List.mem_cons_self) [] []
      rw [List.append_nil] at this
      rw [this]
      simp [Code.splitDots]
    | cons n' ns' =>
      rw [String.intercalate_cons_cons, String.toList_append, String.toList_append, List.append_assoc,
        splitDots_part (hp n List.mem_cons_self)]
      show Code.splitDots (n.toList.reverse ++ []) ('.' :: (String.intercalate "." (n' :: ns')).toList) = _
      rw [Code.splitDots, if_pos rfl, ih (by intro h; cases h) (fun k hk => hp k (List.mem_cons_of_mem _ hk))]
      simp

theorem attr_iff {v w : Val} {ns : List String} : Code.getattrs L v ns = some w ↔ Attr L v ns w := by
  constructor
  · intro h
    induction ns generalizing v with
    | nil => cases h; exact .here _
    | cons n ns ih =>
      unfold Code.getattrs at h
      split at h
      · rename_i u hu; exact .step hu (ih h)
      · cases h
  · intro h
    induction h with
    | here => rfl
    | step h _ ih => unfold Code.getattrs; rw [h]; exact ih

theorem load_gives {m a t : String} {ts ns : List String} {v : Val} (hi : L.importFails m = none) (hm : Dotted m (t :: ts))
    (ha : Dotted a ns) (h : Attr L (L.sysModule t) ns v) : Code.load L (some m) a = .ok v := by
  unfold Code.load
  simp only [hi, splitDots_dotted hm, splitDots_dotted ha, List.headD_cons, attr_iff.2 h]

theorem load_lacks {m a t : String} {ts ns : List String} (hi : L.importFails m = none) (hm : Dotted m (t :: ts))
    (ha : Dotted a ns) (h : ∀ v, ¬ Attr L (L.sysModule t) ns v) :
    Code.load L (some m) a = .error (.typeError ("Unable to resolve " ++ t ++ "." ++ a ++ "\n")) := by
  unfold Code.load
  have : Code.getattrs L (L.sysModule t) ns = none := by
    cases hg : Code.getattrs L (L.sysModule t) ns with
    | none => rfl
    | some v => exact absurd (attr_iff.1 hg) (h v)
  simp only [hi, splitDots_dotted hm, splitDots_dotted ha, List.headD_cons, this]

/-! ## `field.map` -/

/-- What `Code` makes of a text: a value or what is wrong. -/
def outcome (L : Lib) (x : String) : Except String Val :=
  if Code.inlineMatch x then
    match Code.compile L x with
    | .ok v => .ok v
    | .error e => .error e.str
  else match Code.importMatch L x with
    | some (n, a) => match Code.load L n a with
      | .ok v => .ok v
      | .error e => .error e.str
    | none => .error ("\"" ++ x ++ "\" does not match import pattern \"" ++ Code.patternText ++ "\" and is not a code block")

theorem parse_text {x : String} (hk : f.kind = .code) (hx : (I.primitive .auto (asked I q)).1 = .ok (.str x)) (env : Env) (τ : TSt P)
    (hp : τ.path = some (some (r, asked I q))) :
    Lex.kindParse I L noClasses (Lex.mapField I L noClasses 0) f env τ =
      (match outcome L x with
      | .ok v => (T.pure v : T P Val)
      | .error msg => Lex.failWith I msg) env { τ with path := some (some (r, (I.primitive .auto (asked I q)).2)) } := by
  unfold Lex.kindParse
  rw [hk]
  simp only
  unfold Lex.codeParse
  rw [T.onPath_eq hp hx]
  unfold outcome
  simp only
  cases Code.inlineMatch x with
  | true =>
    simp only [if_true]
    cases Code.compile L x <;> rfl
  | false =>
    simp only [Bool.false_eq_true, if_false]
    cases Code.importMatch L x with
    | none => rfl
    | some m =>
      obtain ⟨n, a⟩ := m
      simp only
      cases Code.load L n a <;> rfl

end Naming

/-- What the theorems are about: a `Code` field without hooks whose source has the text `x`. -/
structure CodeSpot (I : PathOps P) (W : LawfulPath I) (f : Field) (s : St P) (r : Nat) (q : P) (text : String) (b : ErrBuf)
    (x : String) : Prop where
  spot : Spot I W f s r q text b
  free : HookFree f
  kind : f.kind = .code
  attach : f.core.attachParent = false
  present : Present I q
  value : (I.primitive .auto (asked I q)).1 = .ok (.str x)

/-- A value the field lets pass. -/
structure Passes (f : Field) (v : Val) : Prop where
  trans : f.core.translations = []
  mark : v.isIgnore = false
  null : v.isNull = false
  ignored : v.inList f.core.ignores = false

namespace Naming

theorem code_ok {x : String} {v : Val} (sp : CodeSpot I W f s r q text b x) (h : outcome L x = .ok v) (hv : Passes f v) :
    Accepts (mapFieldF I L C rec f .NONE) s v := by
  have hleaf : f.kind.leaf = true := by rw [sp.kind]; rfl
  refine sp.spot.accepts sp.free hleaf sp.attach (starts_accept sp.free sp.spot.wf sp.present hv.trans hv.mark hv.ignored
    (W.primitive_keys (ty := .auto) (asked_same sp.spot.wf).wf) ?_ ?_)
  · intro τ hp
    rw [parse_text sp.kind sp.value _ _ hp, h]
    rfl
  · intro τ _ _
    rw [kindValidate_nonnull hv.null, sp.kind]
    rfl

theorem code_bad {x msg : String} (sp : CodeSpot I W f s r q text b x) (h : outcome L x = .error msg) :
    Adds (mapFieldF I L C rec f .NONE) s .ERROR { kind := .invalid msg, path := text, field := f.name, pathRef := some r } := by
  have hleaf : f.kind.leaf = true := by rw [sp.kind]; rfl
  have hs := W.primitive_keys (ty := .auto) (asked_same sp.spot.wf).wf
  refine sp.spot.adds sp.free hleaf sp.attach (starts_fail sp.free sp.spot.wf sp.present hs ?_)
  intro τ hp hb
  rw [parse_text sp.kind sp.value _ _ hp, h]
  exact failWith_run (τ := { τ with path := some (some (r, (I.primitive .auto (asked I q)).2)) }) _ rfl
    (by rw [Same.render hs (asked_same sp.spot.wf).wf, Same.render (asked_same sp.spot.wf) sp.spot.wf, sp.spot.text]) hb
    sp.spot.collect (innerEnv_field _ _)

theorem outcome_pair (hR : Regular L) {m a rest : String} (hm : Name L m) (ha : Name L a) (hr : Breaks L rest)
    (hn : '\n' ∉ rest.toList) : outcome L (m ++ ":" ++ a ++ rest) = match Code.load L (some m) a with
      | .ok v => .ok v
      | .error e => .error e.str := by
  have h1 : '\n' ∉ (m ++ ":" ++ a ++ rest).toList := by
    simp only [String.toList_append, List.mem_append]
    rintro (((h | h) | h) | h)
    · exact newline_not hR (hm.letters _ h)
    · revert h; decide
    · exact newline_not hR (ha.letters _ h)
    · exact hn h
  unfold outcome
  rw [inline_not h1, match_pair hR hm ha hr]
  rfl

theorem breaks_nil : Breaks L "" := by intro c cs h; cases h

end Naming

/-! ## C84: names -/

/-- C84, except for modules in packages: the text `module:attr` with a module name without dots gives what `attr` leads to from
that module.  What is missing: `C84_dotted_counterexample`. -/
theorem C84_partial (hR : Regular L) {m a : String} {ns : List String} {v : Val} (sp : CodeSpot I W f s r q text b (m ++ ":" ++ a))
    (hm : Name L m) (hd : '.' ∉ m.toList) (ha : Name L a) (hns : Dotted a ns) (hi : L.importFails m = none)
    (h : Attr L (L.sysModule m) ns v) (hv : Passes f v) : Accepts (mapFieldF I L C rec f .NONE) s v := by
  refine code_ok sp ?_ hv
  have := outcome_pair hR hm ha (rest := "") breaks_nil (by simp)
  rw [String.append_empty] at this
  rw [this, load_gives hi (t := m) (ts := []) ⟨String.intercalate_singleton.symm, by simp, by simpa using hd⟩ hns h]

/-- C84. A module without that attribute: the error names both. -/
theorem C84_lacks_partial (hR : Regular L) {m a : String} {ns : List String} (sp : CodeSpot I W f s r q text b (m ++ ":" ++ a))
    (hm : Name L m) (hd : '.' ∉ m.toList) (ha : Name L a) (hns : Dotted a ns) (hi : L.importFails m = none)
    (h : ∀ v, ¬ Attr L (L.sysModule m) ns v) :
    Adds (mapFieldF I L C rec f .NONE) s .ERROR
      { kind := .invalid ("Unable to resolve " ++ m ++ "." ++ a ++ "\n"), path := text, field := f.name, pathRef := some r } := by
  refine code_bad sp ?_
  have := outcome_pair hR hm ha (rest := "") breaks_nil (by simp)
  rw [String.append_empty] at this
  rw [this, load_lacks hi (t := m) (ts := []) ⟨String.intercalate_singleton.symm, by simp, by simpa using hd⟩ hns h]
  rfl

/-- C84. A module that cannot be imported (with dots or not): the error says what the import said. -/
theorem C84_import (hR : Regular L) {m a : String} {e : Exc} (sp : CodeSpot I W f s r q text b (m ++ ":" ++ a))
    (hm : Name L m) (ha : Name L a) (hi : L.importFails m = some e) :
    Adds (mapFieldF I L C rec f .NONE) s .ERROR { kind := .invalid e.str, path := text, field := f.name, pathRef := some r } := by
  refine code_bad sp ?_
  have := outcome_pair hR hm ha (rest := "") breaks_nil (by simp)
  rw [String.append_empty] at this
  rw [this]
  unfold Code.load
  simp only [hi]

/-- What the code does with a module in a package `t`: it looks the attribute up in the package, not in the module. -/
theorem C84_dotted (hR : Regular L) {m a t : String} {ts ns : List String} {v : Val}
    (sp : CodeSpot I W f s r q text b (m ++ ":" ++ a)) (hm : Name L m) (hd : Dotted m (t :: ts)) (ha : Name L a) (hns : Dotted a ns)
    (hi : L.importFails m = none) :
    (Attr L (L.sysModule t) ns v → Passes f v → Accepts (mapFieldF I L C rec f .NONE) s v) ∧
    ((∀ v, ¬ Attr L (L.sysModule t) ns v) → Rejects (mapFieldF I L C rec f .NONE) s f text r) := by
  have := outcome_pair hR hm ha (rest := "") breaks_nil (by simp)
  rw [String.append_empty] at this
  refine ⟨fun h hv => code_ok sp (by rw [this, load_gives hi hd hns h]) hv, fun h => ⟨_, code_bad sp (by
    rw [this, load_lacks hi hd hns h])⟩⟩

/-- What the code does with text after a name: it is as if it were not there. -/
theorem C84_trailing (hR : Regular L) {m a rest : String} {ns : List String} {v : Val}
    (sp : CodeSpot I W f s r q text b (m ++ ":" ++ a ++ rest)) (hm : Name L m) (hd : '.' ∉ m.toList) (ha : Name L a)
    (hr : Breaks L rest) (hn : '\n' ∉ rest.toList) (hns : Dotted a ns) (hi : L.importFails m = none)
    (h : Attr L (L.sysModule m) ns v) (hv : Passes f v) : Accepts (mapFieldF I L C rec f .NONE) s v := by
  refine code_ok sp ?_ hv
  rw [outcome_pair hR hm ha hr hn, load_gives hi (t := m) (ts := []) ⟨String.intercalate_singleton.symm, by simp, by simpa using hd⟩ hns h]

/-- C84. A name without a module is an error, whatever it is and whatever comes after it (the pattern has the module
optional): `rest` does not go on with the name, nor with a colon and another name, and has no line break. -/
theorem C84_no_module {a rest : String} (hR : Regular L) (sp : CodeSpot I W f s r q text b (a ++ rest)) (ha : Name L a)
    (hr : Breaks L rest) (hc : ∀ cs, rest.toList = ':' :: cs → Breaks L (String.ofList cs)) (hn : '\n' ∉ rest.toList) :
    Adds (mapFieldF I L C rec f .NONE) s .ERROR { kind := .invalid "__import__() argument 1 must be str, not None"
                                                  path := text
                                                  field := f.name
                                                  pathRef := some r } := by
  refine code_bad sp ?_
  have h1 : '\n' ∉ (a ++ rest).toList := by
    rw [String.toList_append, List.mem_append]
    rintro (h | h)
    · exact newline_not hR (ha.letters _ h)
    · exact hn h
  unfold outcome
  rw [inline_not h1, match_alone ha hr hc]
  rfl

/-- C84. Text that does not begin with a name and is no block of code is an error, which quotes it. -/
theorem C84_no_name {x : String} (sp : CodeSpot I W f s r q text b x) (hx : Breaks L x) (hn : '\n' ∉ x.toList) :
    Adds (mapFieldF I L C rec f .NONE) s .ERROR
      { kind := .invalid ("\"" ++ x ++ "\" does not match import pattern \"" ++
          "(?:(?P<module>[\\w\\.]+):)?(?P<attr>[\\w\\.]+)" ++ "\" and is not a code block")
        path := text
        field := f.name
        pathRef := some r } := by
  refine code_bad sp ?_
  unfold outcome
  rw [inline_not hn, match_none hx]
  rfl

/-- C84. Whatever the text, importing and running code raises nothing: it gives a value, or `ERROR` and one error.  (`Passes` rules
out that modules or what they hold are values the field has a use of its own for: null, ignored values and the marks.) -/
theorem C84_reported {x : String} (sp : CodeSpot I W f s r q text b x) (hn : ∀ ns, Passes f (L.newModule ns))
    (hm : ∀ m ns v, Attr L (L.sysModule m) ns v → Passes f v) :
    (∃ v, Accepts (mapFieldF I L C rec f .NONE) s v) ∨ Rejects (mapFieldF I L C rec f .NONE) s f text r := by
  cases h : outcome L x with
  | error msg => exact .inr ⟨msg, code_bad sp h⟩
  | ok v =>
    refine .inl ⟨v, code_ok sp h ?_⟩
    unfold outcome at h
    split at h
    · unfold Code.compile at h
      cases hp : L.py3 <;> simp only [hp, Bool.false_eq_true, if_false, if_true] at h
      · cases he : L.exec x with
        | error e => rw [he] at h; cases h
        | ok ns => rw [he] at h; cases h; exact hn _
      · cases he : L.execHere x with
        | some e => rw [he] at h; cases h
        | none => rw [he] at h; cases h; exact hn _
    · split at h
      · rename_i n a _
        cases n with
        | none => cases h
        | some n =>
          unfold Code.load at h
          cases hi : L.importFails n with
          | some e => simp only [hi] at h; cases h
          | none =>
            simp only [hi] at h
            cases hg : Code.getattrs L (L.sysModule ((Code.splitDots [] n.toList).headD "")) (Code.splitDots [] a.toList) with
            | none => rw [hg] at h; cases h
            | some w => rw [hg] at h; cases h; exact hm _ _ _ (attr_iff.1 hg)
      · cases h

/-- C84. A value that is no text is taken as it is. -/
theorem C84_value {v : Val} (sp : Spot I W f s r q text b) (hf : HookFree f) (hk : f.kind = .code)
    (ha : f.core.attachParent = false) (hp : Present I q) (h : (I.primitive .auto (asked I q)).1 = .ok v) (hs : ∀ x, v ≠ .str x)
    (hv : Passes f v) : Accepts (mapFieldF I L C rec f .NONE) s v := by
  have hleaf : f.kind.leaf = true := by rw [hk]; rfl
  refine sp.accepts hf hleaf ha (starts_accept hf sp.wf hp hv.trans hv.mark hv.ignored
    (W.primitive_keys (ty := .auto) (asked_same sp.wf).wf) ?_ ?_)
  · intro τ hp
    unfold Lex.kindParse
    rw [hk]
    simp only
    unfold Lex.codeParse
    rw [T.onPath_eq hp h]
    cases v <;> first | exact absurd rfl (hs _) | rfl
  · intro τ _ _
    rw [kindValidate_nonnull hv.null, hk]
    rfl

/-! ## C85: blocks of code -/

/-- C85, under Python 2: text with a line break in it is run, and gives a module with the names it binds.  What is missing:
`C85_python3`. -/
theorem C85_partial {x : String} {names : List (String × Val)} (hpy : L.py3 = false) (sp : CodeSpot I W f s r q text b x)
    (hx : '\n' ∈ x.toList) (h : L.exec x = .ok names) (hv : Passes f (L.newModule names)) :
    Accepts (mapFieldF I L C rec f .NONE) s (L.newModule names) := by
  refine code_ok sp ?_ hv
  unfold outcome
  rw [inline_iff.2 hx]
  unfold Code.compile
  simp only [hpy, h, if_true, Bool.false_eq_true, if_false]

/-- C85. Code that raises is an error, which says what was raised. -/
theorem C85_raises {x : String} {e : Exc} (sp : CodeSpot I W f s r q text b x) (hx : '\n' ∈ x.toList)
    (h : if L.py3 then L.execHere x = some e else L.exec x = .error e) :
    Adds (mapFieldF I L C rec f .NONE) s .ERROR { kind := .invalid e.str, path := text, field := f.name, pathRef := some r } := by
  refine code_bad sp ?_
  unfold outcome
  rw [inline_iff.2 hx]
  unfold Code.compile
  cases hp : L.py3 <;> rw [hp] at h <;> simp only [Bool.false_eq_true, if_false, if_true] at h ⊢ <;> rw [h]

/-- What the code does under Python 3: the module is empty, whatever the code binds. -/
theorem C85_python3 {x : String} (hpy : L.py3 = true) (sp : CodeSpot I W f s r q text b x) (hx : '\n' ∈ x.toList)
    (h : L.execHere x = none) (hv : Passes f (L.newModule [])) :
    Accepts (mapFieldF I L C rec f .NONE) s (L.newModule []) := by
  refine code_ok sp ?_ hv
  unfold outcome
  rw [inline_iff.2 hx]
  unfold Code.compile
  simp only [hpy, h, if_true]

/-! ## Examples, and where the code does not do it -/

namespace Demo

/-- A Python with the modules `os` (with `getcwd`, `name` and `path`) and `os.path` (with `join`).  Code binds the name `x`. -/
def world (py3 : Bool) : Lib := { lib with
  py3 := py3
  importFails := fun n => if n = "os" ∨ n = "os.path" then none else some (.other "ImportError" ("No module named " ++ n))
  sysModule := fun n => if n = "os" then .obj 1 else .obj 2
  attrs := fun v n =>
    match v with
    | .obj 1 => if n = "getcwd" then some (.func 3) else if n = "path" then some (.obj 2) else if n = "name" then some (.str "posix") else none
    | .obj 2 => if n = "join" then some (.func 4) else none
    | _ => none
  exec := fun c => if c = "x = 1\n" then .ok [("x", .int 1)] else .error (.other "SyntaxError" "invalid syntax")
  execHere := fun c => if c = "x = 1\n" then none else some (.other "SyntaxError" "invalid syntax")
  newModule := fun ns => .obj (10 + ns.length) }

theorem world_regular (py3 : Bool) : Regular (world py3) := ⟨rfl, rfl⟩

/-- `Code()` reading the text from a dict. -/
theorem codeSpot (py3 : Bool) (x : String) :
    CodeSpot (SPath.ops (world py3)) (SPath.lawful (world py3)) (field "a" .code)
      (here (SPath.ops (world py3)) (.dict [(.str "a", .str x)])) 0 (placeOf (.dict [(.str "a", .str x)]) "a") "a" ⟨false, []⟩ x where
  spot := here_spot _ _ _ rfl (by intro _ h; cases h)
  free := free _ _ (by intro _ _ _ _ _ h; cases h)
  kind := rfl
  attach := rfl
  present := (settled_dflt (v := .str x) rfl rfl).1.present rfl
  value := (settled_dflt (v := .str x) rfl rfl).2 .auto

theorem passes_plain {v : Val} (h : v.isIgnore = false) (hn : v.isNull = false) : Passes (field "a" .code) v := ⟨rfl, h, hn, rfl⟩

theorem letters (py3 : Bool) {x : String} (h : (x ≠ "" ∧ ∀ c ∈ x.toList, c.isAlphanum = true ∨ c = '.')) : Name (world py3) x := ⟨h.1, h.2⟩

end Demo

section
open Demo

/-- `os:path.join`. -/
example (rec : Rec SPath) : Accepts (mapFieldF (SPath.ops (world true)) (world true) classes rec (field "a" .code) .NONE)
    (here (SPath.ops (world true)) (.dict [(.str "a", .str "os:path.join")])) (.func 4) :=
  C84_partial (world_regular true) (m := "os") (a := "path.join") (ns := ["path", "join"]) (codeSpot true "os:path.join")
    (letters _ (by decide +kernel)) (by decide +kernel) (letters _ (by decide +kernel))
    ⟨by decide +kernel, by decide, by decide +kernel⟩ rfl (.step rfl (.step rfl (.here _))) (passes_plain rfl rfl)

/-- `os:nothing`. -/
example (rec : Rec SPath) : Adds (mapFieldF (SPath.ops (world true)) (world true) classes rec (field "a" .code) .NONE)
    (here (SPath.ops (world true)) (.dict [(.str "a", .str "os:nothing")])) .ERROR
    { kind := .invalid "Unable to resolve os.nothing\n", path := "a", field := some "a", pathRef := some 0 } :=
  C84_lacks_partial (world_regular true) (m := "os") (a := "nothing") (ns := ["nothing"]) (codeSpot true "os:nothing")
    (letters _ (by decide +kernel)) (by decide +kernel) (letters _ (by decide +kernel))
    ⟨by decide +kernel, by decide, by decide +kernel⟩ rfl (by rintro v (_ | ⟨h, _⟩); cases h)

/-- `nowhere.at:all`. -/
example (rec : Rec SPath) : Adds (mapFieldF (SPath.ops (world true)) (world true) classes rec (field "a" .code) .NONE)
    (here (SPath.ops (world true)) (.dict [(.str "a", .str "nowhere.at:all")])) .ERROR
    { kind := .invalid "No module named nowhere.at", path := "a", field := some "a", pathRef := some 0 } :=
  C84_import (world_regular true) (m := "nowhere.at") (a := "all") (codeSpot true "nowhere.at:all")
    (letters _ (by decide +kernel)) (letters _ (by decide +kernel)) rfl

/-- C84 is false for modules in packages: `os.path` can be imported and has `join`, but `os.path:join` is rejected; and
`os.path:name` is accepted, although `os.path` has no `name`: it gives that of `os`. -/
theorem C84_dotted_counterexample (rec : Rec SPath) :
    (world true).importFails "os.path" = none ∧
    Attr (world true) ((world true).sysModule "os.path") ["join"] (.func 4) ∧
    Rejects (mapFieldF (SPath.ops (world true)) (world true) classes rec (field "a" .code) .NONE)
      (here (SPath.ops (world true)) (.dict [(.str "a", .str "os.path:join")])) (field "a" .code) "a" 0 ∧
    (∀ v, ¬ Attr (world true) ((world true).sysModule "os.path") ["name"] v) ∧
    Accepts (mapFieldF (SPath.ops (world true)) (world true) classes rec (field "a" .code) .NONE)
      (here (SPath.ops (world true)) (.dict [(.str "a", .str "os.path:name")])) (.str "posix") := by
  refine ⟨rfl, .step rfl (.here _), ?_, ?_, ?_⟩
  · exact (C84_dotted (world_regular true) (m := "os.path") (a := "join") (t := "os") (ts := ["path"]) (ns := ["join"]) (v := .none)
      (codeSpot true "os.path:join") (letters _ (by decide +kernel)) ⟨by decide +kernel, by decide, by decide +kernel⟩
      (letters _ (by decide +kernel)) ⟨by decide +kernel, by decide, by decide +kernel⟩ rfl).2
      (by rintro v (_ | ⟨h, _⟩); cases h)
  · rintro v (_ | ⟨h, _⟩)
    cases h
  · exact (C84_dotted (world_regular true) (m := "os.path") (a := "name") (t := "os") (ts := ["path"]) (ns := ["name"])
      (v := .str "posix") (codeSpot true "os.path:name") (letters _ (by decide +kernel))
      ⟨by decide +kernel, by decide, by decide +kernel⟩ (letters _ (by decide +kernel))
      ⟨by decide +kernel, by decide, by decide +kernel⟩ rfl).1 (.step rfl (.here _)) (passes_plain rfl rfl)

/-- Text that is no name passes for the name it begins with: `os:getcwd() is not this`. -/
theorem C84_trailing_counterexample (rec : Rec SPath) :
    Accepts (mapFieldF (SPath.ops (world true)) (world true) classes rec (field "a" .code) .NONE)
      (here (SPath.ops (world true)) (.dict [(.str "a", .str "os:getcwd() is not this")])) (.func 3) :=
  C84_trailing (world_regular true) (m := "os") (a := "getcwd") (rest := "() is not this") (ns := ["getcwd"])
    (codeSpot true "os:getcwd() is not this") (letters _ (by decide +kernel)) (by decide +kernel) (letters _ (by decide +kernel))
    (by intro c cs h; have : c = '(' := by injection h with h1 _; exact h1.symm
        subst this; unfold Letter; decide +kernel) (by decide +kernel)
    ⟨by decide +kernel, by decide, by decide +kernel⟩ rfl (.step rfl (.here _)) (passes_plain rfl rfl)

example (rec : Rec SPath) : Rejects (mapFieldF (SPath.ops (world true)) (world true) classes rec (field "a" .code) .NONE)
    (here (SPath.ops (world true)) (.dict [(.str "a", .str "getcwd")])) (field "a" .code) "a" 0 :=
  ⟨_, C84_no_module (a := "getcwd") (rest := "") (world_regular true) (codeSpot true "getcwd") (letters _ (by decide +kernel)) breaks_nil
    (by intro cs h; cases h) (by decide +kernel)⟩

/-- A colon without a name after it. -/
example (rec : Rec SPath) : Rejects (mapFieldF (SPath.ops (world true)) (world true) classes rec (field "a" .code) .NONE)
    (here (SPath.ops (world true)) (.dict [(.str "a", .str "os:!")])) (field "a" .code) "a" 0 :=
  ⟨_, C84_no_module (a := "os") (rest := ":!") (world_regular true) (codeSpot true "os:!") (letters _ (by decide +kernel))
    (by intro c cs h; have : c = ':' := by injection h with h1 _; exact h1.symm
        subst this; unfold Letter; decide +kernel)
    (by intro cs h; have : cs = ['!'] := by injection h with _ h1; exact h1.symm
        subst this
        intro c cs h; have : c = '!' := by injection h with h1 _; exact h1.symm
        subst this; unfold Letter; decide +kernel)
    (by decide +kernel)⟩

example (rec : Rec SPath) : ∃ e, Adds (mapFieldF (SPath.ops (world true)) (world true) classes rec (field "a" .code) .NONE)
    (here (SPath.ops (world true)) (.dict [(.str "a", .str "!")])) .ERROR e :=
  ⟨_, C84_no_name (codeSpot true "!") (by
    intro c cs h
    have : c = '!' := by injection h with h1 _; exact h1.symm
    subst this; unfold Letter; decide +kernel) (by decide +kernel)⟩

/-- Values that are no text. -/
example (rec : Rec SPath) : Accepts (mapFieldF (SPath.ops (world true)) (world true) classes rec (field "a" .code) .NONE)
    (here (SPath.ops (world true)) (.dict [(.str "a", .func 7)])) (.func 7) :=
  C84_value (here_spot _ _ _ rfl (by intro _ h; cases h)) (free _ _ (by intro _ _ _ _ _ h; cases h)) rfl rfl
    ((settled_dflt (v := .func 7) rfl rfl).1.present rfl) ((settled_dflt (v := .func 7) rfl rfl).2 .auto) (by intro x h; cases h)
    (passes_plain rfl rfl)

/-- The modules of this Python and what they hold pass. -/
example (rec : Rec SPath) (x : String) :
    (∃ v, Accepts (mapFieldF (SPath.ops (world true)) (world true) classes rec (field "a" .code) .NONE)
      (here (SPath.ops (world true)) (.dict [(.str "a", .str x)])) v) ∨
    Rejects (mapFieldF (SPath.ops (world true)) (world true) classes rec (field "a" .code) .NONE)
      (here (SPath.ops (world true)) (.dict [(.str "a", .str x)])) (field "a" .code) "a" 0 := by
  refine C84_reported (codeSpot true x) (fun ns => passes_plain rfl rfl) ?_
  intro m ns v h
  have key : ∀ {v ns w}, Attr (world true) v ns w → (v = .obj 1 ∨ v = .obj 2 ∨ v = .func 3 ∨ v = .func 4 ∨ v = .str "posix") →
      (w = .obj 1 ∨ w = .obj 2 ∨ w = .func 3 ∨ w = .func 4 ∨ w = .str "posix") := by
    intro v ns w h
    induction h with
    | here => exact id
    | @step v u w n ns h _ ih =>
      intro hv
      refine ih ?_
      rcases hv with rfl | rfl | rfl | rfl | rfl
      · change (if n = "getcwd" then some (Val.func 3) else if n = "path" then some (.obj 2) else
          if n = "name" then some (.str "posix") else none) = some u at h
        split at h
        · cases h; simp
        · split at h
          · cases h; simp
          · split at h
            · cases h; simp
            · cases h
      · change (if n = "join" then some (Val.func 4) else none) = some u at h
        split at h
        · cases h; simp
        · cases h
      all_goals cases h
  have h0 : (world true).sysModule m = .obj 1 ∨ (world true).sysModule m = .obj 2 := by
    show (if m = "os" then Val.obj 1 else .obj 2) = _ ∨ (if m = "os" then Val.obj 1 else .obj 2) = _
    split <;> simp
  rcases key h (by rcases h0 with h | h <;> rw [h] <;> simp) with rfl | rfl | rfl | rfl | rfl <;> exact passes_plain rfl rfl

/-- C85: `x = 1`, under Python 2: a module with one name. -/
example (rec : Rec SPath) : Accepts (mapFieldF (SPath.ops (world false)) (world false) classes rec (field "a" .code) .NONE)
    (here (SPath.ops (world false)) (.dict [(.str "a", .str "x = 1\n")])) ((world false).newModule [("x", .int 1)]) :=
  C85_partial rfl (codeSpot false "x = 1\n") (by decide +kernel) rfl (passes_plain rfl rfl)

/-- C85 is false under Python 3: the same code gives another module, the empty one. -/
theorem C85_counterexample (rec : Rec SPath) : (world true).exec "x = 1\n" = .ok [("x", .int 1)] ∧
    Accepts (mapFieldF (SPath.ops (world true)) (world true) classes rec (field "a" .code) .NONE)
      (here (SPath.ops (world true)) (.dict [(.str "a", .str "x = 1\n")])) ((world true).newModule []) ∧
    (world true).newModule [] ≠ (world true).newModule [("x", .int 1)] :=
  ⟨rfl, C85_python3 rfl (codeSpot true "x = 1\n") (by decide +kernel) rfl (passes_plain rfl rfl), by intro h; cases h⟩

/-- A name and a line break is a block of code. -/
example (rec : Rec SPath) : Adds (mapFieldF (SPath.ops (world true)) (world true) classes rec (field "a" .code) .NONE)
    (here (SPath.ops (world true)) (.dict [(.str "a", .str "os:getcwd\n")])) .ERROR
    { kind := .invalid "invalid syntax", path := "a", field := some "a", pathRef := some 0 } :=
  C85_raises (codeSpot true "os:getcwd\n") (e := .other "SyntaxError" "invalid syntax") (by decide +kernel) rfl

end

end Pilo
