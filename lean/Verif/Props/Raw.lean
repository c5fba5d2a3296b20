import Verif.Props.Config
import Verif.ValEq

/-!
# C93: `preserve_whitespace` keeps the lines of a text as they are in the file
-/

namespace Pilo
namespace Config
variable {L : Lib}

/-! ## The specification -/

/-- A line that continues the text of an option: it is empty or begins with white-space. -/
def Continues (L : Lib) (l : String) : Prop := ∀ c cs, l.toList = c :: cs → L.isSpace c = true

/-- The text begins with `pre`. -/
def Begins (s pre : String) : Prop := ∃ t, s.toList = pre.toList ++ t

/-- In the file, under the first header of the section, the first line that begins with the name of the option is
followed by the lines `body`, and those by the end of the file or by a line that does not continue them. -/
def Written (L : Lib) (raw : List String) (sec option : String) (body : List String) : Prop :=
  ∃ pre header mid line rest, raw = pre ++ header :: (mid ++ line :: (body ++ rest)) ∧
    L.strip header = "[" ++ sec ++ "]" ∧ (∀ l ∈ pre, L.strip l ≠ "[" ++ sec ++ "]") ∧
    Begins (L.strip line) option ∧ (∀ l ∈ mid, ¬ Begins (L.strip l) option) ∧
    (∀ l ∈ body, Continues L l) ∧ (∀ l ls, rest = l :: ls → ¬ Continues L l)

/-! ## The lines collected -/

theorem startsWith_iff {s pre : String} : startsWith s pre = true ↔ Begins s pre := by
  unfold startsWith Begins
  rw [List.isPrefixOf_iff_prefix]
  constructor
  · rintro ⟨t, h⟩; exact ⟨t, h.symm⟩
  · rintro ⟨t, h⟩; exact ⟨t, h.symm⟩

theorem continues_iff {l : String} :
    (match l.toList with | [] => true | c :: _ => L.isSpace c) = true ↔ Continues L l := by
  unfold Continues
  cases h : l.toList with
  | nil => simp
  | cons c cs =>
    constructor
    · intro hc c' cs' he; cases he; exact hc
    · intro hc; exact hc c cs rfl

theorem dropWhile_past {p : String → Bool} : ∀ {a : List String} {x : String} {b : List String}, (∀ l ∈ a, p l = true) →
    p x = false → (a ++ x :: b).dropWhile p = x :: b
  | [], x, b, _, hx => by rw [List.nil_append, List.dropWhile_cons_of_neg (by simp [hx])]
  | y :: a, x, b, ha, hx => by
    rw [List.cons_append, List.dropWhile_cons_of_pos (ha y (by simp))]
    exact dropWhile_past (fun l hl => ha l (by simp [hl])) hx

theorem takeWhile_upto {p : String → Bool} : ∀ {a b : List String}, (∀ l ∈ a, p l = true) →
    (∀ l ls, b = l :: ls → p l = false) → (a ++ b).takeWhile p = a
  | [], [], _, _ => rfl
  | [], y :: b, _, hb => by rw [List.nil_append, List.takeWhile_cons_of_neg (by simp [hb y b rfl])]
  | y :: a, b, ha, hb => by
    rw [List.cons_append, List.takeWhile_cons_of_pos (ha y (by simp))]
    rw [takeWhile_upto (fun l hl => ha l (by simp [hl])) hb]

theorem asRawLines_written {raw : List String} {sec option : String} {body : List String}
    (h : Written L raw sec option body) : asRawLines L raw ("[" ++ sec ++ "]") option = body := by
  obtain ⟨pre, header, mid, line, rest, rfl, h1, h2, h3, h4, h5, h6⟩ := h
  unfold asRawLines
  dsimp only
  rw [dropWhile_past (fun l hl => by simpa using h2 l hl) (by simpa using h1)]
  rw [List.drop_succ_cons, List.drop_zero,
    dropWhile_past (fun l hl => by
      have := h4 l hl
      rw [← startsWith_iff] at this
      simpa using this) (by
      have := startsWith_iff.2 h3
      simpa using this)]
  rw [List.drop_succ_cons, List.drop_zero]
  refine takeWhile_upto (fun l hl => continues_iff.2 (h5 l hl)) ?_
  exact fun l ls hl => Bool.eq_false_iff.2 fun hh => h6 l ls hl (continues_iff.1 hh)

/-! ## C93 -/

theorem primitive_after (hL : Sane L) {cfg : ConfigCfg} {sec : String} (h : cfg.sectionName = some sec) (hs : sec ≠ "")
    {ops : List PathOp} {s t : String} (hk : histKeys ops = [.str s])
    (ht : Entry L (cfg.data.items sec) cfg.defaults s (.str t)) (ty : PTy) :
    (SPath.primitive L ty (after L cfg ops)).1 = SPath.cfgPrimitive L cfg [.str s] ty (.val (.str t)) := by
  obtain ⟨v, h1, h2⟩ := section_entry hL cfg.data sec cfg.defaults s cfg rfl
  obtain rfl := h2.str ht
  have := ((FineCfg.hist (L := L) (cfg := cfg) ops).withValue
    (L := L) (fun _ _ v => parseNative L ty v) (fun strict v => parseJson L strict ty v)
      (fun cfg ks v => SPath.cfgPrimitive L cfg ks ty v)).1
  unfold after SPath.primitive
  rw [this, hk, rootVal_section h hs]
  simp only [PathSt.spec, Val.isIntLike, Val.isStr, List.all_cons, List.all_nil, Bool.or_true, Bool.and_self, if_true,
    PathSt.follow, h1]

/-- C93 (the text the option has on its own line, option names that are prefixes of others, options of sub-mappings and
sources without a section are not covered: see the counterexamples). On a config source with a section and
`preserve_whitespace`, the text of an option that spans lines reads, after any history, as those lines of the file that
follow the line of the option, dedented. -/
theorem C93_text_partial (hL : Sane L) {cfg : ConfigCfg} {sec : String} (h : cfg.sectionName = some sec) (hs : sec ≠ "")
    (hp : cfg.preserveWhitespace = true) {ops : List PathOp} {s t : String} (hk : histKeys ops = [.str s])
    (ht : Entry L (cfg.data.items sec) cfg.defaults s (.str t)) (hn : '\n' ∈ t.toList) {body : List String}
    (hb : Written L cfg.raw sec s body) {ty : PTy} (hty : ty = .str ∨ ty = .auto) :
    (SPath.primitive L ty (after L cfg ops)).1 = .ok (.str (L.dedent (String.join body))) := by
  rw [primitive_after hL h hs hk ht]
  have hc : t.toList.contains '\n' = true := by simpa using hn
  have h2 := asRawLines_written hb
  rcases hty with rfl | rfl
  all_goals
    unfold SPath.cfgPrimitive
    dsimp only [CfgVal.toVal, parseNative, asString]
    rw [hp, hc]
    dsimp only [Bool.and_true, List.getLast?_singleton]
    simp only [Bool.and_self, if_true, h, Option.getD_some, h2]

/-- C93. A text of one line, and every text without `preserve_whitespace`, reads as the parser of the configuration gave
it. -/
theorem C93_line (hL : Sane L) {cfg : ConfigCfg} {sec : String} (h : cfg.sectionName = some sec) (hs : sec ≠ "")
    {ops : List PathOp} {s t : String} (hk : histKeys ops = [.str s])
    (ht : Entry L (cfg.data.items sec) cfg.defaults s (.str t)) (hn : cfg.preserveWhitespace = false ∨ '\n' ∉ t.toList)
    {ty : PTy} (hty : ty = .str ∨ ty = .auto) :
    (SPath.primitive L ty (after L cfg ops)).1 = .ok (.str t) := by
  rw [primitive_after hL h hs hk ht]
  have hc : (cfg.preserveWhitespace && t.toList.contains '\n') = false := by
    rcases hn with hn | hn
    · rw [hn]; rfl
    · have : t.toList.contains '\n' = false := by simpa using hn
      rw [this, Bool.and_false]
  rcases hty with rfl | rfl
  all_goals
    unfold SPath.cfgPrimitive
    dsimp only [CfgVal.toVal, parseNative, asString]
    rw [hc]
    rfl

/-- C93. Numbers and booleans read the same with `preserve_whitespace` as without. -/
theorem C93_other (hL : Sane L) {cfg : ConfigCfg} {sec : String} (h : cfg.sectionName = some sec) (hs : sec ≠ "")
    {ops : List PathOp} {s t : String} (hk : histKeys ops = [.str s])
    (ht : Entry L (cfg.data.items sec) cfg.defaults s (.str t)) {ty : PTy} (hty : ty = .int ∨ ty = .float ∨ ty = .bool)
    (b : Bool) :
    (SPath.primitive L ty (after L { cfg with preserveWhitespace := b } ops)).1 =
      (SPath.primitive L ty (after L cfg ops)).1 := by
  rw [primitive_after hL h hs hk ht, primitive_after (cfg := { cfg with preserveWhitespace := b }) hL h hs hk ht]
  have key : ∀ u, parseNative L ty (.str t) = .ok u → ∀ x, u ≠ .str x := by
    intro u hu x hx
    subst hx
    rcases hty with rfl | rfl | rfl
    · simp only [parseNative, asInt] at hu
      split at hu <;> cases hu
    · simp only [parseNative, asFloat] at hu
      split at hu <;> cases hu
    · simp only [parseNative, asBool] at hu
      repeat' split at hu
      all_goals cases hu
  unfold SPath.cfgPrimitive
  dsimp only [CfgVal.toVal]
  cases hu : parseNative L ty (.str t) with
  | error e => rfl
  | ok u =>
    cases u with
    | str x => exact (key _ hu x rfl).elim
    | _ => rfl

/-! ## Examples -/

namespace Ex

/-- Strip white-space, the ends of lines included. -/
def rawLib : Lib := { lib with
  strip := fun s => String.ofList ((s.toList.dropWhile Char.isWhitespace).reverse.dropWhile Char.isWhitespace).reverse }

theorem rawSane : Sane rawLib := by constructor <;> decide +kernel

/-- ```
[other]
text =
  no

[sec]
name = x
text =
  p q

    r
last = y
``` -/
def rawCfg : ConfigCfg where
  data := ⟨[("other", [("text", "\nno")]), ("sec", [("name", "x"), ("text", "\np q\n\nr"), ("last", "y")])]⟩
  sectionName := some "sec"
  preserveWhitespace := true
  raw := ["[other]\n", "text =\n", "  no\n", "\n", "[sec]\n", "name = x\n", "text =\n", "  p q\n", "\n", "    r\n",
    "last = y\n"]

/-- Read as text. -/
def read (cfg : ConfigCfg) (ks : List Val) : Except Exc Val :=
  (SPath.primitive rawLib .str (after rawLib cfg (ks.map PathOp.append))).1

example : Written rawLib rawCfg.raw "sec" "text" ["  p q\n", "\n", "    r\n"] := by
  refine ⟨["[other]\n", "text =\n", "  no\n", "\n"], "[sec]\n", ["name = x\n"], "text =\n", ["last = y\n"], rfl,
    by decide +kernel, by decide +kernel, ⟨" =".toList, by decide +kernel⟩, ?_, ?_, ?_⟩
  · intro l hl
    rw [← startsWith_iff]
    revert l
    decide +kernel
  · intro l hl
    rw [← continues_iff]
    revert l
    decide +kernel
  · rintro l ls ⟨⟩
    rw [← continues_iff]
    decide +kernel
example : read rawCfg [.str "text"] = .ok (.str "  p q\n\n    r\n") := by decide +kernel
example : read rawCfg [.str "name"] = .ok (.str "x") := by decide +kernel

/-- The first line of the text is on the line of the option. -/
def ownLine : ConfigCfg where
  data := ⟨[("sec", [("a", "p\nq")])]⟩
  sectionName := some "sec"
  preserveWhitespace := true
  raw := ["[sec]\n", "a = p\n", "  q\n"]

/-- C93 is false of the text on the line of the option: it is dropped. -/
theorem C93_own_line_counterexample : read { ownLine with preserveWhitespace := false } [.str "a"] = .ok (.str "p\nq") ∧
    read ownLine [.str "a"] = .ok (.str "  q\n") := by decide +kernel

/-- An option whose name begins with the name of a later one. -/
def prefixed : ConfigCfg where
  data := ⟨[("sec", [("ab", "\nwrong"), ("a", "\nright")])]⟩
  sectionName := some "sec"
  preserveWhitespace := true
  raw := ["[sec]\n", "ab =\n", "  wrong\n", "a =\n", "  right\n"]

/-- C93 is false of an option whose name is a prefix of an earlier one: it reads as the earlier one. -/
theorem C93_prefix_counterexample : read { prefixed with preserveWhitespace := false } [.str "a"] = .ok (.str "\nright") ∧
    read prefixed [.str "a"] = .ok (.str "  wrong\n") := by decide +kernel

/-- A sub-mapping with a text of several lines. -/
def subText : ConfigCfg where
  data := ⟨[("sec", [("host[a]", "\nright")])]⟩
  sectionName := some "sec"
  preserveWhitespace := true
  raw := ["[sec]\n", "host[a] =\n", "  right\n"]

/-- C93 is false of the options of a sub-mapping: only their key is looked for, and the text is lost. -/
theorem C93_sub_counterexample :
    read { subText with preserveWhitespace := false } [.str "host", .str "a"] = .ok (.str "\nright") ∧
    read subText [.str "host", .str "a"] = .ok (.str "") := by decide +kernel

/-- C93 is false of a source without a section: `[None]` is looked for, and the text is lost. -/
theorem C93_section_counterexample :
    read { rawCfg with sectionName := none, defaults := some [], preserveWhitespace := false } [.str "sec", .str "text"] =
      .ok (.str "\np q\n\nr") ∧
    read { rawCfg with sectionName := none, defaults := some [] } [.str "sec", .str "text"] = .ok (.str "") := by decide +kernel

end Ex
end Config
end Pilo
