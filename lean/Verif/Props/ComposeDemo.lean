import Verif.Props.Compose
import Verif.Props.AnywhereDemo

/-!
# Examples for C50
-/

namespace Pilo
open Demo

namespace Demo

/-- `g = SubForm(G)`, where `G` has a subform `f` and a list `xs`. -/
def fieldG : Field := field "g" (.subform 1 false (.str .ignore))

/-- The second level of a document. -/
def docDeep : Val := .dict [(.str "g", docBad)]

/-- What the field gives and the kinds and paths of the errors then recorded. -/
def told (r : Except Exc Val × St Path) : Except Exc Val × Option (List (ErrKind × String)) :=
  (r.1, (curErrs r.2).map fun b => b.items.map fun e => (e.kind, e.path))

end Demo

theorem Demo.fieldG_free : HookFree fieldG := hookFree_plain (by intro _ _ _ _ _ h; cases h)

/-- The hypotheses are met: `G` inside a document and on its own. -/
example := C50_data_partial (L := lib) (C := table) (table_mono.imp fun _ => Mono.single) 10 fieldG_free
    (cls := 1) (reset := false) (u := .str .ignore) rfl .str (.inr (.inl rfl)) rfl rfl rfl (s := here (Path.ops lib) docDeep) (s' := holding 0 [])
    (r := 0) (a := {}) (st := { root := docDeep, parts := [] }) (b := ⟨false, []⟩) (kvs := [(.str "f", .dict [(.str "a", .str "x")])])
    (here_inv _ _) (here_live _) (holding_live _ _) rfl rfl rfl rfl
    (by intro k hk; simp [PathSt.keys, PathSt.append, fieldG, field, Field.core] at hk; subst hk; rfl)
    (by decide +kernel) rfl rfl rfl rfl

/-- What the two give: the same errors, with `g` in front. -/
example : told (mapField (Path.ops lib) lib table 11 fieldG .NONE (here (Path.ops lib) docDeep)) =
    (.ok .ERROR, some [(.invalid "\"x\" is not an integer", "g.f.a"), (.missing, "g.xs")]) := by decide +kernel
example : (after ((newForm 1 >>= fun id => Form.map (Path.ops lib) lib table 10 id (.data docBad) [] false (.str .ignore) false)
      (holding 0 [])) []).1 = .ok [(.invalid "\"x\" is not an integer", "f.a"), (.missing, "xs")] := by decide +kernel

/-- The value at the key is not a mapping: mapping raises, the field reports. -/
example : told (mapField (Path.ops lib) lib table 11 fieldG .NONE (here (Path.ops lib) (.dict [(.str "g", .int 3)]))) =
    (.ok .ERROR, some [(.invalid "is not a mapping", "g")]) := by decide +kernel

/-! ### A polymorphic field inside -/

namespace Demo

/-- `kind`, the identity of a pet. -/
def kindF : Field := field "kind" (.string {})

/-- `class Owner: pet = PolymorphicSubForm(Pet.kind)`, with the probe and `class Cat(Pet): lives = Integer()`. -/
def pets : Classes
  | 0 => { fields := [field "pet" (.poly kindF 1 [(.str "cat", 2)] false (.str .ignore))] }
  | 1 => { fields := [kindF] }
  | 2 => { fields := [kindF, field "lives" (.integer {})] }
  | _ => { fields := [] }

/-- `owner = SubForm(Owner)`. -/
def ownerF : Field := field "owner" (.subform 0 false (.str .ignore))

theorem kindF_all : kindF.All HookFree := .mk (hookFree_plain (by intro _ _ _ _ _ h; cases h)) .string

theorem pets_free : pets.All HookFree := by
  intro c f hf
  match c, hf with
  | 0, hf =>
    simp only [pets, List.mem_singleton] at hf
    subst hf
    exact .mk (hookFree_plain (by intro _ _ _ _ _ h; cases h)) (.poly kindF_all .str)
  | 1, hf =>
    simp only [pets, List.mem_singleton] at hf
    subst hf
    exact kindF_all
  | 2, hf =>
    simp only [pets, List.mem_cons, List.not_mem_nil, or_false] at hf
    rcases hf with rfl | rfl
    · exact kindF_all
    · exact .mk (hookFree_plain (by intro _ _ _ _ _ h; cases h)) .integer
  | n + 3, hf => simp [pets] at hf

theorem pets_single : pets.All Single := by
  have hk : kindF.All Single := .mk ⟨(hookFree_plain (by intro _ _ _ _ _ h; cases h)).calm, trivial⟩ .string
  intro c f hf
  match c, hf with
  | 0, hf =>
    simp only [pets, List.mem_singleton] at hf
    subst hf
    exact .mk ⟨(hookFree_plain (by intro _ _ _ _ _ h; cases h)).calm, rfl, (hookFree_plain (by intro _ _ _ _ _ h; cases h)).wordless⟩ (.poly hk .str)
  | 1, hf =>
    simp only [pets, List.mem_singleton] at hf
    subst hf
    exact hk
  | 2, hf =>
    simp only [pets, List.mem_cons, List.not_mem_nil, or_false] at hf
    rcases hf with rfl | rfl
    · exact hk
    · exact .mk ⟨(hookFree_plain (by intro _ _ _ _ _ h; cases h)).calm, trivial⟩ .integer
  | n + 3, hf => simp [pets] at hf

/-- An owner of a cat without lives. -/
def docOwner : Val := .dict [(.str "pet", .dict [(.str "kind", .str "cat")])]

end Demo

theorem Demo.ownerF_free : HookFree ownerF := hookFree_plain (by intro _ _ _ _ _ h; cases h)

/-- The hypotheses are met with a polymorphic field in the class. -/
example := C50_compositional_partial (L := lib) (C := pets) pets_single 10 ownerF_free
    (cls := 0) (reset := false) (u := .str .ignore) rfl .str (.inr (.inl rfl)) rfl rfl rfl
    (s := here (Path.ops lib) (.dict [(.str "owner", docOwner)])) (s' := holding 0 [])
    (r := 0) (p := .dflt {} { root := .dict [(.str "owner", docOwner)], parts := [] })
    (q := .dflt {} { root := docOwner, parts := [] }) (b := ⟨false, []⟩) (v := docOwner)
    (here_inv _ _) (here_live _) (holding_live _ _) rfl rfl rfl
    (by intro k hk; simp [SPath.keys, SPath.append, PathSt.keys, PathSt.append, ownerF, field, Field.core] at hk; subst hk; rfl)
    (by decide +kernel) rfl rfl (.dflt ⟨rfl, fun _ _ => rfl⟩) rfl rfl rfl rfl

/-- A cat without lives, and a pet of an unknown kind: the identity was probed, and the errors are as they are on
their own, with `owner` in front. -/
example : told (mapField (Path.ops lib) lib pets 11 ownerF .NONE (here (Path.ops lib) (.dict [(.str "owner", docOwner)]))) =
    (.ok .ERROR, some [(.missing, "owner.pet.lives")]) := by decide +kernel
example : (after ((newForm 0 >>= fun id => Form.map (Path.ops lib) lib pets 10 id (.data docOwner) [] false (.str .ignore) false)
      (holding 0 [])) []).1 = .ok [(.missing, "pet.lives")] := by decide +kernel
example : told (mapField (Path.ops lib) lib pets 11 ownerF .NONE (here (Path.ops lib)
      (.dict [(.str "owner", .dict [(.str "pet", .dict [])])]))) =
    (.ok .ERROR, some [(.invalid "kind - missing", "owner.pet")]) := by decide +kernel
example : (after ((newForm 0 >>= fun id => Form.map (Path.ops lib) lib pets 10 id (.data (.dict [(.str "pet", .dict [])])) []
      false (.str .ignore) false) (holding 0 [])) []).1 = .ok [(.invalid "kind - missing", "pet")] := by decide +kernel

/-! ### A section of a configuration -/

namespace Demo

/-- A context with the current path `p`. -/
def reading (p : Path) : St Path := { here (Path.ops lib) .none with paths := [p] }

theorem reading_inv {p : Path} (hp : (Path.lawful lib).WF p) : Inv (Path.lawful lib) (reading p) :=
  { wf := by intro q hq; simp [reading] at hq; subst hq; exact hp
    seg := by simp [reading, here, SegOK, rootFrame]
    nodup := by simp [reading, here, srcRefs, rootFrame]
    root := ⟨rootFrame, rfl, rfl⟩ }

theorem reading_live (p : Path) : Live (reading p) where
  root := (here_live (I := Path.ops lib) .none).root
  path := (here_live (I := Path.ops lib) .none).path
  errs := (here_live (I := Path.ops lib) .none).errs
  ids := (here_live (I := Path.ops lib) .none).ids

/-- A file `f.ini` with `[g]`, `f[a] = x`, and a default for `g`. -/
def ini : ConfigCfg where
  data := ⟨[("g", [("f[a]", "x")])]⟩
  location := some "f.ini"
  defaults := some [(.str "g", .dict [(.str "xs", .list [.int 1, .str "y"])])]

/-- `ConfigSource(config, 'g', location='g.ini', defaults={'xs': [1, 'y']})`. -/
def iniG : ConfigCfg where
  data := ini.data
  sectionName := some "g"
  location := some "g.ini"
  defaults := some [(.str "xs", .list [.int 1, .str "y"])]

/-- Whether a section was found. -/
def isSect (s : String) (d : Option (List (Val × Val))) : Except Exc CfgVal → Bool
  | .ok (.sect t e) => decide (t = s) && decide (e = d)
  | _ => false

theorem isSect_eq {s : String} {d : Option (List (Val × Val))} : {r : Except Exc CfgVal} → isSect s d r = true →
    r = .ok (.sect s d)
  | .ok (.sect t e), h => by
    simp only [isSect, Bool.and_eq_true, decide_eq_true_eq] at h
    rw [h.1, h.2]
  | .ok .root, h => by cases h
  | .ok (.val _), h => by cases h
  | .error _, h => by cases h

def iniPath (c : ConfigCfg) : SPath := .config c { root := c.rootVal, parts := [] }

theorem iniPath_wf {c : ConfigCfg} : (Path.lawful lib).WF (.base (.simple (iniPath c))) := by
  show ∀ q ∈ ([] : List (Part CfgVal)), q.raw = !(q.key.isIntLike || q.key.isStr)
  intro q hq; cases hq

end Demo

/-- The hypotheses are met: `G` from a configuration and from its section. -/
example := C50_compositional_partial (L := lib) (C := table) (table_mono.imp fun _ => Mono.single) 10 fieldG_free
    (cls := 1) (reset := false) (u := .str .ignore) rfl .str (.inr (.inl rfl)) rfl rfl rfl
    (s := reading (.base (.simple (iniPath ini)))) (s' := holding 0 [])
    (r := 0) (p := iniPath ini) (q := iniPath iniG) (b := ⟨false, []⟩) (v := .obj 1)
    (reading_inv iniPath_wf) (reading_live _) (holding_live _ _) rfl rfl rfl
    (by intro k hk; simp [iniPath, SPath.keys, SPath.append, PathSt.keys, PathSt.append, fieldG, field, Field.core] at hk; subst hk; rfl)
    (by decide +kernel) rfl rfl (.config ⟨rfl, rfl, rfl⟩ rfl (by decide) (isSect_eq (by decide +kernel))) rfl rfl rfl rfl

/-- What the two give. -/
example : told (mapField (Path.ops lib) lib table 11 fieldG .NONE (reading (.base (.simple (iniPath ini))))) =
    (.ok .ERROR, some [(.invalid "\"x\" is not an integer", "f.ini:g.f.a"), (.invalid "\"y\" is not an integer", "f.ini:g.xs[1]")]) := by decide +kernel
example : (after ((newForm 1 >>= fun id => Form.map (Path.ops lib) lib table 10 id (.source (.ok (.base (.simple (iniPath iniG))))) []
      false (.str .ignore) false) (holding 0 [])) []).1 =
    .ok [(.invalid "\"x\" is not an integer", "g.ini:[g]:f.a"), (.invalid "\"y\" is not an integer", "g.ini:[g]:xs[1]")] := by decide +kernel

/-! ### Where mapping is not compositional -/

namespace Demo

/-- `class T: a = Integer(); b = Integer()`; `class U: xs = List(Integer())`; `class V: s = String()`. -/
def small : Classes
  | 0 => { fields := [field "a" (.integer {}), field "b" (.integer {})] }
  | 1 => { fields := [field "xs" (.list (.mk {} (.integer {})) none none false)] }
  | 2 => { fields := [field "s" (.string {})] }
  | _ => { fields := [] }

/-- `g = SubForm(cls)`. -/
def sub (cls : Nat) : Field := field "g" (.subform cls false (.str .ignore))

/-- The field in a context with the path, and the class on its own, under Python 2. -/
def lib2 : Lib := { lib with py3 := false }
def within (cls : Nat) (p : Except Exc Path) : Except Exc Val × Option (List (ErrKind × String)) :=
  match p with
  | .ok p => told (mapField (Path.ops lib2) lib2 small 11 (sub cls) .NONE (reading p))
  | .error e => (.error e, none)
def alone (cls : Nat) (p : Except Exc Path) : Except Exc (List (ErrKind × String)) :=
  (after ((newForm cls >>= fun id => Form.map (Path.ops lib2) lib2 small 10 id (.source p) []
    false (.str .ignore) false) (holding 0 [])) []).1

def native (v : Val) : SPath := .dflt {} { root := v, parts := [] }
def union (vs : List Val) : Except Exc Path := (UPath.mk' lib2 {} (vs.map native)).map fun p => .base (.union p)
def mount (ms : List (String × Val)) : Except Exc Path :=
  (MPath.mk' lib2 (ms.map fun m => (m.1, .simple (native m.2)))).map .mount

end Demo

/-- C50 fails for a union, whose root combines all documents while a mapping inside is the first one's: the union
of the two parts at `g` has `a` and `b`, `SubForm` at `g` finds no `b`. -/
theorem C50_union_counterexample :
    (within 0 (union [.dict [(.str "g", .dict [(.str "a", .int 1)])], .dict [(.str "g", .dict [(.str "b", .int 2)])]])).2 =
      some [(.missing, "g.b")] ∧
    alone 0 (union [.dict [(.str "a", .int 1)], .dict [(.str "b", .int 2)]]) = .ok [] := by decide +kernel

/-- C50 fails for a mount: a value that is not a list is an error report when the mounted source is mapped, and an
`AttributeError` when it is mapped where it is mounted (`pilo/fields.py:1107-1109`; a `MountPath` has no `src`). -/
theorem C50_mount_counterexample :
    within 1 (mount [("g", .dict [(.str "xs", .int 1)])]) =
      (.error (.attributeError "'MountPath' object has no attribute 'src'"), some []) ∧
    alone 1 (.ok (.base (.simple (native (.dict [(.str "xs", .int 1)]))))) = .ok [(.invalid "is not a sequence", "xs")] := by
  decide +kernel

namespace Demo

/-- A file with the section `[g]` and a text `s` of two lines. -/
def lines : ConfigCfg where
  data := ⟨[("g", [("s", "one\ntwo")])]⟩
  location := some "f.ini"
  defaults := some []
  preserveWhitespace := true
  raw := ["[g]", "s =", "  one", "   two"]
def linesG : ConfigCfg := { lines with sectionName := some "g", defaults := none }

end Demo

/-- C50 fails for a configuration with `preserve_whitespace`: the text is looked up in the file under the header of the
section the source was made for (`pilo/source/configparser.py:143-157`), and `[None]` is not found. -/
theorem C50_whitespace_counterexample :
    (mapField (Path.ops lib) lib small 11 (sub 2) .NONE (reading (.base (.simple (iniPath lines))))).2.entry 1 "s" =
      some (.str "") ∧
    ((newForm 2 >>= fun id => Form.map (Path.ops lib) lib small 10 id (.source (.ok (.base (.simple (iniPath linesG))))) []
      false (.str .ignore) false) (holding 0 [])).2.entry 1 "s" ≠ some (.str "") := by decide +kernel

end Pilo
