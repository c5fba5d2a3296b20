import Verif.Keeps
import Verif.Source.Lawful

/-!
# Concrete instances used in examples

A `Lib` with simple-minded library functions and a few helpers to run the model.
-/

namespace Pilo
namespace Demo

/-- The digits of a string as a number. -/
def digits : List Char → Nat → Option Nat
  | [], n => some n
  | c :: cs, n => if c.isDigit then digits cs (10 * n + (c.toNat - 48)) else none

/-- `int(s)` for non-negative decimal numerals. -/
def parseNat (s : String) : Option Int :=
  match s.toList with
  | [] => none
  | cs => (digits cs 0).map fun n => (n : Int)

/-- A small library. -/
def lib : Lib where
  py3 := true
  fmt v := match v with
    | .str s => s
    | .int i => toString i
    | .none => "None"
    | _ => "?"
  attrs _ _ := none
  call _ := .ok (.int 7)
  intOfStr := parseNat
  floatOfInt i := some (.fin i)
  floatOfStr _ := none
  lower s := s
  decimalOfStr s := (parseNat s).map fun i => .fin i
  strptimeDate _ _ := none
  strptimeDatetime _ _ := none
  strptimeTime _ _ := none
  iso8601 _ := none
  isoDate i := i
  uuidOfStr _ := none
  ltOther _ _ := .error (.typeError "unorderable types")
  joinSet ss := String.join ss
  joinKeys _ := some "keys"
  importFails n := some (.other "ImportError" ("No module named " ++ n))
  sysModule _ := .none
  exec _ := .error (.valueError "no code")
  execHere _ := some (.valueError "no code")
  newModule _ := .none
  isWord c := c.isAlphanum
  isSpace c := c.isWhitespace
  dedent s := s
  splitlines s := [s]
  strip s := s
  shlexSplit s := some [s]

/-- A field with a name, reading from the key of that name. -/
def field (n : String) (k : Kind) : Field := .mk { name := some n, src := .str n } k

/-- `class F: a = Integer(); b = String(min_length=2, default=None)`. -/
def classF : ClassDef where
  fields := [field "a" (.integer {}),
    .mk { name := some "b", src := .str "b", default := .value .none } (.string { minLength := some 2 })]

/-- `class G: f = SubForm(F); xs = List(Integer())`. -/
def classG : ClassDef where
  fields := [field "f" (.subform 0 false (.str .ignore)),
    field "xs" (.list (.mk {} (.integer {})) none none false)]

/-- The class table of the examples. -/
def classes : Classes
  | 0 => classF
  | 1 => classG
  | _ => { fields := [] }

/-- A document for `classG` with one error inside `f`. -/
def doc : Val := .dict [(.str "f", .dict [(.str "a", .str "x"), (.str "b", .str "ok")]),
  (.str "xs", .list [.int 1, .str "2"])]

/-- Run from a fresh thread. -/
def run {α : Type} (m : M Path α) : Except Exc α × St Path := m St.init

/-- Make a form of class `c` and map `doc` into it. -/
def mapDoc (c : Nat) (src : Val) : M Path Nat := do
  let id ← newForm c
  Form.map (Path.ops lib) lib classes 10 id (.data src)

end Demo
end Pilo
