import Verif.Value

/-!
# `Code`: text that names an object or is a block of code

`pilo/fields.py:1193-1224`, but for `_parse`, which is `codeParse` in `Eval`.  The import system, `exec` and `getattr` are
functions of `Lib`.
-/

namespace Pilo
namespace Code

/-- The text of `Code.pattern` (`pilo/fields.py:1195`). -/
def patternText : String := "(?:(?P<module>[\\w\\.]+):)?(?P<attr>[\\w\\.]+)"

/-- `[\w\.]`. -/
def isPart (L : Lib) (c : Char) : Bool := L.isWord c || c == '.'

/-- `pilo/fields.py:1197-1199`: `Code.inline_match`. -/
def inlineMatch (s : String) : Bool := decide (0 < s.toList.count '\n')

/-- `pilo/fields.py:1195,1201-1206`: `Code.import_match`, with the module (if the pattern finds one) and the attribute.  The run
of `[\w\.]` at the beginning is as long as possible; it is the module if a `:` and another run follow, else the attribute.  What
comes after is not looked at.  (`:` is not in `[\w\.]`, so giving up part of a run never helps.) -/
def importMatch (L : Lib) (s : String) : Option (Option String × String) :=
  let first := s.toList.takeWhile (isPart L)
  if first.isEmpty then none
  else match s.toList.dropWhile (isPart L) with
    | ':' :: more =>
      let second := more.takeWhile (isPart L)
      if second.isEmpty then some (none, String.ofList first) else some (some (String.ofList first), String.ofList second)
    | _ => some (none, String.ofList first)

/-- `s.split('.')`; `acc` is the part being read, backwards. -/
def splitDots (acc : List Char) : List Char → List String
  | [] => [String.ofList acc.reverse]
  | c :: cs => if c = '.' then String.ofList acc.reverse :: splitDots [] cs else splitDots (c :: acc) cs

/-- `six.moves.reduce(getattr, names, v)`; `none` is `AttributeError`. -/
def getattrs (L : Lib) (v : Val) : List String → Option Val
  | [] => some v
  | n :: ns => match L.attrs v n with
    | some w => getattrs L w ns
    | none => none

/-- `pilo/fields.py:1208-1217`: `Code.load`.  `__import__('a.b')` imports `a.b` and returns `a`. -/
def load (L : Lib) (name : Option String) (attr : String) : Except Exc Val :=
  match name with
  | none => .error (.typeError "__import__() argument 1 must be str, not None")
  | some name => match L.importFails name with
    | some e => .error e
    | none =>
      let top := (splitDots [] name.toList).headD ""
      match getattrs L (L.sysModule top) (splitDots [] attr.toList) with
      | some v => .ok v
      | none => .error (.typeError ("Unable to resolve " ++ top ++ "." ++ attr ++ "\n"))

/-- `pilo/fields.py:1219-1224`: `Code.compile` (no `code_globals` are passed; the name of the module is left out).  Under
Python 2 `exec(code) in module.__dict__` is a statement that runs the code in that namespace.  Under Python 3 it is an
expression: the code runs in the scope of `compile`, what it binds is lost, and `None in module.__dict__` is dropped.  (Code that
gets hold of the local `module` there is left out.) -/
def compile (L : Lib) (code : String) : Except Exc Val :=
  if L.py3 then
    match L.execHere code with
    | some e => .error e
    | none => .ok (L.newModule [])
  else match L.exec code with
    | .error e => .error e
    | .ok names => .ok (L.newModule names)

end Code
end Pilo
