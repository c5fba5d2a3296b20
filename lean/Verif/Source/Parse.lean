import Verif.Value

/-!
# Primitive parsers

`ParserMixin` (`pilo/source/__init__.py:210-289`) used by `DefaultSource` and `ConfigSource`, and
the parsers of `JsonSource` (`pilo/source/json.py:45-96`).
-/

namespace Pilo

/-- The types fields ask for: `path.primitive(t)` with `t` one of `six.string_types[0]`, `int`,
`float`, `bool`, `None`/nothing.  `ParserMixin.parser` (`pilo/source/__init__.py:274-289`) finds
each of these directly in its table. -/
inductive PTy where
  | str | int | float | bool | auto
deriving DecidableEq, Repr, Inhabited

/-- `isinstance(i, int)` for an integer value: Python 2 stores big integers as `long`. -/
def isPyInt (L : Lib) (i : Int) : Bool :=
  L.py3 || (decide (-(2 ^ 63) ≤ i) && decide (i < 2 ^ 63))

/-- `'"{0}" is not ...'` (`pilo/source/__init__.py:218` etc.). -/
def notA (L : Lib) (v : Val) (what : String) : Exc :=
  .sourceError ("\"" ++ L.fmt v ++ "\" is not " ++ what)

/-- `float(i)` for an integer; too large raises `OverflowError`. -/
def floatInt (L : Lib) (i : Int) : Except Exc Val :=
  match L.floatOfInt i with
  | some x => .ok (.float x)
  | none => .error (.other "OverflowError" "int too large to convert to float")

/-- `pilo/source/__init__.py:215-218`. -/
def asString (L : Lib) (v : Val) : Except Exc Val :=
  match v with
  | .str s => .ok (.str s)
  | v => .error (notA L v "a string")

/-- `pilo/source/__init__.py:220-235`. -/
def asInt (L : Lib) (v : Val) : Except Exc Val :=
  match v with
  | .int i => .ok (.int i)
  | .float x => if x.isInteger then .ok (.int x.toInt) else .error (notA L v "an integer")
  | .str s => match L.intOfStr s with
    | some i => .ok (.int i)
    | none => .error (notA L v "an integer")
  | v => .error (notA L v "an integer")

/-- `pilo/source/__init__.py:237-249`. -/
def asFloat (L : Lib) (v : Val) : Except Exc Val :=
  match v with
  | .float x => .ok (.float x)
  | .int i => floatInt L i
  | .bool b => floatInt L (if b then 1 else 0)
  | .str s => match L.floatOfStr s with
    | some x => .ok (.float x)
    | none => .error (notA L v "a float")
  | v => .error (notA L v "a float")

/-- `pilo/source/__init__.py:251-261`. -/
def asBool (L : Lib) (v : Val) : Except Exc Val :=
  match v with
  | .bool b => .ok (.bool b)
  | .int i => if isPyInt L i then .ok (.bool (i != 0)) else .error (notA L v "a boolean")
  | .str s =>
    if ["0", "f", "false"].contains (L.lower s) then .ok (.bool false)
    else if ["1", "t", "true"].contains (L.lower s) then .ok (.bool true)
    else .error (notA L v "a boolean")
  | v => .error (notA L v "a boolean")

/-- `pilo/source/__init__.py:266-281` and `primitive` of `DefaultSource` (`default.py:109-110`). -/
def parseNative (L : Lib) : PTy → Val → Except Exc Val
  | .str, v => asString L v
  | .int, v => asInt L v
  | .float, v => asFloat L v
  | .bool, v => asBool L v
  | .auto, v => .ok v

/-- `'{0} is not ...'` (`pilo/source/json.py:50` etc.). -/
def notAJ (L : Lib) (v : Val) (what : String) : Exc :=
  .sourceError (L.fmt v ++ " is not " ++ what)

/-- `pilo/source/json.py:45-50`. -/
def jsonString (L : Lib) (strict : Bool) (v : Val) : Except Exc Val :=
  match v with
  | .str s => .ok (.str s)
  | v => if !strict then .ok (.str (L.fmt v)) else .error (notAJ L v "a string")

/-- `pilo/source/json.py:52-64`. -/
def jsonInt (L : Lib) (strict : Bool) (v : Val) : Except Exc Val :=
  match v with
  | .int i => .ok (.int i)
  | .float x =>
    if !strict && x.isInteger then .ok (.int x.toInt) else .error (notAJ L v "an integer")
  | .str s =>
    if !strict then
      match L.intOfStr s with
      | some i => .ok (.int i)
      | none => .error (notAJ L v "an integer")
    else .error (notAJ L v "an integer")
  | v => .error (notAJ L v "an integer")

/-- `pilo/source/json.py:66-77`. -/
def jsonFloat (L : Lib) (strict : Bool) (v : Val) : Except Exc Val :=
  match v with
  | .float x => .ok (.float x)
  | .int i => floatInt L i
  | .bool b => floatInt L (if b then 1 else 0)
  | .str s =>
    if !strict then
      match L.floatOfStr s with
      | some x => .ok (.float x)
      | none => .error (notAJ L v "a float")
    else .error (notAJ L v "a float")
  | v => .error (notAJ L v "a float")

/-- `pilo/source/json.py:79-85`. -/
def jsonBool (L : Lib) (strict : Bool) (v : Val) : Except Exc Val :=
  match v with
  | .bool b => .ok (.bool b)
  | .int i =>
    if !strict && isPyInt L i then .ok (.bool (i != 0)) else .error (notAJ L v "a boolean")
  | v => .error (notAJ L v "a boolean")

/-- `pilo/source/json.py:90-105,129-130`. -/
def parseJson (L : Lib) (strict : Bool) : PTy → Val → Except Exc Val
  | .str, v => jsonString L strict v
  | .int, v => jsonInt L strict v
  | .float, v => jsonFloat L strict v
  | .bool, v => jsonBool L strict v
  | .auto, v => .ok v

end Pilo
