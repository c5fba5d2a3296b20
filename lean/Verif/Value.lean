/-!
# Python values, exceptions and library parameters

The fragment of Python's data model that `pilo` manipulates.  Anything whose behaviour lives
in the Python runtime or a third-party library (string to number conversion, `strptime`,
regular expressions, `str.format`, attribute tables of built-in types, ...) is a field of
`Lib`; every theorem is quantified over all `Lib`s.
-/

namespace Pilo

/-- `pilo/__init__.py:23-38`: the sentinel objects `NONE`, `ERROR`, `NOT_SET`. -/
inductive Const where
  | NONE | ERROR | NOT_SET
deriving DecidableEq, Repr, Inhabited

/-- `pilo/__init__.py:25`: `_Constant.name`. -/
def Const.name : Const → String
  | .NONE => "NONE"
  | .ERROR => "ERROR"
  | .NOT_SET => "NOT_SET"

/-- Numeric value of a Python `float` / `decimal.Decimal`.  Finite floats are dyadic rationals;
the model allows every rational, so theorems cover all doubles.  (Signed zero is not
distinguished.) -/
inductive Num where
  | fin (q : Rat)
  | inf (neg : Bool)
  | nan
deriving DecidableEq, Inhabited

/-- IEEE / Python `<` on numeric values. -/
def Num.lt : Num → Num → Bool
  | .fin a, .fin b => decide (a < b)
  | .fin _, .inf neg => !neg
  | .inf neg, .fin _ => neg
  | .inf a, .inf b => a && !b
  | _, _ => false

/-- Python `==` on numeric values (`nan != nan`). -/
def Num.eq : Num → Num → Bool
  | .fin a, .fin b => decide (a = b)
  | .inf a, .inf b => a == b
  | _, _ => false

/-- `float.is_integer()`. -/
def Num.isInteger : Num → Bool
  | .fin q => q.den == 1
  | _ => false

/-- `int(x)` for an integral float. -/
def Num.toInt : Num → Int
  | .fin q => q.num
  | _ => 0

/-- Opaque ordered library types: values of one type are ordered by their payload. -/
inductive ExtTy where
  | date | datetime | time | structTime | uuid | module | regexMatch | other
deriving DecidableEq, Repr, Inhabited

/-- Python values.  `func` is a callable (result given by `Lib.call`), `obj` an arbitrary
other object, `form` a reference to a live `pilo.Form` in the heap of the state. -/
inductive Val where
  | none
  | bool (b : Bool)
  | int (i : Int)
  | float (x : Num)
  | decimal (x : Num)
  | str (s : String)
  | list (xs : List Val)
  | tuple (xs : List Val)
  | dict (kvs : List (Val × Val))
  | const (c : Const)
  | ext (ty : ExtTy) (n : Int)
  | func (id : Nat)
  | obj (id : Nat)
  | form (id : Nat)
deriving Inhabited

abbrev Val.NONE : Val := .const .NONE
abbrev Val.ERROR : Val := .const .ERROR
abbrev Val.NOT_SET : Val := .const .NOT_SET

/-- `value in IGNORE` (`pilo/__init__.py:38`).  Python compares with `==`; for values without a
custom `__eq__` that is identity with one of the three constants. -/
def Val.isIgnore : Val → Bool
  | .const _ => true
  | _ => false

/-- `value is NONE`. -/
def Val.isNONE : Val → Bool
  | .const .NONE => true
  | _ => false

/-- `value is None`. -/
def Val.isNull : Val → Bool
  | .none => true
  | _ => false

/-- `isinstance(value, six.string_types)`. -/
def Val.isStr : Val → Bool
  | .str _ => true
  | _ => false

/-- `isinstance(value, six.integer_types)`; `bool` is a subclass of `int`. -/
def Val.isIntLike : Val → Bool
  | .int _ => true
  | .bool _ => true
  | _ => false

/-- Truth value of an object (`bool(x)`).  Forms are treated like objects (truthy); see
`DESIGN.md`. -/
def Val.truthy : Val → Bool
  | .none => false
  | .bool b => b
  | .int i => i != 0
  | .float x => !(x.eq (.fin 0))
  | .decimal x => !(x.eq (.fin 0))
  | .str s => s != ""
  | .list xs => !xs.isEmpty
  | .tuple xs => !xs.isEmpty
  | .dict kvs => !kvs.isEmpty
  | _ => true

/-- Python's numeric tower: the number a value denotes, if it is one. -/
def Val.num? : Val → Option Num
  | .bool b => some (.fin (if b then 1 else 0))
  | .int i => some (.fin (i : Rat))
  | .float x => some x
  | .decimal x => some x
  | _ => Option.none

mutual
/-- Python `==` (numbers across types, sequences element-wise, dicts as mappings).  Objects,
callables and forms compare by identity. -/
def Val.pyEq : Val → Val → Bool
  | .none, .none => true
  | .str a, .str b => a == b
  | .list a, .list b => Val.pyEqList a b
  | .tuple a, .tuple b => Val.pyEqList a b
  | .dict a, .dict b => a.length == b.length && Val.pyEqDict a b
  | .const a, .const b => a == b
  | .ext s a, .ext t b => s == t && a == b
  | .func a, .func b => a == b
  | .obj a, .obj b => a == b
  | .form a, .form b => a == b
  | .bool a, y => match y.num? with
      | some m => (Num.fin (if a then 1 else 0)).eq m
      | Option.none => false
  | .int a, y => match y.num? with
      | some m => (Num.fin (a : Rat)).eq m
      | Option.none => false
  | .float a, y => match y.num? with
      | some m => a.eq m
      | Option.none => false
  | .decimal a, y => match y.num? with
      | some m => a.eq m
      | Option.none => false
  | _, _ => false
def Val.pyEqList : List Val → List Val → Bool
  | [], [] => true
  | x :: xs, y :: ys => Val.pyEq x y && Val.pyEqList xs ys
  | _, _ => false
def Val.pyEqDict : List (Val × Val) → List (Val × Val) → Bool
  | [], _ => true
  | (k, v) :: xs, ys =>
      ys.any (fun p => Val.pyEq k p.1 && Val.pyEq v p.2) && Val.pyEqDict xs ys
end

/-- `v in seq` for a list/tuple of values. -/
def Val.inList (v : Val) (xs : List Val) : Bool := xs.any (fun x => v.pyEq x)

mutual
/-- Whether `hash(v)` succeeds. -/
def Val.hashable : Val → Bool
  | .list _ => false
  | .dict _ => false
  | .form _ => false
  | .tuple xs => Val.hashableList xs
  | _ => true
def Val.hashableList : List Val → Bool
  | [] => true
  | x :: xs => x.hashable && Val.hashableList xs
end

/-- Python dict lookup. -/
def dictGet? (kvs : List (Val × Val)) (k : Val) : Option Val :=
  match kvs.find? (fun p => k.pyEq p.1) with
  | some p => some p.2
  | none => none

/-- Python dict item assignment: replace in place or append. -/
def dictSet : List (Val × Val) → Val → Val → List (Val × Val)
  | [], k, v => [(k, v)]
  | (k', v') :: rest, k, v => if k.pyEq k' then (k', v) :: rest else (k', v') :: dictSet rest k v

/-- Python `del d[k]`. -/
def dictDel (kvs : List (Val × Val)) (k : Val) : List (Val × Val) :=
  kvs.filter (fun p => !(k.pyEq p.1))

/-- `k in d`. -/
def dictHas (kvs : List (Val × Val)) (k : Val) : Bool := kvs.any (fun p => k.pyEq p.1)

/-- `pilo/fields.py:121-135`: `Missing` or `Invalid` with its violation text. -/
inductive ErrKind where
  | missing
  | invalid (violation : String)
deriving DecidableEq, Repr, Inhabited

/-- A recorded field error (`pilo/fields.py:113-135`).  `path` is `str(ctx.src_path)` at the time
the error was built (it is baked into the message); `pathRef` is the identity of the mutable
path object stored in `FieldError.path`; `field` is the name of the field. -/
structure Err where
  kind : ErrKind
  path : String
  field : Option String
  pathRef : Option Nat
deriving DecidableEq, Repr, Inhabited

/-- `str(exc)` of a field error (`pilo/fields.py:121-135`). -/
def Err.message (e : Err) : String :=
  match e.kind with
  | .missing => e.path ++ " - missing"
  | .invalid v => e.path ++ " - " ++ v

/-- `exc.__class__.__name__` of a field error. -/
def Err.className (e : Err) : String :=
  match e.kind with
  | .missing => "Missing"
  | .invalid _ => "Invalid"

/-- Exceptions.  `FormError` and `FieldError` are `ValueError`s; `SourceError` is not. -/
inductive Exc where
  | sourceError (msg : String)
  | valueError (msg : String)
  | formError (errs : List Err)
  | fieldError (e : Err)
  | attributeError (msg : String)
  | typeError (msg : String)
  | keyError (msg : String)
  | indexError (msg : String)
  | notImplemented
  | recursion
  | rewindDidNotStop
  | other (name msg : String)
deriving DecidableEq, Repr, Inhabited

/-- `pilo/fields.py:104-110`: `FormError.message`. -/
def formErrorMessage (errs : List Err) : String :=
  "\n* " ++ String.intercalate "\n* " (errs.map fun e => e.className ++ ": " ++ e.message) ++ "\n"

/-- `str(ex)`. -/
def Exc.str : Exc → String
  | .sourceError m => m
  | .valueError m => m
  | .formError es => formErrorMessage es
  | .fieldError e => e.message
  | .attributeError m => m
  | .typeError m => m
  | .keyError m => m
  | .indexError m => m
  | .notImplemented => ""
  | .recursion => "maximum recursion depth exceeded"
  | .rewindDidNotStop => "Did not reach unwind stop condition"
  | .other _ m => m

/-- `isinstance(ex, ValueError)`. -/
def Exc.isValueError : Exc → Bool
  | .valueError _ => true
  | .formError _ => true
  | .fieldError _ => true
  | _ => false

/-- `isinstance(ex, SourceError)`. -/
def Exc.isSourceError : Exc → Bool
  | .sourceError _ => true
  | _ => false

/-- Behaviour of the Python runtime and libraries, left uninterpreted. -/
structure Lib where
  /-- running under Python 3 (else Python 2.7) -/
  py3 : Bool
  /-- `'{0}'.format(v)` / `str(v)` -/
  fmt : Val → String
  /-- `getattr(v, name)` for values that are not forms; `none` is `AttributeError`/`TypeError` -/
  attrs : Val → String → Option Val
  /-- calling a `func` without arguments -/
  call : Nat → Except Exc Val
  /-- `int(s)`; `none` is `ValueError` -/
  intOfStr : String → Option Int
  /-- `float(i)`; `none` is `OverflowError` -/
  floatOfInt : Int → Option Num
  /-- `float(s)`; `none` is `ValueError` -/
  floatOfStr : String → Option Num
  /-- `s.lower()` -/
  lower : String → String
  /-- `decimal.Decimal(s)`; `none` is `decimal.InvalidOperation` -/
  decimalOfStr : String → Option Num
  /-- `datetime.datetime.strptime(s, fmt).date()`; arguments: format, string; `none` is `ValueError` -/
  strptimeDate : String → String → Option Int
  /-- `datetime.datetime.strptime(s, fmt)` -/
  strptimeDatetime : String → String → Option Int
  /-- `time.strptime(s, fmt)` -/
  strptimeTime : String → String → Option Int
  /-- `iso8601.parse_date(s)`; `none` is `iso8601.ParseError` -/
  iso8601 : String → Option Int
  /-- `.date()` of an iso8601 result -/
  isoDate : Int → Int
  /-- `uuid.UUID(s)`; `none` is `ValueError` -/
  uuidOfStr : String → Option Int
  /-- `<` between values outside the numeric tower and outside one ordered library type -/
  ltOther : Val → Val → Except Exc Bool
  /-- `''.join(list(set(chars)))`: order is unspecified -/
  joinSet : List String → String
  /-- `', '.join(missing_keys)` for a set of keys: order unspecified, `none` is `TypeError` -/
  joinKeys : List Val → Option String
  /-- what importing the module raises, if it does -/
  importFails : String → Option Exc
  /-- `sys.modules[name]` of a module that was imported -/
  sysModule : String → Val
  /-- `exec code in {}`: the names it binds -/
  exec : String → Except Exc (List (String × Val))
  /-- what `exec(code)` raises in the scope of `Code.compile`, if it does -/
  execHere : String → Option Exc
  /-- `imp.new_module(...)` with names in its namespace -/
  newModule : List (String × Val) → Val
  /-- `\w` of the `re` module -/
  isWord : Char → Bool
  /-- `c.isspace()` -/
  isSpace : Char → Bool
  /-- `textwrap.dedent` -/
  dedent : String → String
  /-- `str.splitlines()` -/
  splitlines : String → List String
  /-- `str.strip()` -/
  strip : String → String
  /-- `shlex.split(s)`; `none` is `ValueError` -/
  shlexSplit : String → Option (List String)

/-- `value < other`.  Numbers compare exactly (a NaN `Decimal` raises), values of one ordered
library type by payload, everything else by `Lib.ltOther` (Python 3 raises `TypeError`). -/
def pyLt (L : Lib) (a b : Val) : Except Exc Bool :=
  match a, b with
  | .ext s m, .ext t n => if s = t then .ok (decide (m < n)) else L.ltOther a b
  | .decimal .nan, _ => .error (.other "InvalidOperation" "comparison involving NaN")
  | _, .decimal .nan => .error (.other "InvalidOperation" "comparison involving NaN")
  | _, _ =>
    match a.num?, b.num? with
    | some x, some y => .ok (x.lt y)
    | _, _ => L.ltOther a b

/-- `len(v)`; characters for strings. -/
def pyLen : Val → Except Exc Nat
  | .str s => .ok s.length
  | .list xs => .ok xs.length
  | .tuple xs => .ok xs.length
  | .dict kvs => .ok kvs.length
  | _ => .error (.typeError "object has no len()")

/-- Split a character list on `.` (`str.split('.')`). -/
def splitDots : List Char → List (List Char)
  | [] => [[]]
  | c :: cs =>
    if c = '.' then [] :: splitDots cs
    else match splitDots cs with
      | [] => [[c]]
      | w :: ws => (c :: w) :: ws

/-- `s.split('.')`. -/
def dotSplit (s : String) : List String := (splitDots s.toList).map String.ofList

/-- `'.' in s`. -/
def hasDot (s : String) : Bool := s.toList.contains '.'

end Pilo
