import Verif.Eval

/-!
# `Date.format`, `Time.format` and `Datetime.format`

The method has two uses: given a moment it writes it as text, given anything else it sets the format.
-/

namespace Pilo

/-- The part of the Python runtime that writes moments: `value.strftime(format)` of a `date` or `datetime` and
`time.strftime(format, value)` of a `struct_time`. -/
structure Clock where
  strftime : ExtTy → Int → String → Except Exc String

/-- What `format` returns: a text, or the field itself with its format set to a value. -/
inductive Formatted where
  | text (s : String)
  | sets (v : Val)

/-- `strftime` with the format of a field.  A format that is not set is `None`. -/
def Clock.write (K : Clock) (t : ExtTy) (d : Int) : List String → Except Exc Formatted
  | [] => .error (.typeError "strftime() argument 1 must be str, not None")
  | spec :: _ => match K.strftime t d spec with
    | .ok x => .ok (.text x)
    | .error e => .error e

/-- `pilo/fields.py:894-902`, `954-958`, `993-997`: `format` of a `Date`, a `Time` and a `Datetime` field.  A `Date` field
uses the first of several formats.  A `datetime` is a `date`; a `datetime.time` is no `struct_time`.  An empty list of
formats is taken to be `None` (the code raises `IndexError` instead of `TypeError`). -/
def Kind.format (K : Clock) : Kind → Val → Option (Except Exc Formatted)
  | .date c, .ext .date d => some (K.write .date d c.format)
  | .date c, .ext .datetime d => some (K.write .datetime d c.format)
  | .date _, v => some (.ok (.sets v))
  | .time c, .ext .structTime d => some (K.write .structTime d c.format)
  | .time _, v => some (.ok (.sets v))
  | .datetime c, .ext .date d => some (K.write .date d c.format)
  | .datetime c, .ext .datetime d => some (K.write .datetime d c.format)
  | .datetime _, v => some (.ok (.sets v))
  | _, _ => none

end Pilo
