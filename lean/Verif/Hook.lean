import Verif.Meta

/-!
# Hooks

`pilo/fields.py:179-231`: the class `Hook`, and the hooks of a field (`pilo/fields.py:342-349`).
What a hook does when it is invoked is the business of the evaluator (`Verif.Eval`); this file models
how functions get into hooks.
-/

namespace Pilo.Hooks

/-- A Python function: its identity and its `argspec`. -/
structure Func where
  id : Nat
  spec : String
  deriving DecidableEq, Repr

/-- An argument of a call: something callable or not. -/
inductive Arg where
  | func (f : Func)
  | val (v : Nat)
  deriving DecidableEq, Repr

/-- What a hook is bound to when it is invoked (`Hook.target`, or `ctx.form`). -/
abbrev Target := Nat

/-- `pilo/fields.py:197-201`: `Hook.__init__`. -/
structure Hook where
  /-- `func_spec` -/
  spec : String
  func : Option Func := none
  target : Option Target := none
  deriving DecidableEq, Repr

/-- What a call of a hook comes to. -/
inductive Outcome where
  /-- the function was stored and the outermost field returned -/
  | registered
  /-- `TypeError('... argspec does not match ...')` -/
  | mismatch
  /-- `self.func(target, *args)` -/
  | invoked (f : Func) (target : Target) (args : List Arg)
  /-- `TypeError`: `None` is not callable -/
  | notSet
  deriving DecidableEq, Repr

/-- `pilo/fields.py:203-205`: `Hook.attach`. -/
def Hook.attach (h : Hook) (t : Target) : Hook := { h with target := some t }

/-- `pilo/fields.py:207-210`: `bool(hook)`. -/
def Hook.isSet (h : Hook) : Bool := h.func.isSome

/-- `pilo/fields.py:212-231`: `Hook.__call__`, with `ctx.form` for the current form. -/
def Hook.call (h : Hook) (form : Target) (args : List Arg) : Outcome × Hook :=
  match h.func, args with
  | none, .func f :: _ =>
    if f.spec = h.spec then (.registered, { h with func := some f }) else (.mismatch, h)
  | none, _ => (.notSet, h)
  | some f, args => (.invoked f (h.target.getD form) args, h)

/-- The hooks of a field, by name (`pilo/fields.py:342-349`). -/
abbrev Field := String → Option Hook

/-- What a program does with the hooks of a field. -/
inductive Act where
  | call (hook : String) (form : Target) (args : List Arg)
  | attach (hook : String) (target : Target)

/-- One step; `none` when the field has no such hook. -/
def Field.act (f : Field) : Act → Option Outcome × Field
  | .call n form args => match f n with
    | some h => (some (h.call form args).1, fun m => if m = n then some (h.call form args).2 else f m)
    | none => (none, f)
  | .attach n t => match f n with
    | some h => (none, fun m => if m = n then some (h.attach t) else f m)
    | none => (none, f)

/-- The field after a history. -/
def Field.run (f : Field) (as : List Act) : Field := as.foldl (fun f a => (f.act a).2) f

/-- `pilo/fields.py:220-223`: `while isinstance(parent, Field) and parent.parent`, the value a
registration returns for a hook of field `f`; the argument bounds the climb. -/
def outermost (w : Meta.World) : Nat → Meta.Owner → Meta.Owner
  | 0, o => o
  | _ + 1, .cls c => .cls c
  | k + 1, .field f => match (w.obj f).parent with
    | some o => outermost w k o
    | none => .field f

end Pilo.Hooks
