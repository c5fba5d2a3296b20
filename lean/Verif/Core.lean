import Verif.Source.Ops

/-!
# State, exceptions-as-values monad and `pilo/context.py`
-/

namespace Pilo

/-- What a `Frame` binds for `src` and `src_path` (`pilo/context.py:99-107,121-126,158-168`).
`push` with a key binds `src` only, `push` with a `Source` binds both, the root frame and `reset`
bind both to `None`. -/
inductive FrameSrc where
  | absent
  | key (k : Val)
  | source (ref : Nat)
  | cleared
deriving Inhabited

/-- A value of the context variable `parent`: a form or a field. -/
inductive Parent where
  | form (id : Nat)
  | field
deriving DecidableEq, Repr, Inhabited

/-- `pilo/context.py:33-41`: a `Frame`, a dict of variables.  The variables `pilo` itself uses have
their own component (`none`: the frame does not bind it), all others are in `vars`.
`ctx.field` is represented by the field's name. -/
structure Frame where
  src : FrameSrc := .absent
  form : Option Nat := none
  parent : Option Parent := none
  field : Option (Option String) := none
  errors : Option Nat := none
  tags : Option (List String) := none
  ignoreDefault : Option Bool := none
  ignoreMissing : Option Bool := none
  vars : List (String × Val) := []
deriving Inhabited

/-- `pilo/context.py:99-107`: the frame every thread's context starts with. -/
def rootFrame : Frame :=
  { src := .cleared, ignoreDefault := some false, ignoreMissing := some false }

/-- `pilo/fields.py:150-163`: a `RaiseErrors` or `CollectErrors` list. -/
structure ErrBuf where
  raising : Bool
  items : List Err
deriving Inhabited

/-- A live `Form` object (`pilo/fields.py:1503`): its class, its dict entries, and the `parent`
attribute set by `attach_parent`. -/
structure FormObj where
  cls : Nat
  items : List (Val × Val)
  parent : Option (Option Parent) := none
deriving Inhabited

/-- The mutable world of one thread: the context stack (head = top), the path objects, the error
lists and the forms.  References are positions. -/
structure St (P : Type) where
  stack : List Frame
  paths : List P
  errs : List ErrBuf
  forms : List FormObj

/-- A computation that may raise; the state survives an exception. -/
def M (P α : Type) : Type := St P → Except Exc α × St P

namespace M
variable {P α β : Type}

def pure (a : α) : M P α := fun s => (.ok a, s)

def bind (m : M P α) (f : α → M P β) : M P β := fun s =>
  match m s with
  | (.ok a, s') => f a s'
  | (.error e, s') => (.error e, s')

instance : Monad (M P) where
  pure := M.pure
  bind := M.bind

def raise (e : Exc) : M P α := fun s => (.error e, s)

def ofExcept (r : Except Exc α) : M P α := fun s => (r, s)

/-- `try: body finally: fin`, also the exit protocol of a `with` block. -/
def tryFinally (body : M P α) (fin : M P Unit) : M P α := fun s =>
  match body s with
  | (r, s1) => match fin s1 with
    | (.ok _, s2) => (r, s2)
    | (.error e, s2) => (.error e, s2)

/-- `try: body except ...: handler`. -/
def tryCatch (body : M P α) (handler : Exc → M P α) : M P α := fun s =>
  match body s with
  | (.ok a, s1) => (.ok a, s1)
  | (.error e, s1) => handler e s1

/-- Read the state. -/
def get : M P (St P) := fun s => (.ok s, s)

/-- Update the state. -/
def modify (f : St P → St P) : M P Unit := fun s => (.ok (), f s)

end M

/-! ## `pilo/context.py` -/

/-- `pilo/context.py:109-115`: `Context.__getattr__`: innermost frame that binds the variable. -/
def lookup {α : Type} (proj : Frame → Option α) (stack : List Frame) : Option α :=
  stack.findSome? proj

/-- Projection for `ctx.src_path`: `some none` is a frame binding it to `None`. -/
def FrameSrc.path? : FrameSrc → Option (Option Nat)
  | .source r => some (some r)
  | .cleared => some none
  | _ => none

/-- Projection for `ctx.src`: whether the bound value `is not None`. -/
def FrameSrc.src? : FrameSrc → Option Bool
  | .absent => none
  | .key k => some (!k.isNull)
  | .source _ => some true
  | .cleared => some false

/-- `self.src_path`, as a lookup in a stack. -/
def curPath (stack : List Frame) : Option (Option Nat) := lookup (fun f => f.src.path?) stack

/-- `"Context" object has no attribute "..."`. -/
def noCtxAttr (name : String) : Exc :=
  .attributeError ("\"Context\" object has no attribute \"" ++ name ++ "\"")

section Context
variable {P α : Type}

/-- `ctx.<name>`. -/
def ctxGet (proj : Frame → Option α) (name : String) : M P α := fun s =>
  match lookup proj s.stack with
  | some a => (.ok a, s)
  | none => (.error (noCtxAttr name), s)

/-- `getattr(ctx, name, None)`. -/
def ctxGet? (proj : Frame → Option α) : M P (Option α) := fun s => (.ok (lookup proj s.stack), s)

/-- `ctx.src_path.<operation>`: read or change the current path object. -/
def onPath (f : P → Except Exc α × P) : M P α := fun s =>
  match curPath s.stack with
  | none => (.error (noCtxAttr "src_path"), s)
  | some none => (.error (.attributeError "'NoneType' object has no attribute"), s)
  | some (some r) =>
    match s.paths[r]? with
    | none => (.error (.other "ReferenceError" "dangling path"), s)
    | some p => let (x, p') := f p; (x, { s with paths := s.paths.set r p' })

/-- `path.append(k)` as an operation on a path object. -/
def pathAppend (I : PathOps P) (k : Val) (p : P) : Except Exc Unit × P :=
  match I.append p k with
  | .ok q => (.ok (), q)
  | .error e => (.error e, p)

/-- `path.pop()` as an operation on a path object. -/
def pathPop (I : PathOps P) (p : P) : Except Exc Unit × P :=
  match I.pop p with
  | .ok q => (.ok (), q)
  | .error e => (.error e, p)

/-- `self.stack.append(frame)`. -/
def stackAppend (f : Frame) : M P Unit := M.modify fun s => { s with stack := f :: s.stack }

/-- `pilo/context.py:158-168`: `push` without `src`. -/
def pushVars (f : Frame) : M P Unit := stackAppend { f with src := .absent }

/-- `pilo/context.py:158-168`: `push(src=key, ...)`. -/
def pushKey (I : PathOps P) (k : Val) (f : Frame := {}) : M P Unit := do
  onPath (pathAppend I k)
  stackAppend { f with src := .key k }

/-- Allocate a path object. -/
def newPath (p : P) : M P Nat := fun s =>
  (.ok s.paths.length, { s with paths := s.paths ++ [p] })

/-- `pilo/context.py:158-168`: `push(src=source, ...)`; `mk` is `source.path()`. -/
def pushSource (mk : Except Exc P) (f : Frame := {}) : M P Unit := do
  let p ← M.ofExcept mk
  let r ← newPath p
  stackAppend { f with src := .source r }

/-- `pilo/context.py:173-180`: `restore()`. -/
def restore (I : PathOps P) : M P Unit := fun s =>
  match s.stack with
  | [] => (.error (.indexError "pop from empty list"), s)
  | f :: rest =>
    match f.src with
    | .key _ => onPath (pathPop I) { s with stack := rest }
    | _ => (.ok (), { s with stack := rest })

/-- `with <push>: body` (`pilo/context.py:53-66`). -/
def withPush (I : PathOps P) (push : M P Unit) (body : M P α) : M P α := do
  push
  M.tryFinally body (restore I)

/-- `pilo/context.py:121-126`: `reset()`. -/
def pushReset : M P Unit := stackAppend { src := .cleared }

/-- `pilo/context.py:147-154` and `181-189`: the frames taken off, bottom first, up to the first one
that has its own path: the keys they had pushed. -/
def segKeys : List Frame → List Val
  | [] => []
  | f :: fs => match f.src with
    | .key k => k :: segKeys fs
    | .absent => segKeys fs
    | .source _ => []
    | .cleared => []

/-- Run `n` times. -/
def repeatM (m : M P Unit) : Nat → M P Unit
  | 0 => M.pure ()
  | n + 1 => do m; repeatM m n

/-- Append several keys to the current path. -/
def appendKeys (I : PathOps P) : List Val → M P Unit
  | [] => M.pure ()
  | k :: ks => do onPath (pathAppend I k); appendKeys I ks

/-- `if self.src_path is not None: body`. -/
def whenSrcPath (body : M P Unit) : M P Unit := do
  match ← ctxGet (fun f => f.src.path?) "src_path" with
  | some _ => body
  | none => M.pure ()

/-- `pilo/context.py:128-156`: `rewind(stop)`; the result is the list of removed frames, top first.
With `i = 0` the slices `[-0:]` are the whole stack. -/
def rewind (I : PathOps P) (stop : Frame → Bool) : M P (List Frame) := fun s =>
  match s.stack.findIdx? stop with
  | none => (.error .rewindDidNotStop, s)
  | some i =>
    let frames := if i = 0 then s.stack else s.stack.take i
    let rest := if i = 0 then [] else s.stack.drop i
    (do
      whenSrcPath (repeatM (onPath (pathPop I)) (segKeys frames.reverse).length)
      M.pure frames) { s with stack := rest }

/-- `pilo/context.py:181-190`: `restore(frames)`. -/
def restoreFrames (I : PathOps P) (frames : List Frame) : M P Unit :=
  if frames.isEmpty then M.pure ()
  else do
    whenSrcPath (appendKeys I (segKeys frames.reverse))
    M.modify fun s => { s with stack := frames ++ s.stack }

/-- `with ctx.rewind(stop): body`. -/
def withRewind (I : PathOps P) (stop : Frame → Bool) (body : M P α) : M P α := do
  let frames ← rewind I stop
  M.tryFinally body (restoreFrames I frames)

end Context

/-! ## Error lists -/

section Errors
variable {P : Type}

/-- `CollectErrors()` / `RaiseErrors()`. -/
def newErrs (raising : Bool) : M P Nat := fun s =>
  (.ok s.errs.length, { s with errs := s.errs ++ [{ raising := raising, items := [] }] })

/-- The errors of a list object. -/
def errItems (ref : Nat) : M P (List Err) := fun s =>
  (.ok ((s.errs[ref]?).elim [] ErrBuf.items), s)

/-- `list.extend`. -/
def errExtend (ref : Nat) (es : List Err) : M P Unit :=
  M.modify fun s => { s with errs := s.errs.modify ref fun b => { b with items := b.items ++ es } }

/-- `RaiseErrors.__call__` / `CollectErrors.__call__` (`pilo/fields.py:152-157,162-163`); all
entries are field errors. -/
def errCall (ref : Nat) (e : Err) : M P Unit := do
  errExtend ref [e]
  let s ← M.get
  match s.errs[ref]? with
  | some b => if b.raising then M.raise (.formError b.items) else M.pure ()
  | none => M.pure ()

/-- `'{0}'.format(ctx.src_path)` and the identity of the path object. -/
def pathText (I : PathOps P) : M P (String × Option Nat) := fun s =>
  match curPath s.stack with
  | none => (.error (noCtxAttr "src_path"), s)
  | some none => (.ok ("None", none), s)
  | some (some r) =>
    match s.paths[r]? with
    | none => (.error (.other "ReferenceError" "dangling path"), s)
    | some p => match I.render p with
      | .ok t => (.ok (t, some r), s)
      | .error e => (.error e, s)

/-- `ctx.errors.missing()` / `ctx.errors.invalid(violation)` (`pilo/fields.py:113-147`). -/
def report (I : PathOps P) (kind : ErrKind) : M P Unit := do
  let ref ← ctxGet Frame.errors "errors"
  let field ← ctxGet Frame.field "field"
  let (text, pr) ← pathText I
  errCall ref { kind := kind, path := text, field := field, pathRef := pr }

/-- `ctx.errors.invalid(violation)`. -/
def invalid (I : PathOps P) (violation : String) : M P Unit := report I (.invalid violation)

/-- `ctx.errors.missing()`. -/
def missing (I : PathOps P) : M P Unit := report I .missing

end Errors

/-! ## Form objects -/

section Forms
variable {P : Type}

/-- `form_type()` without a source (`pilo/fields.py:1556-1576`). -/
def newForm (cls : Nat) : M P Nat := fun s =>
  (.ok s.forms.length, { s with forms := s.forms ++ [{ cls := cls, items := [] }] })

/-- The entries of a form. -/
def formItems (id : Nat) : M P (List (Val × Val)) := fun s =>
  (.ok ((s.forms[id]?).elim [] FormObj.items), s)

/-- Change the entries of a form. -/
def formModify (id : Nat) (f : List (Val × Val) → List (Val × Val)) : M P Unit :=
  M.modify fun s => { s with forms := s.forms.modify id fun o => { o with items := f o.items } }

/-- `form[k] = v`. -/
def formSet (id : Nat) (k v : Val) : M P Unit := formModify id (dictSet · k v)

/-- `del form[k]` for a present key. -/
def formDel (id : Nat) (k : Val) : M P Unit := formModify id (dictDel · k)

/-- `dict.update`. -/
def dictUpdate (d : List (Val × Val)) (kvs : List (Val × Val)) : List (Val × Val) :=
  kvs.foldl (fun d kv => dictSet d kv.1 kv.2) d

end Forms
end Pilo
