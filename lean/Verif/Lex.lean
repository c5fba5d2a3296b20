import Verif.Eval

/-!
# A lexical semantics of mapping

The same algorithm as `Verif/Eval.lean`, with the dynamic context replaced by lexical arguments: what
`ctx.x` looks up is an environment handed down by the caller, the current source path and the current
error list are the only path and list in the state, and `with ctx(...)` blocks save and restore them.  There
is no frame stack, no heap of paths and no heap of error lists.  `Verif/LexRef.lean` proves that the
context implementation refines this semantics.
-/

namespace Pilo

/-- What the context variables are bound to. -/
structure Env where
  src : Option Bool
  form : Option Nat
  parent : Option Parent
  field : Option (Option String)
  tags : Option (List String)
  ignoreDefault : Option Bool
  ignoreMissing : Option Bool

/-- The state of the lexical semantics: the current path (`none`: unbound, `some none`: `None`) with its
identity, the current error list (`none`: unbound), the forms, and the number of paths ever made. -/
structure TSt (P : Type) where
  path : Option (Option (Nat × P))
  errs : Option ErrBuf
  forms : List FormObj
  npaths : Nat

/-- Lexical computations. -/
def T (P α : Type) : Type := Env → TSt P → Except Exc α × TSt P

namespace T
variable {P α β : Type}

def pure (a : α) : T P α := fun _ t => (.ok a, t)

def bind (m : T P α) (f : α → T P β) : T P β := fun env t =>
  match m env t with
  | (.ok a, t') => f a env t'
  | (.error e, t') => (.error e, t')

instance : Monad (T P) where
  pure := T.pure
  bind := T.bind

def raise (e : Exc) : T P α := fun _ t => (.error e, t)

def ofExcept (r : Except Exc α) : T P α := fun _ t => (r, t)

/-- `try: body except ...: handler`. -/
def tryCatch (body : T P α) (handler : Exc → T P α) : T P α := fun env t =>
  match body env t with
  | (.ok a, t1) => (.ok a, t1)
  | (.error e, t1) => handler e env t1

/-- `ctx.<name>`. -/
def ctxGet (proj : Env → Option α) (name : String) : T P α := fun env t =>
  match proj env with
  | some a => (.ok a, t)
  | none => (.error (noCtxAttr name), t)

/-- `getattr(ctx, name, None)`. -/
def ctxGet? (proj : Env → Option α) : T P (Option α) := fun env t => (.ok (proj env), t)

/-- An operation on the current path. -/
def onPath (f : P → Except Exc α × P) : T P α := fun _ t =>
  match t.path with
  | none => (.error (noCtxAttr "src_path"), t)
  | some none => (.error (.attributeError "'NoneType' object has no attribute"), t)
  | some (some (r, p)) => let (x, p') := f p; (x, { t with path := some (some (r, p')) })

/-- `with ctx(**vars)`: only the environment changes. -/
def withEnv (g : Env → Env) (body : T P α) : T P α := fun env t => body (g env) t

/-- `with ctx(src=key)`. -/
def withKey (I : PathOps P) (k : Val) (body : T P α) : T P α := fun env t =>
  match onPath (pathAppend I k) env t with
  | (.error e, t1) => (.error e, t1)
  | (.ok _, t1) => match body { env with src := some (!k.isNull) } t1 with
    | (r, t2) => match onPath (pathPop I) env t2 with
      | (.ok _, t3) => (r, t3)
      | (.error e, t3) => (.error e, t3)

/-- `with ctx(src=source)`: a new path, the old one comes back unchanged. -/
def withSource (mk : Except Exc P) (body : T P α) : T P α := fun env t =>
  match mk with
  | .error e => (.error e, t)
  | .ok p =>
    match body { env with src := some true }
        { t with path := some (some (t.npaths, p)), npaths := t.npaths + 1 } with
    | (r, t') => (r, { t' with path := t.path })

/-- `with ctx.reset()`. -/
def withReset (body : T P α) : T P α := fun env t =>
  match body { env with src := some false } { t with path := some none } with
  | (r, t') => (r, { t' with path := t.path })

/-- `with ctx(errors=...)`: a new list; its final content is part of the result. -/
def withErrs (raising : Bool) (body : T P α) : T P (α × List Err) := fun env t =>
  match body env { t with errs := some { raising := raising, items := [] } } with
  | (.ok a, t') => (.ok (a, t'.errs.elim [] ErrBuf.items), { t' with errs := t.errs })
  | (.error e, t') => (.error e, { t' with errs := t.errs })

/-- The text of the current path. -/
def pathText (I : PathOps P) : T P (String × Option Nat) := fun _ t =>
  match t.path with
  | none => (.error (noCtxAttr "src_path"), t)
  | some none => (.ok ("None", none), t)
  | some (some (r, p)) => match I.render p with
    | .ok x => (.ok (x, some r), t)
    | .error e => (.error e, t)

/-- Append to the current error list. -/
def extend (es : List Err) : T P Unit := fun _ t =>
  match t.errs with
  | none => (.error (noCtxAttr "errors"), t)
  | some b => (.ok (), { t with errs := some { b with items := b.items ++ es } })

/-- `ctx.errors(e)`. -/
def record (e : Err) : T P Unit := fun _ t =>
  match t.errs with
  | none => (.error (noCtxAttr "errors"), t)
  | some b =>
    let b' := { b with items := b.items ++ [e] }
    (if b.raising then .error (.formError b'.items) else .ok (), { t with errs := some b' })

/-- `ctx.errors` is bound. -/
def errsBound : T P Unit := fun _ t =>
  match t.errs with
  | none => (.error (noCtxAttr "errors"), t)
  | some _ => (.ok (), t)

/-- `ctx.errors.missing()` / `ctx.errors.invalid(violation)`. -/
def report (I : PathOps P) (kind : ErrKind) : T P Unit := do
  errsBound
  let field ← ctxGet Env.field "field"
  let (text, pr) ← pathText I
  record { kind := kind, path := text, field := field, pathRef := pr }

/-- The entries of a form. -/
def formItems (id : Nat) : T P (List (Val × Val)) := fun _ t =>
  (.ok ((t.forms[id]?).elim [] FormObj.items), t)

/-- Change the entries of a form. -/
def formModify (id : Nat) (f : List (Val × Val) → List (Val × Val)) : T P Unit := fun _ t =>
  (.ok (), { t with forms := t.forms.modify id fun o => { o with items := f o.items } })

/-- `form_type()`. -/
def newForm (cls : Nat) : T P Nat := fun _ t =>
  (.ok t.forms.length, { t with forms := t.forms ++ [{ cls := cls, items := [] }] })

/-- `type(form)`. -/
def formCls (id : Nat) : T P Nat := fun _ t =>
  match t.forms[id]? with
  | some o => (.ok o.cls, t)
  | none => (.error (.other "ReferenceError" "dangling form"), t)

/-- Set the `parent` attribute of a form. -/
def formParent (id : Nat) (par : Option Parent) : T P Unit := fun _ t =>
  (.ok (), { t with forms := t.forms.modify id fun o => { o with parent := some par } })

end T

/-- "Call `field.map(value)`", lexically. -/
abbrev TRec (P : Type) := Field → Val → T P Val

namespace Lex
variable {P : Type} (I : PathOps P) (L : Lib) (C : Classes)

def invalid (violation : String) : T P Unit := T.report I (.invalid violation)

def missing : T P Unit := T.report I .missing

/-! ### Forms -/

/-- `Form._reset`. -/
def formReset (id : Nat) (tags : List String) : List Field → T P Unit
  | [] => T.pure ()
  | f :: fs => do
    (if selected tags f then T.formModify id (dictDel · f.key) else T.pure ())
    formReset id tags fs

/-- `Form._unmapped` and the update with its result. -/
def unmappedGo (rec : TRec P) (id : Nat) (kf vf : Field) : T P Unit := do
  match ← rec (unmappedField id kf vf) .NONE with
  | .none => T.pure ()
  | .dict kvs => T.formModify id (dictUpdate · kvs)
  | _ => T.raise (.typeError "'_Constant' object is not iterable")

/-- The `unmapped` directive. -/
def applyUnmapped (rec : TRec P) (id : Nat) (u : Unmapped) : T P Unit :=
  match u with
  | .str .none => T.pure ()
  | .str .ignore => T.pure ()
  | .str .capture => unmappedGo rec id captureKeyField captureValueField
  | .str .bad => T.raise (.valueError "unmapped invalid, should be \"capture\" or \"ignore\"")
  | .value vf => unmappedGo rec id captureKeyField vf
  | .pair kf vf => unmappedGo rec id kf vf

/-- One field of the loop of `Form._map`. -/
def mapOne (rec : TRec P) (id : Nat) (tags : List String) (f : Field) : T P Unit :=
  if selected tags f then do
    let v ← rec f .NONE
    if v.isIgnore then T.pure () else T.formModify id (dictSet · f.key v)
  else T.pure ()

/-- The field loop of `Form._map`. -/
def mapFields (rec : TRec P) (id : Nat) (tags : List String) : List Field → T P Unit
  | [] => T.pure ()
  | f :: fs => do
    mapOne rec id tags f
    mapFields rec id tags fs

/-- `Form._map`. -/
def formMapBody (rec : TRec P) (id : Nat) (tags : List String) (u : Unmapped) : T P Unit := do
  let _ ← T.onPath I.mapping
  let cls ← T.formCls id
  T.withEnv (fun env => { env with form := some id, parent := some (.form id) })
    (mapFields rec id tags (C cls).fields)
  applyUnmapped rec id u

/-- `Form._nested_map`; the result is the list of errors. -/
def nestedMap (rec : TRec P) (id : Nat) (tags : List String) (u : Unmapped) (raising : Bool) :
    T P (List Err) := do
  let (_, es) ← T.withErrs raising (formMapBody I C rec id tags u)
  T.extend es
  T.pure es

/-- The source of a root mapping. -/
def rootSource (id : Nat) (src : SrcArg P) : T P (Except Exc P) :=
  match src with
  | .none => T.pure (.ok (I.native (.dict []) Option.none))
  | .source mk => T.pure mk
  | .data (.dict kvs) => T.pure (.ok (I.native (.dict kvs) Option.none))
  | .data (.list xs) => do
    let cls ← T.formCls id
    T.pure (.ok (I.native (.list xs) (some (seqAliases (C cls).fields))))
  | .data (.tuple xs) => do
    let cls ← T.formCls id
    T.pure (.ok (I.native (.tuple xs) (some (seqAliases (C cls).fields))))
  | .data _ => T.raise (.valueError "Invalid src, expected None, dict or Source")

/-- `Form._root_map`. -/
def rootMap (rec : TRec P) (id : Nat) (src : SrcArg P) (tags : List String) (u : Unmapped)
    (raising : Bool) : T P (List Err) := do
  let mk ← rootSource I C id src
  let (_, es) ← T.withErrs raising (T.withSource mk (formMapBody I C rec id tags u))
  T.pure es

/-- `if reset: self._reset(tags)`. -/
def formResetIf (id : Nat) (tags : List String) (reset : Bool) : T P Unit :=
  if reset then do
    let cls ← T.formCls id
    formReset id tags (C cls).fields
  else T.pure ()

/-- The end of `Form.map`. -/
def formFinish (raising : Bool) (es : List Err) : T P (List Err) :=
  if raising then
    if es.isEmpty then T.pure es else T.raise (.formError es)
  else T.pure es

/-- Nested or root mapping. -/
def formMapAt (rec : TRec P) (id : Nat) (src : SrcArg P) (tags : List String) (u : Unmapped)
    (raising : Bool) (ctxSrc : Bool) : T P (List Err) :=
  if src.isNone then
    if ctxSrc then nestedMap I C rec id tags u raising else rootMap I C rec id .none tags u raising
  else rootMap I C rec id src tags u raising

/-- `Form.map`. -/
def formMap (rec : TRec P) (id : Nat) (src : SrcArg P) (tags : List String) (reset : Bool)
    (u : Unmapped) (raising : Bool) : T P (List Err) := do
  let ctxTags ← T.ctxGet? Env.tags
  formResetIf C id (pickTags tags ctxTags) reset
  let ctxSrc ← T.ctxGet Env.src "src"
  let es ← formMapAt I C rec id src (pickTags tags ctxTags) u raising ctxSrc
  formFinish raising es

/-- The end of `Field.__get__`. -/
def getFinish (f : Field) (id : Nat) (v : Val) : T P Val :=
  if v.isIgnore then T.raise (.attributeError "form cannot map field")
  else do
    T.formModify id (dictSet · f.key v)
    T.pure v

/-- Map a field of a form from an empty source. -/
def getEmpty (rec : TRec P) (f : Field) (id : Nat) : T P Val :=
  T.withSource (.ok (I.native (.dict []) none))
    (T.withEnv (fun env => { env with form := some id, parent := some (.form id) }) (rec f .NONE))

/-- `Field.__get__` on a form that is not being mapped by an enclosing `map`. -/
def fieldGet (rec : TRec P) (f : Field) (id : Nat) : T P Val := do
  let items ← T.formItems id
  match dictGet? items f.key with
  | some v => T.pure v
  | none =>
    match ← T.ctxGet? Env.form with
    | none => do
      let (v, _) ← T.withErrs true (getEmpty I rec f id)
      getFinish f id v
    | some _ => do
      let par ← T.ctxGet? Env.parent
      if par = some (.form id) then do
        let v ← rec f .NONE
        getFinish f id v
      else do
        let v ← getEmpty I rec f id
        getFinish f id v

/-! ### Hooks -/

/-- The form a value refers to. -/
def asForm (v : Val) : T P Nat :=
  match v with
  | .form id => T.pure id
  | _ => T.raise (.typeError "not a form")

/-- Meaning of hook programs that do not read attributes of forms (`Prog.Lex`). -/
def evalProg (rec : TRec P) : Prog → T P Val
  | .ret v => T.pure v
  | .raise e => T.raise e
  | .bind p k => T.bind (evalProg rec p) fun v => evalProg rec (k v)
  | .tryCatch p h => T.tryCatch (evalProg rec p) fun e => evalProg rec (h e)
  | .getattr v name => match pyGetAttr L v name with
    | some w => T.pure w
    | none => T.raise (.attributeError ("object has no attribute '" ++ name ++ "'"))
  | .ctxForm => do
    let id ← T.ctxGet Env.form "form"
    T.pure (.form id)
  | .setItem form k v => do
    let id ← asForm form
    T.formModify id (dictSet · k v)
    T.pure .none
  | .delItem form k => do
    let id ← asForm form
    let items ← T.formItems id
    if dictHas items k then do
      T.formModify id (dictDel · k)
      T.pure .none
    else T.raise (.keyError "")
  | .hasItem form k => do
    let id ← asForm form
    let items ← T.formItems id
    if k.hashable then T.pure (.bool (dictHas items k)) else T.raise (.typeError "unhashable type")
  | .invalid msg => do
    invalid I msg
    T.pure .none
  | .missing => do
    missing I
    T.pure .none
  | .pathExists => do
    let b ← T.onPath I.exists_
    T.pure (.bool b)
  | .pathIsNull => do
    let b ← T.onPath I.isNull
    T.pure (.bool b)
  | .pathValue => T.onPath I.value
  | .pathPrimitive ty => T.onPath (I.primitive ty)
  | .pathSequence => do
    let n ← T.onPath I.sequence
    T.pure (.int n)
  | .pathMapping => do
    match ← T.onPath I.mapping with
    | none => T.pure .NONE
    | some kv => match kv.iterErr with
      | none => T.pure (.list kv.ks)
      | some e => T.raise e
  | .withVars v p => T.withEnv (fun env => { env with
      tags := v.tags.or env.tags, ignoreDefault := v.ignoreDefault.or env.ignoreDefault,
      ignoreMissing := v.ignoreMissing.or env.ignoreMissing }) (evalProg rec p)
  | .withKey k p => T.withKey I k (evalProg rec p)
  | .withData d p => T.withSource (.ok (I.native d none)) (evalProg rec p)
  | .withErrors raising p => do
    let (v, _) ← T.withErrs raising (evalProg rec p)
    T.pure v
  | .withReset p => T.withReset (evalProg rec p)
  | .newForm cls => do
    let id ← T.newForm cls
    T.pure (.form id)
  | .mapForm form src tags reset u raising => do
    let id ← asForm form
    let es ← formMap I C rec id (.data src) tags reset (.str u) raising
    T.pure (.int es.length)
  | .mapField cls i v =>
    match (C cls).fields[i]? with
    | some f => rec f v
    | none => T.raise (.indexError "list index out of range")

/-- `self` of a hook. -/
def hookTarget {α : Type} (h : Hook α) : T P Val :=
  match h.target with
  | some t => T.pure t
  | none => do
    let id ← T.ctxGet Env.form "form"
    T.pure (.form id)

/-- Invoke a hook. -/
def callHook (rec : TRec P) (h : Hook Prog) : T P Val := do
  let t ← hookTarget h
  evalProg I L C rec (h.body t)

/-- Invoke a hook with one argument. -/
def callHook1 (rec : TRec P) (h : Hook (Val → Prog)) (v : Val) : T P Val := do
  let t ← hookTarget h
  evalProg I L C rec (h.body t v)

/-! ### The steps of `Field._map` -/

/-- Report a missing value unless `ignore_missing`. -/
def missingNotSet : T P Val := do
  let im ← T.ctxGet Env.ignoreMissing "ignore_missing"
  if im then T.pure .NOT_SET
  else do
    missing I
    T.pure .NOT_SET

/-- `Field._default`. -/
def fieldDefault (rec : TRec P) (f : Field) : T P Val := do
  let ig ← T.ctxGet Env.ignoreDefault "ignore_default"
  if ig then missingNotSet I
  else match f.core.default with
    | .unset => missingNotSet I
    | .hook h => callHook I L C rec h
    | .callable p => evalProg I L C rec p
    | .value (.const .NOT_SET) => missingNotSet I
    | .value (.func id) => T.ofExcept (L.call id)
    | .value v => T.pure v

def rejectWith (msg : String) : T P Bool := do
  invalid I msg
  T.pure false

/-- `Field._validate`. -/
def baseValidate (f : Field) (v : Val) : T P Bool :=
  if v.isNull && !f.core.nullable.truthy then rejectWith I "not nullable" else T.pure true

/-- `String._validate`. -/
def stringValidate (f : Field) (c : StrCfg) (v : Val) : T P Bool := do
  let bad ← T.ofExcept (badChars c v)
  if !bad.isEmpty then do
    let ss ← T.ofExcept (strItems bad)
    rejectWith I ("has invalid characters \"" ++ L.joinSet ss ++ "\"")
  else do
    let short ← T.ofExcept (lenBad c.minLength (fun n b => decide (n < b)) v)
    if short then
      rejectWith I ("\"" ++ L.fmt v ++ "\" must have length >= " ++ toString (c.minLength.getD 0))
    else do
      let long ← T.ofExcept (lenBad c.maxLength (fun n b => decide (b < n)) v)
      if long then
        rejectWith I ("\"" ++ L.fmt v ++ "\" must have length <= " ++ toString (c.maxLength.getD 0))
      else do
        let pat ← T.ofExcept (patternOk c v)
        if !pat then
          rejectWith I ("\"" ++ L.fmt v ++ "\" must match pattern \""
            ++ (c.pattern.elim "" Prod.snd) ++ "\"")
        else if !c.choices.isEmpty &&
            !(v.inList (c.choices ++ f.core.translations.map Prod.snd)) then
          match c.choices with
          | [x] => rejectWith I ("\"" ++ L.fmt v ++ "\" is not \"" ++ L.fmt x ++ "\"")
          | xs => rejectWith I ("\"" ++ L.fmt v ++ "\" is not one of " ++ quoteJoin L xs)
        else T.pure true

/-- The two range checks. -/
def rangeValidate (lo hi : Option Val) (loMsg hiMsg : Val → Val → String) (v : Val) : T P Bool := do
  let low ← T.ofExcept (boundBad (fun v b => pyLt L v b) lo v)
  if low then rejectWith I (loMsg v (lo.getD .none))
  else do
    let high ← T.ofExcept (boundBad (fun v b => pyLt L b v) hi v)
    if high then rejectWith I (hiMsg v (hi.getD .none))
    else T.pure true

def numberValidate (c : NumCfg) (v : Val) : T P Bool :=
  rangeValidate I L c.min c.max
    (fun v b => "\"" ++ L.fmt v ++ "\" must be >= " ++ L.fmt b)
    (fun v b => "\"" ++ L.fmt v ++ "\" must be <= " ++ L.fmt b) v

def dateValidate (c : DateCfg) (v : Val) : T P Bool :=
  rangeValidate I L c.after c.before
    (fun _ b => "Must be after " ++ L.fmt b) (fun _ b => "Must be before " ++ L.fmt b) v

/-- `List._validate`. -/
def listValidate (lo hi : Option Nat) (v : Val) : T P Bool := do
  let short ← T.ofExcept (lenBad lo (fun n b => decide (n < b)) v)
  if short then rejectWith I ("Must have " ++ toString (lo.getD 0) ++ " or more items")
  else do
    let long ← T.ofExcept (lenBad hi (fun n b => decide (b < n)) v)
    if long then rejectWith I ("Must have " ++ toString (hi.getD 0) ++ " or fewer items")
    else T.pure true

/-- `Dict._validate`. -/
def dictValidate (req : Required) (maxKeys : Option Nat) (v : Val) : T P Bool := do
  let miss ← T.ofExcept (missingKeys req v)
  if !miss.isEmpty then
    match L.joinKeys miss with
    | some t => rejectWith I ("Missing required keys " ++ t)
    | none => T.raise (.typeError "sequence item: expected string")
  else match maxKeys with
    | none => T.pure true
    | some 0 => T.pure true
    | some m => do
      let n ← T.ofExcept (pyLen v)
      if m < n then rejectWith I ("Cannot have more than " ++ toString m ++ " key(s)")
      else T.pure true

/-- `self._validate(value)`. -/
def kindValidate (f : Field) (v : Val) : T P Bool := do
  let ok ← baseValidate I f v
  if !ok then T.pure false
  else if v.isNull then T.pure true
  else match f.kind with
    | .string c => stringValidate I L f c v
    | .integer c => numberValidate I L c v
    | .float c => numberValidate I L c v
    | .decimal c => numberValidate I L c v
    | .date c => dateValidate I L c v
    | .time c => dateValidate I L c v
    | .datetime c => dateValidate I L c v
    | .list _ lo hi _ => listValidate I lo hi v
    | .dict _ _ _ req mx => dictValidate I L req mx v
    | _ => T.pure true

/-! ### `_parse` -/

def failWith (msg : String) : T P Val := do
  invalid I msg
  T.pure .ERROR

def decimalParse : T P Val := do
  let v ← T.onPath I.value
  match v with
  | .decimal x => T.pure (.decimal x)
  | .int i => T.pure (.decimal (.fin (i : Rat)))
  | .bool b => T.pure (.decimal (.fin (if b then 1 else 0)))
  | .float x => T.pure (.decimal x)
  | _ => do
    let p ← T.onPath (I.primitive .str)
    match p with
    | .str s => match L.decimalOfStr s with
      | some x => T.pure (.decimal x)
      | none => T.raise (.other "InvalidOperation" "Invalid literal for Decimal")
    | _ => T.raise (.typeError "Cannot convert to Decimal")

def dateParse (c : DateCfg) : T P Val := do
  let v ← T.onPath I.value
  match v with
  | .ext .date d => T.pure (.ext .date d)
  | .ext .datetime d => T.pure (.ext .datetime d)
  | _ => do
    let p ← T.onPath (I.primitive .str)
    if c.format.isEmpty then failWith I ("Unknown format for value \"" ++ L.fmt p ++ "\"")
    else match p with
      | .str s => T.pure (dateLoop L s c.format)
      | _ => T.raise (.typeError "expected string")

def timeParse (c : DateCfg) : T P Val := do
  let v ← T.onPath I.value
  match v with
  | .ext .structTime d => T.pure (.ext .structTime d)
  | .ext .time d => T.pure (.ext .time d)
  | _ => do
    let p ← T.onPath (I.primitive .str)
    match c.format with
    | [] => failWith I ("Unknown format for value \"" ++ L.fmt p ++ "\"")
    | spec :: _ => match p with
      | .str s => match L.strptimeTime spec s with
        | some d => T.pure (.ext .structTime d)
        | none => T.raise (.valueError "time data does not match format")
      | _ => T.raise (.typeError "strptime() argument 0 must be str")

def datetimeParse (c : DateCfg) : T P Val := do
  let v ← T.onPath I.value
  match v with
  | .ext .datetime d => T.pure (.ext .datetime d)
  | _ => do
    let p ← T.onPath (I.primitive .str)
    match c.format with
    | [] => failWith I ("Unknown format for value \"" ++ L.fmt p ++ "\"")
    | spec :: _ => match p with
      | .str s =>
        if spec = "iso8601" then
          match L.iso8601 s with
          | some d => T.pure (.ext .datetime d)
          | none => failWith I "Unable to parse date string"
        else match L.strptimeDatetime spec s with
          | some d => T.pure (.ext .datetime d)
          | none => T.raise (.valueError "time data does not match format")
      | _ => T.raise (.typeError "expected string")

/-- The loop of `Tuple._parse`. -/
def tupleLoop (rec : TRec P) : Nat → List Field → T P (List Val)
  | _, [] => T.pure []
  | i, f :: fs => do
    let item ← T.withKey I (.int i) (rec f .NONE)
    let rest ← tupleLoop rec (i + 1) fs
    T.pure (if item.isIgnore then rest else item :: rest)

def tupleParse (rec : TRec P) (fs : List Field) : T P Val := do
  let n ← T.onPath I.sequence
  if n ≠ fs.length then failWith I ("Must have exactly " ++ toString fs.length ++ " items")
  else do
    let items ← tupleLoop I rec 0 fs
    T.pure (.tuple items)

/-- The loop of `List._parse`. -/
def listLoop (rec : TRec P) (f : Field) : Nat → Nat → T P (List Val)
  | _, 0 => T.pure []
  | i, n + 1 => do
    let item ← T.withKey I (.int i) (rec f .NONE)
    let rest ← listLoop rec f (i + 1) n
    T.pure (if item.isIgnore then rest else item :: rest)

def pathHasSrc : T P Bool := T.onPath fun p => (.ok (I.hasSrc p), p)

def seqTry : T P (Except Exc Nat) :=
  T.tryCatch (do let n ← T.onPath I.sequence; T.pure (.ok n)) fun e => do
    let hs ← pathHasSrc I
    if !hs then T.raise (.attributeError "'MountPath' object has no attribute 'src'")
    else if e.isSourceError then T.pure (.error e)
    else T.raise e

def listParse (rec : TRec P) (f : Field) (allowField : Bool) : T P Val := do
  match ← seqTry I with
  | .ok n => do
    let items ← listLoop I rec f 0 n
    T.pure (.list items)
  | .error e =>
    if !allowField then T.raise e
    else do
      let v ← rec f .NONE
      T.pure (if v.isIgnore then v else .list [v])

def keepKey (rec : TRec P) (kfl : Option (Hook (Val → Prog))) (k : Val) : T P Bool :=
  match kfl with
  | none => T.pure true
  | some h => do
    let v ← callHook1 I L C rec h k
    T.pure v.truthy

/-- The loop of `Dict._parse`. -/
def dictLoop (rec : TRec P) (kf vf : Field) (kfl : Option (Hook (Val → Prog))) :
    List Val → List (Val × Val) → T P (List (Val × Val))
  | [], acc => T.pure acc
  | k :: ks, acc => do
    let keep ← keepKey I L C rec kfl k
    if !keep then dictLoop rec kf vf kfl ks acc
    else do
      let v ← T.withKey I k (rec vf .NONE)
      if v.isIgnore then dictLoop rec kf vf kfl ks acc
      else do
        let k' ← rec kf k
        if k'.isIgnore then dictLoop rec kf vf kfl ks acc
        else if !k'.hashable then T.raise (.typeError "unhashable type")
        else dictLoop rec kf vf kfl ks (dictSet acc k' v)

def iterKeys (kv : KeysView) : T P (List Val) :=
  match kv.iterErr with
  | none => T.pure kv.ks
  | some e => T.raise e

def dictParse (rec : TRec P) (f : Field) (kf vf : Field) (kfl : Option (Hook (Val → Prog))) :
    T P Val := do
  match ← T.onPath I.mapping with
  | none => fieldDefault I L C rec f
  | some kv => do
    let ks ← iterKeys kv
    let m ← dictLoop I L C rec kf vf kfl ks []
    T.pure (.dict m)

def codeParse : T P Val := do
  let v ← T.onPath (I.primitive .auto)
  match v with
  | .str s =>
    if Code.inlineMatch s then
      match Code.compile L s with
      | .ok r => T.pure r
      | .error e => failWith I e.str
    else match Code.importMatch L s with
      | some (name, attr) =>
        match Code.load L name attr with
        | .ok r => T.pure r
        | .error e => failWith I e.str
      | none => failWith I ("\"" ++ s ++ "\" does not match import pattern \"" ++ Code.patternText ++ "\" and is not a code block")
  | v => T.pure v

def uuidParse : T P Val := do
  let v ← T.onPath (I.primitive .auto)
  match v with
  | .ext .uuid n => T.pure (.ext .uuid n)
  | _ => do
    let p ← T.onPath (I.primitive .str)
    match p with
    | .str s => match L.uuidOfStr s with
      | some n => T.pure (.ext .uuid n)
      | none => T.raise (.valueError "badly formed hexadecimal UUID string")
    | _ => T.raise (.attributeError "object has no attribute 'replace'")

/-- `SubForm._parse`. -/
def subParse (rec : TRec P) (cls : Nat) (reset : Bool) (u : Unmapped) : T P Val := do
  let id ← T.newForm cls
  let es ← formMap I C rec id .none [] reset u false
  T.pure (if es.isEmpty then .form id else .ERROR)

def probeSrc : T P (SrcArg P) := do
  let v ← T.onPath I.value
  T.onPath fun p => (.ok (match I.joinPath p with
    | some mk => .source mk
    | none => .data v), p)

/-- `Types.probe`. -/
def probe (rec : TRec P) (tf : Field) (probeCls : Nat) (src : SrcArg P) : T P Val := do
  let id ← T.newForm probeCls
  let es ← formMap I C rec id src [] false (.str .ignore) false
  match es with
  | [] => fieldGet I rec tf id
  | err :: _ => T.raise (.fieldError err)

/-- `PolymorphicSubForm._form_type`. -/
def polyType (rec : TRec P) (tf : Field) (probeCls : Nat) (types : List (Val × Nat)) :
    T P (Option (Option Nat)) := do
  let identity ← T.tryCatch (do
      let src ← probeSrc I
      let v ← probe I C rec tf probeCls src
      T.pure (some v)) fun e =>
    if e.isValueError then do
      invalid I e.str
      T.pure none
    else T.raise e
  match identity with
  | none => T.pure (some none)
  | some .none => T.pure none
  | some v =>
    if !v.hashable then T.raise (.typeError "unhashable type")
    else match types.find? (fun p => v.pyEq p.1) with
      | some p => T.pure (some (some p.2))
      | none => do
        invalid I ("invalid identity " ++ L.fmt v)
        T.pure (some none)

def polyParse (rec : TRec P) (tf : Field) (probeCls : Nat) (types : List (Val × Nat)) (reset : Bool)
    (u : Unmapped) : T P Val := do
  match ← polyType I L C rec tf probeCls types with
  | none => T.pure .NONE
  | some none => T.pure .ERROR
  | some (some cls) => subParse I C rec cls reset u

/-- The loop of `Group._parse`. -/
def groupLoop (rec : TRec P) (fs : List (GSrc × Field)) :
    List Val → Bool → List Val → T P (Option (List Val))
  | [], matched, acc => T.pure (if matched then some acc else none)
  | k :: ks, matched, acc => do
    match ← T.ofExcept (groupMatch fs k) with
    | none => groupLoop rec fs ks matched acc
    | some (f, cap) => do
      let v ← T.withKey I k (rec f .NONE)
      if v.isIgnore then groupLoop rec fs ks true acc
      else groupLoop rec fs ks true (acc ++ [.tuple [k, cap, v]])

def groupParse (rec : TRec P) (f : Field) (fs : List (GSrc × Field)) : T P Val := do
  match ← T.onPath I.mapping with
  | none => fieldDefault I L C rec f
  | some kv => do
    let ks ← iterKeys kv
    match ← groupLoop I rec fs ks false [] with
    | some vs => T.pure (.list vs)
    | none => T.pure .NONE

/-- `self._parse(path)`. -/
def kindParse (rec : TRec P) (f : Field) : T P Val :=
  match f.kind with
  | .base => T.onPath (I.primitive .auto)
  | .string _ => T.onPath (I.primitive .str)
  | .integer _ => T.onPath (I.primitive .int)
  | .float _ => T.onPath (I.primitive .float)
  | .decimal _ => decimalParse I L
  | .boolean => T.onPath (I.primitive .bool)
  | .date c => dateParse I L c
  | .time c => timeParse I L c
  | .datetime c => datetimeParse I L c
  | .tuple fs => tupleParse I rec fs
  | .list g _ _ allow => listParse I rec g allow
  | .dict kf vf kfl _ _ => dictParse I L C rec f kf vf kfl
  | .code => codeParse I L
  | .uuid => uuidParse I L
  | .subform cls reset u => subParse I C rec cls reset u
  | .poly tf pc types reset u => polyParse I L C rec tf pc types reset u
  | .group fs => groupParse I L C rec f fs

/-! ### `Field.map` -/

def fieldParse (rec : TRec P) (f : Field) : T P Val :=
  match f.core.parse with
  | some h => callHook I L C rec h
  | none => kindParse I L C rec f

/-- `Field._compute`. -/
def fieldCompute (rec : TRec P) (f : Field) : T P Val := do
  let ex ← T.onPath I.exists_
  if !ex then T.pure .NONE
  else do
    let nl ← T.onPath I.isNull
    if nl then T.pure .none
    else T.tryCatch (fieldParse I L C rec f) fun e =>
      if e.isSourceError || e.isValueError then failWith I e.str else T.raise e

def mungeStep (rec : TRec P) (f : Field) (v : Val) : T P Val := do
  let v ← T.ofExcept (fieldMunge f v)
  if v.isIgnore then T.pure v
  else match f.core.munge with
    | some h => callHook1 I L C rec h v
    | none => T.pure v

def filterStep (rec : TRec P) (f : Field) (v : Val) : T P Bool :=
  if fieldFilter f v then
    match f.core.filter with
    | some h => do
      let r ← callHook1 I L C rec h v
      T.pure r.truthy
    | none => T.pure true
  else T.pure false

def validateStep (rec : TRec P) (f : Field) (v : Val) : T P Bool := do
  let ok ← kindValidate I L f v
  if ok then
    match f.core.validate with
    | some h => do
      let r ← callHook1 I L C rec h v
      T.pure r.truthy
    | none => T.pure true
  else T.pure false

/-- Munge, filter and validate. -/
def fieldCheck (rec : TRec P) (f : Field) (v : Val) : T P Val := do
  let v ← mungeStep I L C rec f v
  if v.isNONE then fieldDefault I L C rec f
  else if v.isIgnore then T.pure v
  else do
    let keep ← filterStep I L C rec f v
    if !keep then fieldDefault I L C rec f
    else do
      let ok ← validateStep I L C rec f v
      T.pure (if ok then v else .ERROR)

def computeStep (rec : TRec P) (f : Field) : T P Val :=
  match f.core.compute with
  | some h => callHook I L C rec h
  | none => fieldCompute I L C rec f

def fieldStart (rec : TRec P) (f : Field) : T P Val := do
  let v ← computeStep I L C rec f
  if v.isNONE then
    match f.core.default with
    | .hook h => callHook I L C rec h
    | _ => fieldDefault I L C rec f
  else if v.isIgnore then T.pure v
  else fieldCheck I L C rec f v

/-- Run `body` with the source this field resolves to. -/
def withResolve {α : Type} (rec : TRec P) (f : Field) (body : T P α) : T P α :=
  match f.core.resolve with
  | some (.key h) => do
    let k ← callHook I L C rec h
    if k.isNull then body else T.withKey I k body
  | some (.data h) => do
    let d ← callHook I L C rec h
    if d.isNull then body else T.withSource (.ok (I.native d none)) body
  | none =>
    match f.kind with
    | .group _ => body
    | _ => if noSrc f.core.src then body else T.withKey I f.core.src body

def fieldMapInner (rec : TRec P) (f : Field) (value : Val) : T P Val :=
  if value.isNONE then withResolve I L C rec f (fieldStart I L C rec f)
  else fieldCheck I L C rec f value

def setParent (v : Val) : T P Unit := do
  let par ← T.ctxGet? Env.parent
  match v with
  | .form id => T.formParent id par
  | .func _ => T.pure ()
  | .obj _ => T.pure ()
  | _ => T.raise (.attributeError "object has no attribute 'parent'")

/-- `Field.map`. -/
def mapFieldF (rec : TRec P) (f : Field) (value : Val) : T P Val := do
  let v ← T.withEnv (fun env => { env with field := some f.name, parent := some .field })
    (fieldMapInner I L C rec f value)
  if f.core.attachParent && !v.isIgnore then setParent v
  T.pure v

/-- `field.map(value)` with recursion budget `n`. -/
def mapField : Nat → TRec P
  | 0 => fun _ _ => T.raise .recursion
  | n + 1 => mapFieldF I L C (mapField n)

end Lex
end Pilo
