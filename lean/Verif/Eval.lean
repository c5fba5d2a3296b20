import Verif.Field
import Verif.Code

/-!
# The mapping algorithm of `pilo/fields.py`

Python's recursion (fields map sub forms, which map fields; hooks read attributes, which map fields)
is tied through one parameter `rec`, the function "map this field"; `mapField` closes the knot
with a recursion budget.
-/

namespace Pilo

/-- "Call `field.map(value)`". -/
abbrev Rec (P : Type) := Field → Val → M P Val

/-- The `src` argument of `Form.map`: `None`, plain data, or a `Source`. -/
inductive SrcArg (P : Type) where
  | none
  | data (v : Val)
  | source (mk : Except Exc P)

section
variable {P : Type} (I : PathOps P) (L : Lib) (C : Classes)

/-- `field.src` values for which `Field._resolve` pushes nothing (`pilo/fields.py:492`). -/
def noSrc (v : Val) : Bool := v.isNull || v.isNONE

/-- A computation on `ctx.src_path` that returns its value. -/
def readPath {α : Type} (f : P → Except Exc α × P) : M P α := onPath f

/-! ### Form operations used by the evaluator -/

/-- `pilo/fields.py:1581-1587`: the aliases of `_seq_source`. -/
def seqAliases (fields : List Field) : List (Val × Val) :=
  ((fields.zipIdx).map fun (f, i) => (f.key, Val.int (i : Int))).foldl
    (fun d kv => dictSet d kv.1 kv.2) []

/-- Whether the `tags` filter of `_map` and `_reset` selects a field
(`pilo/fields.py:1591,1602`). -/
def selected (tags : List String) (f : Field) : Bool :=
  tags.isEmpty || f.core.tags.any (fun t => tags.contains t)

/-- `pilo/fields.py:1589-1596`: `_reset`. -/
def formReset (id : Nat) (tags : List String) : List Field → M P Unit
  | [] => M.pure ()
  | f :: fs => do
    (if selected tags f then formDel id f.key else M.pure ())
    formReset id tags fs

/-- `type(self)` of a form. -/
def formCls (id : Nat) : M P Nat := fun s =>
  match s.forms[id]? with
  | some o => (.ok o.cls, s)
  | none => (.error (.other "ReferenceError" "dangling form"), s)

/-- The key field of the `Dict` built by `_unmapped`: `String()`, attached (lines 1616,1625). -/
def captureKeyField : Field := .mk { src := .none } (.string {})

/-- The value field of `unmapped='capture'`: `Field()`, attached (line 1616). -/
def captureValueField : Field := .mk { src := .none } .base

/-- `pilo/fields.py:1627-1628`: the `Dict` field built by `_unmapped`, with its key filter attached to
the form: `key not in self`. -/
def unmappedField (id : Nat) (kf vf : Field) : Field :=
  .mk {} (.dict kf vf
    (some { target := some (.form id),
            body := fun self key => .bind (.hasItem self key) fun r => .ret (.bool (!r.truthy)) })
    (.list []) none)

/-- `pilo/fields.py:1611-1629`: `_unmapped`, followed by the `update` of lines 1608-1609. -/
def applyUnmapped (rec : Rec P) (id : Nat) (u : Unmapped) : M P Unit :=
  let go (kf vf : Field) : M P Unit := do
    match ← rec (unmappedField id kf vf) .NONE with
    | .none => M.pure ()
    | .dict kvs => formModify id (dictUpdate · kvs)
    | _ => M.raise (.typeError "'_Constant' object is not iterable")
  match u with
  | .str .none => M.pure ()
  | .str .ignore => M.pure ()
  | .str .capture => go captureKeyField captureValueField
  | .str .bad => M.raise (.valueError "unmapped invalid, should be \"capture\" or \"ignore\"")
  | .value vf => go captureKeyField vf
  | .pair kf vf => go kf vf

/-- `pilo/fields.py:1602-1606`: one round of the field loop of `_map`. -/
def mapOne (rec : Rec P) (id : Nat) (tags : List String) (f : Field) : M P Unit :=
  if selected tags f then do
    let v ← rec f .NONE
    if v.isIgnore then M.pure () else formSet id f.key v
  else M.pure ()

/-- `pilo/fields.py:1601-1606`: the field loop of `_map`. -/
def mapFields (rec : Rec P) (id : Nat) (tags : List String) : List Field → M P Unit
  | [] => M.pure ()
  | f :: fs => do
    mapOne rec id tags f
    mapFields rec id tags fs

/-- `pilo/fields.py:1598-1609`: `Form._map`. -/
def formMapBody (rec : Rec P) (id : Nat) (tags : List String) (u : Unmapped) : M P Unit := do
  let _ ← readPath I.mapping
  let cls ← formCls id
  withPush I (pushVars { form := some id, parent := some (.form id) })
    (mapFields rec id tags (C cls).fields)
  applyUnmapped rec id u

/-- `pilo/fields.py:1652-1658`: `_nested_map`. -/
def nestedMap (rec : Rec P) (id : Nat) (tags : List String) (u : Unmapped) (raising : Bool) :
    M P Nat := do
  let e ← newErrs raising
  withPush I (pushVars { errors := some e }) (formMapBody I C rec id tags u)
  let outer ← ctxGet Frame.errors "errors"
  let es ← errItems e
  errExtend outer es
  M.pure e

/-- `pilo/fields.py:1636-1645`: the source a root mapping reads from. -/
def rootSource (id : Nat) (src : SrcArg P) : M P (Except Exc P) :=
  match src with
  | .none => M.pure (.ok (I.native (.dict []) Option.none))
  | .source mk => M.pure mk
  | .data (.dict kvs) => M.pure (.ok (I.native (.dict kvs) Option.none))
  | .data (.list xs) => do
    let cls ← formCls id
    M.pure (.ok (I.native (.list xs) (some (seqAliases (C cls).fields))))
  | .data (.tuple xs) => do
    let cls ← formCls id
    M.pure (.ok (I.native (.tuple xs) (some (seqAliases (C cls).fields))))
  | .data _ => M.raise (.valueError "Invalid src, expected None, dict or Source")

/-- `pilo/fields.py:1631-1650`: `_root_map`. -/
def rootMap (rec : Rec P) (id : Nat) (src : SrcArg P) (tags : List String) (u : Unmapped)
    (raising : Bool) : M P Nat := do
  let mk ← rootSource I C id src
  let e ← newErrs raising
  withPush I (pushSource mk { errors := some e }) (formMapBody I C rec id tags u)
  M.pure e

/-- `src is None` for a source argument. -/
def SrcArg.isNone : SrcArg P → Bool
  | .none => true
  | .data v => v.isNull
  | .source _ => false

/-- `pilo/fields.py:1663-1664`: `if reset: self._reset(tags)`. -/
def formResetIf (id : Nat) (tags : List String) (reset : Bool) : M P Unit :=
  if reset then do
    let cls ← formCls id
    formReset id tags (C cls).fields
  else M.pure ()

/-- `pilo/fields.py:1670-1674`: the end of `Form.map`. -/
def formFinish (raising : Bool) (e : Nat) : M P Nat :=
  if raising then do
    let es ← errItems e
    if es.isEmpty then M.pure e else M.raise (.formError es)
  else M.pure e

/-- The `tags` argument, by default `ctx.tags` (`pilo/fields.py:1661-1662`). -/
def pickTags (tags : List String) (ctxTags : Option (List String)) : List String :=
  if tags.isEmpty then ctxTags.getD [] else tags

/-- `pilo/fields.py:1665-1669`: nested or root mapping. -/
def formMapAt (rec : Rec P) (id : Nat) (src : SrcArg P) (tags : List String) (u : Unmapped)
    (raising : Bool) (ctxSrc : Bool) : M P Nat :=
  if src.isNone then
    if ctxSrc then nestedMap I C rec id tags u raising else rootMap I C rec id .none tags u raising
  else rootMap I C rec id src tags u raising

/-- `pilo/fields.py:1660-1674`: `Form.map`; the result is the returned error list (for
`error='raise'`, the list that was empty). -/
def formMap (rec : Rec P) (id : Nat) (src : SrcArg P) (tags : List String) (reset : Bool)
    (u : Unmapped) (raising : Bool) : M P Nat := do
  let ctxTags ← ctxGet? Frame.tags
  formResetIf C id (pickTags tags ctxTags) reset
  let ctxSrc ← ctxGet (fun f => f.src.src?) "src"
  let e ← formMapAt I C rec id src (pickTags tags ctxTags) u raising ctxSrc
  formFinish raising e

/-! ### `Field.__get__` -/

/-- `pilo/fields.py:647-653`: the end of `__get__`. -/
def getFinish (f : Field) (id : Nat) (v : Val) : M P Val :=
  if v.isIgnore then M.raise (.attributeError "form cannot map field")
  else do
    formSet id f.key v
    M.pure v

/-- `pilo/fields.py:637-638`: `is_form`. -/
def isFormFrame (id : Nat) (fr : Frame) : Bool := fr.parent == some (.form id)

/-- `pilo/fields.py:622-653`: `Field.__get__` for a form instance. -/
def fieldGet (rec : Rec P) (f : Field) (id : Nat) : M P Val := do
  let items ← formItems id
  match dictGet? items f.key with
  | some v => M.pure v
  | none =>
    match ← ctxGet? Frame.form with
    | none => do
      let e ← newErrs true
      let v ← withPush I (pushSource (.ok (I.native (.dict []) none))
        { form := some id, parent := some (.form id), errors := some e }) (rec f .NONE)
      getFinish f id v
    | some _ => do
      let par ← ctxGet? Frame.parent
      if par = some (.form id) then do
        let v ← rec f .NONE
        getFinish f id v
      else
        M.tryCatch (withRewind I (isFormFrame id) (rec f .NONE)) fun ex =>
          match ex with
          | .rewindDidNotStop => do
            let v ← withPush I (pushSource (.ok (I.native (.dict []) none))
              { form := some id, parent := some (.form id) }) (rec f .NONE)
            getFinish f id v
          | ex => M.raise ex

/-- The field of a class with a given attribute name. -/
def ClassDef.field? (c : ClassDef) (name : String) : Option Field :=
  c.fields.find? (fun f => f.name == some name)

/-- `getattr(form, name)`: fields are data descriptors.  Other attributes of a form class are not
modelled. -/
def formGetattr (rec : Rec P) (id : Nat) (name : String) : M P Val := do
  let cls ← formCls id
  match (C cls).field? name with
  | some f => fieldGet I rec f id
  | none => M.raise (.attributeError ("object has no attribute '" ++ name ++ "'"))

/-! ### Hook programs -/

/-- The form a value refers to. -/
def asForm (v : Val) : M P Nat :=
  match v with
  | .form id => M.pure id
  | _ => M.raise (.typeError "not a form")

/-- Meaning of hook programs. -/
def evalProg (rec : Rec P) : Prog → M P Val
  | .ret v => M.pure v
  | .raise e => M.raise e
  | .bind p k => M.bind (evalProg rec p) fun v => evalProg rec (k v)
  | .tryCatch p h => M.tryCatch (evalProg rec p) fun e => evalProg rec (h e)
  | .getattr (.form id) name => formGetattr I C rec id name
  | .getattr v name => match pyGetAttr L v name with
    | some w => M.pure w
    | none => M.raise (.attributeError ("object has no attribute '" ++ name ++ "'"))
  | .ctxForm => do
    let id ← ctxGet Frame.form "form"
    M.pure (.form id)
  | .setItem form k v => do
    let id ← asForm form
    formSet id k v
    M.pure .none
  | .delItem form k => do
    let id ← asForm form
    let items ← formItems id
    if dictHas items k then do
      formDel id k
      M.pure .none
    else M.raise (.keyError "")
  | .hasItem form k => do
    let id ← asForm form
    let items ← formItems id
    if k.hashable then M.pure (.bool (dictHas items k)) else M.raise (.typeError "unhashable type")
  | .invalid msg => do
    invalid I msg
    M.pure .none
  | .missing => do
    missing I
    M.pure .none
  | .pathExists => do
    let b ← readPath I.exists_
    M.pure (.bool b)
  | .pathIsNull => do
    let b ← readPath I.isNull
    M.pure (.bool b)
  | .pathValue => readPath I.value
  | .pathPrimitive ty => readPath (I.primitive ty)
  | .pathSequence => do
    let n ← readPath I.sequence
    M.pure (.int n)
  | .pathMapping => do
    match ← readPath I.mapping with
    | none => M.pure .NONE
    | some kv => match kv.iterErr with
      | none => M.pure (.list kv.ks)
      | some e => M.raise e
  | .withVars v p => withPush I (pushVars v.frame) (evalProg rec p)
  | .withKey k p => withPush I (pushKey I k) (evalProg rec p)
  | .withData d p => withPush I (pushSource (.ok (I.native d none))) (evalProg rec p)
  | .withErrors raising p => do
    let e ← newErrs raising
    withPush I (pushVars { errors := some e }) (evalProg rec p)
  | .withReset p => withPush I pushReset (evalProg rec p)
  | .newForm cls => do
    let id ← newForm cls
    M.pure (.form id)
  | .mapForm form src tags reset u raising => do
    let id ← asForm form
    let e ← formMap I C rec id (.data src) tags reset (.str u) raising
    let es ← errItems e
    M.pure (.int es.length)
  | .mapField cls i v =>
    match (C cls).fields[i]? with
    | some f => rec f v
    | none => M.raise (.indexError "list index out of range")

/-- `pilo/fields.py:226-230`: `self` of a hook: the attached target or `ctx.form`. -/
def hookTarget {α : Type} (h : Hook α) : M P Val :=
  match h.target with
  | some t => M.pure t
  | none => do
    let id ← ctxGet Frame.form "form"
    M.pure (.form id)

/-- Invoke a hook without further arguments (`pilo/fields.py:226-230`). -/
def callHook (rec : Rec P) (h : Hook Prog) : M P Val := do
  let t ← hookTarget h
  evalProg I L C rec (h.body t)

/-- Invoke a hook with one argument. -/
def callHook1 (rec : Rec P) (h : Hook (Val → Prog)) (v : Val) : M P Val := do
  let t ← hookTarget h
  evalProg I L C rec (h.body t v)

/-! ### The steps of `Field._map` -/

/-- `if not self.ctx.ignore_missing: self.ctx.errors.missing()`, `return NOT_SET`
(`pilo/fields.py:534-536` etc.). -/
def missingNotSet : M P Val := do
  let im ← ctxGet Frame.ignoreMissing "ignore_missing"
  if im then M.pure .NOT_SET
  else do
    missing I
    M.pure .NOT_SET

/-- `pilo/fields.py:529-551`: `Field._default`. -/
def fieldDefault (rec : Rec P) (f : Field) : M P Val := do
  let ig ← ctxGet Frame.ignoreDefault "ignore_default"
  if ig then missingNotSet I
  else match f.core.default with
    | .unset => missingNotSet I
    | .hook h => callHook I L C rec h
    | .callable p => evalProg I L C rec p
    | .value (.const .NOT_SET) => missingNotSet I
    | .value (.func id) => M.ofExcept (L.call id)
    | .value v => M.pure v

/-- `pilo/fields.py:521-527`: `Field._munge`. -/
def fieldMunge (f : Field) (v : Val) : Except Exc Val :=
  if f.core.translations.isEmpty then .ok v
  else if !v.hashable then .error (.typeError "unhashable type")
  else .ok ((dictGet? f.core.translations v).getD v)

/-- `pilo/fields.py:503-509`: `Field._filter`. -/
def fieldFilter (f : Field) (v : Val) : Bool := !(v.inList f.core.ignores)

/-- `self.ctx.errors.invalid(msg); return False`. -/
def rejectWith (msg : String) : M P Bool := do
  invalid I msg
  M.pure false

/-- `pilo/fields.py:511-519`: `Field._validate`. -/
def baseValidate (f : Field) (v : Val) : M P Bool :=
  if v.isNull && !f.core.nullable.truthy then rejectWith I "not nullable" else M.pure true

/-- The items of an iterable. -/
def iterVals : Val → Except Exc (List Val)
  | .str s => .ok (s.toList.map fun c => .str (String.ofList [c]))
  | .list xs => .ok xs
  | .tuple xs => .ok xs
  | .dict kvs => .ok (kvs.map Prod.fst)
  | _ => .error (.typeError "object is not iterable")

/-- `''.join(...)` needs strings. -/
def strItems : List Val → Except Exc (List String)
  | [] => .ok []
  | .str s :: xs => match strItems xs with
    | .ok ss => .ok (s :: ss)
    | .error e => .error e
  | _ :: _ => .error (.typeError "sequence item: expected string")

/-- `'"{0}"'.format(c)` joined with `', '` (line 764). -/
def quoteJoin (cs : List Val) : String :=
  String.intercalate ", " (cs.map fun c => "\"" ++ L.fmt c ++ "\"")

/-- `pilo/fields.py:752`: the pattern check; `match` needs a string. -/
def patternOk (c : StrCfg) (v : Val) : Except Exc Bool :=
  match c.pattern with
  | none => .ok true
  | some (m, _) => match v with
    | .str s => .ok (m s)
    | _ => .error (.typeError "expected string or bytes-like object")

/-- `pilo/fields.py:736`: the characters outside the alphabet. -/
def badChars (c : StrCfg) (v : Val) : Except Exc (List Val) :=
  if c.alphabet.isEmpty then .ok []
  else match iterVals v with
    | .ok cs => .ok (cs.filter fun x => !(x.inList (c.alphabet.map Val.str)))
    | .error e => .error e

/-- `pilo/fields.py:742,747`: `bound is not None and bad(len(value))`. -/
def lenBad (bound : Option Nat) (bad : Nat → Nat → Bool) (v : Val) : Except Exc Bool :=
  match bound with
  | none => .ok false
  | some b => match pyLen v with
    | .ok n => .ok (bad n b)
    | .error e => .error e

/-- `pilo/fields.py:730-767`: `String._validate` after the base check, for a non-null value. -/
def stringValidate (f : Field) (c : StrCfg) (v : Val) : M P Bool := do
  let bad ← M.ofExcept (badChars c v)
  if !bad.isEmpty then do
    let ss ← M.ofExcept (strItems bad)
    rejectWith I ("has invalid characters \"" ++ L.joinSet ss ++ "\"")
  else do
    let short ← M.ofExcept (lenBad c.minLength (fun n b => decide (n < b)) v)
    if short then
      rejectWith I ("\"" ++ L.fmt v ++ "\" must have length >= " ++ toString (c.minLength.getD 0))
    else do
      let long ← M.ofExcept (lenBad c.maxLength (fun n b => decide (b < n)) v)
      if long then
        rejectWith I ("\"" ++ L.fmt v ++ "\" must have length <= " ++ toString (c.maxLength.getD 0))
      else do
        let pat ← M.ofExcept (patternOk c v)
        if !pat then
          rejectWith I ("\"" ++ L.fmt v ++ "\" must match pattern \""
            ++ (c.pattern.elim "" Prod.snd) ++ "\"")
        else if !c.choices.isEmpty &&
            !(v.inList (c.choices ++ f.core.translations.map Prod.snd)) then
          match c.choices with
          | [x] => rejectWith I ("\"" ++ L.fmt v ++ "\" is not \"" ++ L.fmt x ++ "\"")
          | xs => rejectWith I ("\"" ++ L.fmt v ++ "\" is not one of " ++ quoteJoin L xs)
        else M.pure true

/-- `bound is not None and value < bound` / `value > bound`. -/
def boundBad (lt : Val → Val → Except Exc Bool) (bound : Option Val) (v : Val) : Except Exc Bool :=
  match bound with
  | none => .ok false
  | some b => lt v b

/-- The two range checks shared by `Number`, `Date`, `Time` and `Datetime`
(`pilo/fields.py:795-806,936-943,975-982,1019-1026`). -/
def rangeValidate (lo hi : Option Val) (loMsg hiMsg : Val → Val → String) (v : Val) : M P Bool := do
  let low ← M.ofExcept (boundBad (fun v b => pyLt L v b) lo v)
  if low then rejectWith I (loMsg v (lo.getD .none))
  else do
    let high ← M.ofExcept (boundBad (fun v b => pyLt L b v) hi v)
    if high then rejectWith I (hiMsg v (hi.getD .none))
    else M.pure true

/-- `pilo/fields.py:792-806`: `Number._validate` after the base check. -/
def numberValidate (c : NumCfg) (v : Val) : M P Bool :=
  rangeValidate I L c.min c.max
    (fun v b => "\"" ++ L.fmt v ++ "\" must be >= " ++ L.fmt b)
    (fun v b => "\"" ++ L.fmt v ++ "\" must be <= " ++ L.fmt b) v

/-- `_validate` of the date and time fields after the base check. -/
def dateValidate (c : DateCfg) (v : Val) : M P Bool :=
  rangeValidate I L c.after c.before
    (fun _ b => "Must be after " ++ L.fmt b) (fun _ b => "Must be before " ++ L.fmt b) v

/-- `pilo/fields.py:1128-1139`: `List._validate` after the base check. -/
def listValidate (lo hi : Option Nat) (v : Val) : M P Bool := do
  let short ← M.ofExcept (lenBad lo (fun n b => decide (n < b)) v)
  if short then rejectWith I ("Must have " ++ toString (lo.getD 0) ++ " or more items")
  else do
    let long ← M.ofExcept (lenBad hi (fun n b => decide (b < n)) v)
    if long then rejectWith I ("Must have " ++ toString (hi.getD 0) ++ " or fewer items")
    else M.pure true

/-- The keys of a mapping value (`value.keys()`). -/
def keysOf : Val → Except Exc (List Val)
  | .dict kvs => .ok (kvs.map Prod.fst)
  | _ => .error (.attributeError "object has no attribute 'keys'")

/-- `pilo/fields.py:1178-1179`: the missing required keys; a list has no `difference`. -/
def missingKeys (req : Required) (v : Val) : Except Exc (List Val) :=
  match req with
  | .list [] => .ok []
  | .set [] => .ok []
  | .list _ => .error (.attributeError "'list' object has no attribute 'difference'")
  | .set ks => match keysOf v with
    | .ok have_ => .ok (ks.filter fun k => !(k.inList have_))
    | .error e => .error e

/-- `pilo/fields.py:1174-1190`: `Dict._validate` after the base check. `max_keys = 0` is falsy. -/
def dictValidate (req : Required) (maxKeys : Option Nat) (v : Val) : M P Bool := do
  let miss ← M.ofExcept (missingKeys req v)
  if !miss.isEmpty then
    match L.joinKeys miss with
    | some t => rejectWith I ("Missing required keys " ++ t)
    | none => M.raise (.typeError "sequence item: expected string")
  else match maxKeys with
    | none => M.pure true
    | some 0 => M.pure true
    | some m => do
      let n ← M.ofExcept (pyLen v)
      if m < n then rejectWith I ("Cannot have more than " ++ toString m ++ " key(s)")
      else M.pure true

/-- `self._validate(value)`. -/
def kindValidate (f : Field) (v : Val) : M P Bool := do
  let ok ← baseValidate I f v
  if !ok then M.pure false
  else if v.isNull then M.pure true
  else match f.kind with
    | .string c => stringValidate I L f c v
    | .integer c => numberValidate I L c v
    | .float c => numberValidate I L c v
    | .decimal c => numberValidate I L c v
    | .date c => dateValidate I L c v
    | .time c => dateValidate I L c v
    | .datetime c => dateValidate I L c v
    | .list _ lo hi _ => listValidate I lo hi v
    | .dict _ _ _ req mx => dictValidate I L req mx v
    | _ => M.pure true

/-! ### `_parse` of the field classes -/

/-- `self.ctx.errors.invalid(msg); return ERROR`. -/
def failWith (msg : String) : M P Val := do
  invalid I msg
  M.pure .ERROR

/-- `pilo/fields.py:854-860`: `Decimal._parse`. -/
def decimalParse : M P Val := do
  let v ← readPath I.value
  match v with
  | .decimal x => M.pure (.decimal x)
  | .int i => M.pure (.decimal (.fin (i : Rat)))
  | .bool b => M.pure (.decimal (.fin (if b then 1 else 0)))
  | .float x => M.pure (.decimal x)
  | _ => do
    let p ← readPath (I.primitive .str)
    match p with
    | .str s => match L.decimalOfStr s with
      | some x => M.pure (.decimal x)
      | none => M.raise (.other "InvalidOperation" "Invalid literal for Decimal")
    | _ => M.raise (.typeError "Cannot convert to Decimal")

/-- One format of `Date._parse` (`pilo/fields.py:917-931`); `none`: it does not match. -/
def dateTry (spec : String) (s : String) : Option Int :=
  if spec = "iso8601" then (L.iso8601 s).map L.isoDate else L.strptimeDate spec s

/-- `pilo/fields.py:916-931`: the format loop.  `i == len(formats)` never holds inside the loop, so
when no format matches the loop just ends and `_parse` returns `None`. -/
def dateLoop (s : String) : List String → Val
  | [] => .none
  | spec :: rest => match dateTry L spec s with
    | some d => .ext .date d
    | none => dateLoop s rest

/-- `pilo/fields.py:904-931`: `Date._parse`. A `datetime` is a `date`. -/
def dateParse (c : DateCfg) : M P Val := do
  let v ← readPath I.value
  match v with
  | .ext .date d => M.pure (.ext .date d)
  | .ext .datetime d => M.pure (.ext .datetime d)
  | _ => do
    let p ← readPath (I.primitive .str)
    if c.format.isEmpty then failWith I ("Unknown format for value \"" ++ L.fmt p ++ "\"")
    else match p with
      | .str s => M.pure (dateLoop L s c.format)
      | _ => M.raise (.typeError "expected string")

/-- `pilo/fields.py:960-970`: `Time._parse`. -/
def timeParse (c : DateCfg) : M P Val := do
  let v ← readPath I.value
  match v with
  | .ext .structTime d => M.pure (.ext .structTime d)
  | .ext .time d => M.pure (.ext .time d)
  | _ => do
    let p ← readPath (I.primitive .str)
    match c.format with
    | [] => failWith I ("Unknown format for value \"" ++ L.fmt p ++ "\"")
    | spec :: _ => match p with
      | .str s => match L.strptimeTime spec s with
        | some d => M.pure (.ext .structTime d)
        | none => M.raise (.valueError "time data does not match format")
      | _ => M.raise (.typeError "strptime() argument 0 must be str")

/-- `pilo/fields.py:999-1014`: `Datetime._parse`. -/
def datetimeParse (c : DateCfg) : M P Val := do
  let v ← readPath I.value
  match v with
  | .ext .datetime d => M.pure (.ext .datetime d)
  | _ => do
    let p ← readPath (I.primitive .str)
    match c.format with
    | [] => failWith I ("Unknown format for value \"" ++ L.fmt p ++ "\"")
    | spec :: _ => match p with
      | .str s =>
        if spec = "iso8601" then
          match L.iso8601 s with
          | some d => M.pure (.ext .datetime d)
          | none => failWith I "Unable to parse date string"
        else match L.strptimeDatetime spec s with
          | some d => M.pure (.ext .datetime d)
          | none => M.raise (.valueError "time data does not match format")
      | _ => M.raise (.typeError "expected string")

/-- `pilo/fields.py:1061-1066`: the item loop of `Tuple._parse`, from index `i` on. -/
def tupleLoop (rec : Rec P) : Nat → List Field → M P (List Val)
  | _, [] => M.pure []
  | i, f :: fs => do
    let item ← withPush I (pushKey I (.int i)) (rec f .NONE)
    let rest ← tupleLoop rec (i + 1) fs
    M.pure (if item.isIgnore then rest else item :: rest)

/-- `pilo/fields.py:1053-1067`: `Tuple._parse`. -/
def tupleParse (rec : Rec P) (fs : List Field) : M P Val := do
  let n ← readPath I.sequence
  if n ≠ fs.length then failWith I ("Must have exactly " ++ toString fs.length ++ " items")
  else do
    let items ← tupleLoop I rec 0 fs
    M.pure (.tuple items)

/-- `pilo/fields.py:1117-1122`: the item loop of `List._parse`: `n` items from index `i` on. -/
def listLoop (rec : Rec P) (f : Field) : Nat → Nat → M P (List Val)
  | _, 0 => M.pure []
  | i, n + 1 => do
    let item ← withPush I (pushKey I (.int i)) (rec f .NONE)
    let rest ← listLoop rec f (i + 1) n
    M.pure (if item.isIgnore then rest else item :: rest)

/-- Does the current path object have an attribute `src`? -/
def pathHasSrc : M P Bool := readPath fun p => (.ok (I.hasSrc p), p)

/-- `pilo/fields.py:1107-1109`: `length = path.sequence()` inside `try ... except path.src.error`; an
error result means the handler was entered. -/
def seqTry : M P (Except Exc Nat) :=
  M.tryCatch (do let n ← readPath I.sequence; M.pure (.ok n)) fun e => do
    let hs ← pathHasSrc I
    if !hs then M.raise (.attributeError "'MountPath' object has no attribute 'src'")
    else if e.isSourceError then M.pure (.error e)
    else M.raise e

/-- `pilo/fields.py:1106-1123`: `List._parse`. -/
def listParse (rec : Rec P) (f : Field) (allowField : Bool) : M P Val := do
  match ← seqTry I with
  | .ok n => do
    let items ← listLoop I rec f 0 n
    M.pure (.list items)
  | .error e =>
    if !allowField then M.raise e
    else do
      let v ← rec f .NONE
      M.pure (if v.isIgnore then v else .list [v])

/-- `key_filter(key)` (`pilo/fields.py:1152-1153,1160-1162`). -/
def keepKey (rec : Rec P) (kfl : Option (Hook (Val → Prog))) (k : Val) : M P Bool :=
  match kfl with
  | none => M.pure true
  | some h => do
    let v ← callHook1 I L C rec h k
    M.pure v.truthy

/-- `pilo/fields.py:1161-1171`: the loop of `Dict._parse`; `acc` is `mapping`. -/
def dictLoop (rec : Rec P) (kf vf : Field) (kfl : Option (Hook (Val → Prog))) :
    List Val → List (Val × Val) → M P (List (Val × Val))
  | [], acc => M.pure acc
  | k :: ks, acc => do
    let keep ← keepKey I L C rec kfl k
    if !keep then dictLoop rec kf vf kfl ks acc
    else do
      let v ← withPush I (pushKey I k) (rec vf .NONE)
      if v.isIgnore then dictLoop rec kf vf kfl ks acc
      else do
        let k' ← rec kf k
        if k'.isIgnore then dictLoop rec kf vf kfl ks acc
        else if !k'.hashable then M.raise (.typeError "unhashable type")
        else dictLoop rec kf vf kfl ks (dictSet acc k' v)

/-- Iterate over `path.mapping()`. -/
def iterKeys (kv : KeysView) : M P (List Val) :=
  match kv.iterErr with
  | none => M.pure kv.ks
  | some e => M.raise e

/-- `pilo/fields.py:1155-1172`: `Dict._parse`. -/
def dictParse (rec : Rec P) (f : Field) (kf vf : Field) (kfl : Option (Hook (Val → Prog))) :
    M P Val := do
  match ← readPath I.mapping with
  | none => fieldDefault I L C rec f
  | some kv => do
    let ks ← iterKeys kv
    let m ← dictLoop I L C rec kf vf kfl ks []
    M.pure (.dict m)

/-- `pilo/fields.py:1226-1251`: `Code._parse`. Every failure of compiling or importing is an
`Exception` and is reported. -/
def codeParse : M P Val := do
  let v ← readPath (I.primitive .auto)
  match v with
  | .str s =>
    if Code.inlineMatch s then
      match Code.compile L s with
      | .ok r => M.pure r
      | .error e => failWith I e.str
    else match Code.importMatch L s with
      | some (name, attr) =>
        match Code.load L name attr with
        | .ok r => M.pure r
        | .error e => failWith I e.str
      | none => failWith I ("\"" ++ s ++ "\" does not match import pattern \"" ++ Code.patternText ++ "\" and is not a code block")
  | v => M.pure v

/-- `pilo/fields.py:1256-1260`: `UUID._parse`. -/
def uuidParse : M P Val := do
  let v ← readPath (I.primitive .auto)
  match v with
  | .ext .uuid n => M.pure (.ext .uuid n)
  | _ => do
    let p ← readPath (I.primitive .str)
    match p with
    | .str s => match L.uuidOfStr s with
      | some n => M.pure (.ext .uuid n)
      | none => M.raise (.valueError "badly formed hexadecimal UUID string")
    | _ => M.raise (.attributeError "object has no attribute 'replace'")

/-- `pilo/fields.py:1343-1348,1376-1380`: map a fresh form of class `cls`. -/
def subParse (rec : Rec P) (cls : Nat) (reset : Bool) (u : Unmapped) : M P Val := do
  let id ← newForm cls
  let e ← formMap I C rec id .none [] reset u false
  let es ← errItems e
  M.pure (if es.isEmpty then .form id else .ERROR)

/-- The `src` argument `probe.map(path.value)`: a union `Join` is a `Source`. -/
def probeSrc : M P (SrcArg P) := do
  let v ← readPath I.value
  readPath fun p => (.ok (match I.joinPath p with
    | some mk => .source mk
    | none => .data v), p)

/-- `pilo/__init__.py:93-100`: `Types.probe`. -/
def probe (rec : Rec P) (tf : Field) (probeCls : Nat) (src : SrcArg P) : M P Val := do
  let id ← newForm probeCls
  let e ← formMap I C rec id src [] false (.str .ignore) false
  let es ← errItems e
  match es with
  | [] => fieldGet I rec tf id
  | err :: _ => M.raise (.fieldError err)

/-- `pilo/fields.py:1359-1370`: `PolymorphicSubForm._form_type`; the result is `none` for `NONE`,
`some none` for `ERROR`. -/
def polyType (rec : Rec P) (tf : Field) (probeCls : Nat) (types : List (Val × Nat)) :
    M P (Option (Option Nat)) := do
  let identity ← M.tryCatch (do
      let src ← probeSrc I
      let v ← probe I C rec tf probeCls src
      M.pure (some v)) fun e =>
    if e.isValueError then do
      invalid I e.str
      M.pure none
    else M.raise e
  match identity with
  | none => M.pure (some none)
  | some .none => M.pure none
  | some v =>
    if !v.hashable then M.raise (.typeError "unhashable type")
    else match types.find? (fun p => v.pyEq p.1) with
      | some p => M.pure (some (some p.2))
      | none => do
        invalid I ("invalid identity " ++ L.fmt v)
        M.pure (some none)

/-- `pilo/fields.py:1372-1380`: `PolymorphicSubForm._parse`. -/
def polyParse (rec : Rec P) (tf : Field) (probeCls : Nat) (types : List (Val × Nat)) (reset : Bool)
    (u : Unmapped) : M P Val := do
  match ← polyType I L C rec tf probeCls types with
  | none => M.pure .NONE
  | some none => M.pure .ERROR
  | some (some cls) => subParse I C rec cls reset u

/-- `pilo/fields.py:1435-1443`: `Group._match`: the first entry that matches. -/
def groupMatch : List (GSrc × Field) → Val → Except Exc (Option (Field × Val))
  | [], _ => .ok none
  | (.str s, f) :: rest, k => if (Val.str s).pyEq k then .ok (some (f, .none)) else groupMatch rest k
  | (.re m, f) :: rest, k =>
    match k with
    | .str s => match m s with
      | some cap => .ok (some (f, cap))
      | none => groupMatch rest k
    | _ => .error (.typeError "expected string or bytes-like object")

/-- `pilo/fields.py:1454-1464`: the loop of `Group._parse`; `none` when nothing matched. -/
def groupLoop (rec : Rec P) (fs : List (GSrc × Field)) :
    List Val → Bool → List Val → M P (Option (List Val))
  | [], matched, acc => M.pure (if matched then some acc else none)
  | k :: ks, matched, acc => do
    match ← M.ofExcept (groupMatch fs k) with
    | none => groupLoop rec fs ks matched acc
    | some (f, cap) => do
      let v ← withPush I (pushKey I k) (rec f .NONE)
      if v.isIgnore then groupLoop rec fs ks true acc
      else groupLoop rec fs ks true (acc ++ [.tuple [k, cap, v]])

/-- `pilo/fields.py:1448-1465`: `Group._parse`. -/
def groupParse (rec : Rec P) (f : Field) (fs : List (GSrc × Field)) : M P Val := do
  match ← readPath I.mapping with
  | none => fieldDefault I L C rec f
  | some kv => do
    let ks ← iterKeys kv
    match ← groupLoop I rec fs ks false [] with
    | some vs => M.pure (.list vs)
    | none => M.pure .NONE

/-- `self._parse(path)`. -/
def kindParse (rec : Rec P) (f : Field) : M P Val :=
  match f.kind with
  | .base => readPath (I.primitive .auto)
  | .string _ => readPath (I.primitive .str)
  | .integer _ => readPath (I.primitive .int)
  | .float _ => readPath (I.primitive .float)
  | .decimal _ => decimalParse I L
  | .boolean => readPath (I.primitive .bool)
  | .date c => dateParse I L c
  | .time c => timeParse I L c
  | .datetime c => datetimeParse I L c
  | .tuple fs => tupleParse I rec fs
  | .list g _ _ allow => listParse I rec g allow
  | .dict kf vf kfl _ _ => dictParse I L C rec f kf vf kfl
  | .code => codeParse I L
  | .uuid => uuidParse I L
  | .subform cls reset u => subParse I C rec cls reset u
  | .poly tf pc types reset u => polyParse I L C rec tf pc types reset u
  | .group fs => groupParse I L C rec f fs

/-! ### `Field.map` -/

/-- `self.parse(src_path)` if the hook is set, else `self._parse(src_path)`
(`pilo/fields.py:479-482`). -/
def fieldParse (rec : Rec P) (f : Field) : M P Val :=
  match f.core.parse with
  | some h => callHook I L C rec h
  | none => kindParse I L C rec f

/-- `pilo/fields.py:469-486`: `Field._compute`. -/
def fieldCompute (rec : Rec P) (f : Field) : M P Val := do
  let ex ← readPath I.exists_
  if !ex then M.pure .NONE
  else do
    let nl ← readPath I.isNull
    if nl then M.pure .none
    else M.tryCatch (fieldParse I L C rec f) fun e =>
      if e.isSourceError || e.isValueError then failWith I e.str else M.raise e

/-- `pilo/fields.py:578-581`: `_munge`, then the `munge` hook. -/
def mungeStep (rec : Rec P) (f : Field) (v : Val) : M P Val := do
  let v ← M.ofExcept (fieldMunge f v)
  if v.isIgnore then M.pure v
  else match f.core.munge with
    | some h => callHook1 I L C rec h v
    | none => M.pure v

/-- `pilo/fields.py:586-589`: `_filter`, then the `filter` hook. -/
def filterStep (rec : Rec P) (f : Field) (v : Val) : M P Bool :=
  if fieldFilter f v then
    match f.core.filter with
    | some h => do
      let r ← callHook1 I L C rec h v
      M.pure r.truthy
    | none => M.pure true
  else M.pure false

/-- `pilo/fields.py:591-593`: `_validate`, then the `validate` hook. -/
def validateStep (rec : Rec P) (f : Field) (v : Val) : M P Bool := do
  let ok ← kindValidate I L f v
  if ok then
    match f.core.validate with
    | some h => do
      let r ← callHook1 I L C rec h v
      M.pure r.truthy
    | none => M.pure true
  else M.pure false

/-- `pilo/fields.py:578-595`: munge, filter and validate. -/
def fieldCheck (rec : Rec P) (f : Field) (v : Val) : M P Val := do
  let v ← mungeStep I L C rec f v
  if v.isNONE then fieldDefault I L C rec f
  else if v.isIgnore then M.pure v
  else do
    let keep ← filterStep I L C rec f v
    if !keep then fieldDefault I L C rec f
    else do
      let ok ← validateStep I L C rec f v
      M.pure (if ok then v else .ERROR)

/-- `pilo/fields.py:566-569`: the `compute` hook or `_compute`. -/
def computeStep (rec : Rec P) (f : Field) : M P Val :=
  match f.core.compute with
  | some h => callHook I L C rec h
  | none => fieldCompute I L C rec f

/-- `pilo/fields.py:566-576`: the compute step of `_map`, and what follows it. -/
def fieldStart (rec : Rec P) (f : Field) : M P Val := do
  let v ← computeStep I L C rec f
  if v.isNONE then
    match f.core.default with
    | .hook h => callHook I L C rec h
    | _ => fieldDefault I L C rec f
  else if v.isIgnore then M.pure v
  else fieldCheck I L C rec f v

/-- `pilo/fields.py:488-494,556-562`, `1445-1446`: run `body` with the source this field resolves
to. -/
def withResolve {α : Type} (rec : Rec P) (f : Field) (body : M P α) : M P α :=
  match f.core.resolve with
  | some (.key h) => do
    let k ← callHook I L C rec h
    if k.isNull then body else withPush I (pushKey I k) body
  | some (.data h) => do
    let d ← callHook I L C rec h
    if d.isNull then body else withPush I (pushSource (.ok (I.native d none))) body
  | none =>
    match f.kind with
    | .group _ => body
    | _ => if noSrc f.core.src then body else withPush I (pushKey I f.core.src) body

/-- `pilo/fields.py:553-595`: `Field._map`. -/
def fieldMapInner (rec : Rec P) (f : Field) (value : Val) : M P Val :=
  if value.isNONE then withResolve I L C rec f (fieldStart I L C rec f)
  else fieldCheck I L C rec f value

/-- `value.parent = ...` (`pilo/fields.py:612-616`): forms have attributes; functions and general
objects do too (not tracked); the built-in types do not. -/
def setParent (v : Val) : M P Unit := do
  let par ← ctxGet? Frame.parent
  match v with
  | .form id => M.modify fun s =>
      { s with forms := s.forms.modify id fun o => { o with parent := some par } }
  | .func _ => M.pure ()
  | .obj _ => M.pure ()
  | _ => M.raise (.attributeError "object has no attribute 'parent'")

/-- `pilo/fields.py:597-617`: `Field.map`. -/
def mapFieldF (rec : Rec P) (f : Field) (value : Val) : M P Val := do
  let v ← withPush I (pushVars { field := some f.name, parent := some .field })
    (fieldMapInner I L C rec f value)
  if f.core.attachParent && !v.isIgnore then setParent v
  M.pure v

/-- `field.map(value)` with recursion budget `n`. -/
def mapField : Nat → Rec P
  | 0 => fun _ _ => M.raise .recursion
  | n + 1 => mapFieldF I L C (mapField n)

/-! ### Entry points -/

/-- `form.map(...)`. -/
def Form.map (n : Nat) (id : Nat) (src : SrcArg P) (tags : List String := [])
    (reset : Bool := false) (u : Unmapped := .str .ignore) (raising : Bool := false) : M P Nat :=
  formMap I C (mapField I L C n) id src tags reset u raising

/-- `getattr(form, name)`. -/
def Form.getattr (n : Nat) (id : Nat) (name : String) : M P Val :=
  formGetattr I C (mapField I L C n) id name

/-- `pilo/fields.py:1562-1567`: the source a constructor argument is turned into. -/
def initSrc : SrcArg P → SrcArg P
  | .data (.list xs) => .data (.list xs)
  | .data (.tuple xs) => .data (.tuple xs)
  | .data v => .source (.ok (I.native v none))
  | src => src

/-- `pilo/fields.py:1556-1576`: `cls(src)`; `bool(src)` of a `Source` is true. -/
def Form.init (n : Nat) (cls : Nat) (src : SrcArg P) : M P Nat := do
  let id ← newForm cls
  match src with
  | .none => M.pure id
  | src => do
    let e ← Form.map I L C n id (initSrc I src)
    let es ← errItems e
    if es.isEmpty then M.pure id else M.raise (.formError es)

/-- A fresh thread. -/
def St.init : St P := { stack := [rootFrame], paths := [], errs := [], forms := [] }

end
end Pilo
