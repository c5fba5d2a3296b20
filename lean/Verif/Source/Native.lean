import Verif.Source.Path
import Verif.Source.Parse

/-!
# `DefaultSource` / `DefaultPath` (`pilo/source/default.py`) and `JsonSource` / `JsonPath`
(`pilo/source/json.py`)
-/

namespace Pilo

/-- `l[i]` for a Python list: negative indices count from the end. -/
def seqGet? {α : Type} (xs : List α) (i : Int) : Option α :=
  if 0 ≤ i then xs[i.toNat]?
  else if 0 ≤ i + xs.length then xs[(i + xs.length).toNat]?
  else none

/-- The integer an index denotes (`bool` is an `int`). -/
def Val.index? : Val → Option Int
  | .int i => some i
  | .bool b => some (if b then 1 else 0)
  | _ => Option.none

/-- `container[key]`.  Raises only `KeyError`, `IndexError` or `TypeError`.  Objects, numbers, ...
and live forms are not subscriptable in the model (source data is plain data). -/
def getItem (c k : Val) : Except Exc Val :=
  match c with
  | .dict kvs =>
    if k.hashable then
      match dictGet? kvs k with
      | some v => .ok v
      | none => .error (.keyError "")
    else .error (.typeError "unhashable type")
  | .list xs => match k.index? with
    | some i => match seqGet? xs i with
      | some v => .ok v
      | none => .error (.indexError "list index out of range")
    | none => .error (.typeError "list indices must be integers")
  | .tuple xs => match k.index? with
    | some i => match seqGet? xs i with
      | some v => .ok v
      | none => .error (.indexError "tuple index out of range")
    | none => .error (.typeError "tuple indices must be integers")
  | .str s => match k.index? with
    | some i => match seqGet? s.toList i with
      | some ch => .ok (.str (String.ofList [ch]))
      | none => .error (.indexError "string index out of range")
    | none => .error (.typeError "string indices must be integers")
  | _ => .error (.typeError "object is not subscriptable")

/-- `DefaultPath._as_item` (`pilo/source/default.py:21-25`). -/
def asItem (c k : Val) : Val :=
  match getItem c k with
  | .ok v => v
  | .error _ => .NONE

/-- `getattr(v, name)`.  The sentinels are `_Constant` instances with an attribute `name`
(`pilo/__init__.py:22-26`); everything else is the runtime's business. -/
def pyGetAttr (L : Lib) (v : Val) (name : String) : Option Val :=
  match v with
  | .const c => if name = "name" then some (.str c.name) else L.attrs v name
  | _ => L.attrs v name

/-- `pilo/source/default.py:77-83`: the configuration of a `DefaultSource`. `ignores` are already
split at the dots. -/
structure DefaultCfg where
  aliases : Option (List (Val × Val)) := none
  ignores : List (List String) := []
  location : Option String := none

/-- `pilo/source/default.py:85-88`: `[part.key for part in path] in self.ignores`. -/
def DefaultCfg.ignore (cfg : DefaultCfg) (keys : List Val) : Bool :=
  cfg.ignores.any (fun ig => Val.pyEqList keys (ig.map Val.str))

/-- `pilo/source/default.py:27-31`: `_as_alias`; only while the path has exactly one part. -/
def asAlias (cfg : DefaultCfg) (keys : List Val) (c k : Val) : Val :=
  match cfg.aliases with
  | some al =>
    if !al.isEmpty && keys.length == 1 then
      match dictGet? al k with
      | some a => asItem c a
      | none => .NONE
    else .NONE
  | none => .NONE

/-- `pilo/source/default.py:33-39`: `_as_attr`. -/
def asAttr (L : Lib) (c k : Val) : Val :=
  match k with
  | .str s => (pyGetAttr L c s).getD .NONE
  | _ => .NONE

/-- `pilo/source/default.py:10-19`: `_resolve`. -/
def resolveAtom (L : Lib) (cfg : DefaultCfg) (keys : List Val) (c k : Val) : Val :=
  if cfg.ignore keys then .NONE
  else
    let item := asItem c k
    if !item.isNONE then item
    else
      let alias := asAlias cfg keys c k
      if !alias.isNONE then alias
      else asAttr L c k

/-- `pilo/source/default.py:65-69`: resolve the dot-separated atoms one after the other. -/
def resolveAtoms (L : Lib) (cfg : DefaultCfg) (keys : List Val) : Val → List String → Val
  | v, [] => v
  | v, a :: as =>
    let w := resolveAtom L cfg keys v (.str a)
    if w.isNONE then .NONE else resolveAtoms L cfg keys w as

/-- `pilo/source/default.py:62-69`: a string key without the call suffix. -/
def resolvePlain (L : Lib) (cfg : DefaultCfg) (keys : List Val) (c : Val) (s : String) : Val :=
  let v := resolveAtom L cfg keys c (.str s)
  if v.isNONE then resolveAtoms L cfg keys c (dotSplit s) else v

/-- `value()`. -/
def callVal (L : Lib) : Val → Except Exc Val
  | .func id => L.call id
  | _ => .error (.typeError "object is not callable")

/-- `pilo/source/default.py:54-60`: each trailing `()` calls the value.  The argument is the
reversed key. -/
def resolveRev (L : Lib) (cfg : DefaultCfg) (keys : List Val) (c : Val) :
    List Char → Except Exc Val
  | ')' :: '(' :: rest =>
    match resolveRev L cfg keys c rest with
    | .error e => .error e
    | .ok v => if v.isNONE then .ok .NONE else callVal L v
  | cs => .ok (resolvePlain L cfg keys c (String.ofList cs.reverse))

/-- `pilo/source/default.py:53-72`: `DefaultPath.resolve`. -/
def resolveDefault (L : Lib) (cfg : DefaultCfg) (keys : List Val) (c k : Val) : Except Exc Val :=
  match k with
  | .str s => resolveRev L cfg keys c s.toList.reverse
  | k => .ok (resolveAtom L cfg keys c k)

/-- `isinstance(v, (collections.Sequence, list, tuple))`: strings are sequences. -/
def seqLen? : Val → Option Nat
  | .list xs => some xs.length
  | .tuple xs => some xs.length
  | .str s => some s.length
  | _ => none

/-- A mapping's keys as returned by `path.mapping()`: the keys and, if iterating them fails, the
exception that iteration raises. -/
structure KeysView where
  ks : List Val
  iterErr : Option Exc := none

/-- `DefaultSource.mapping` (`pilo/source/default.py:100-107`), given `path.value`. -/
def defaultMapping (cfg : DefaultCfg) (keys : List Val) (v : Val) : Except Exc KeysView :=
  let aliasKeys : Option (List Val) :=
    match cfg.aliases with
    | some al => if !al.isEmpty && keys.length == 0 then some (al.map Prod.fst) else none
    | none => none
  match v, aliasKeys with
  | .dict _, some ks => .ok { ks := ks }
  | .dict kvs, none => .ok { ks := kvs.map Prod.fst }
  | .list _, some ks => .ok { ks := ks }
  | .tuple _, some ks => .ok { ks := ks }
  | .str _, some ks => .ok { ks := ks }
  | _, _ => .error (.sourceError "is not a mapping")

/-- `DefaultSource.sequence` (`pilo/source/default.py:95-98`), given `path.value`. -/
def defaultSequence (v : Val) : Except Exc Nat :=
  match seqLen? v with
  | some n => .ok n
  | none => .error (.sourceError "is not a sequence")

/-- `pilo/source/json.py:29-31`: `value = value[atom]` for each atom. -/
def jsonAtoms : Val → List String → Except Exc Val
  | v, [] => .ok v
  | v, a :: as =>
    match getItem v (.str a) with
    | .error e => .error e
    | .ok w => jsonAtoms w as

/-- `pilo/source/json.py:24-33`: `JsonPath.resolve`. -/
def resolveJson (c k : Val) : Val :=
  let r : Except Exc Val :=
    match k with
    | .str s => if hasDot s then jsonAtoms c (dotSplit s) else getItem c k
    | _ => getItem c k
  match r with
  | .ok v => v
  | .error _ => .NONE

/-- `JsonSource.sequence` (`pilo/source/json.py:119-122`). -/
def jsonSequence (v : Val) : Except Exc Nat :=
  match v with
  | .list xs => .ok xs.length
  | .tuple xs => .ok xs.length
  | _ => .error (.sourceError "not a sequence")

/-- `JsonSource.mapping` (`pilo/source/json.py:124-127`). -/
def jsonMapping (v : Val) : Except Exc KeysView :=
  match v with
  | .dict kvs => .ok { ks := kvs.map Prod.fst }
  | _ => .error (.sourceError "not a mapping")

end Pilo
