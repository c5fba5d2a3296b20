import Verif.Source.Native

/-!
# `ConfigSource` / `ConfigPath` (`pilo/source/configparser.py`)

The `ConfigParser` object itself is data: per section the `(option, value)` pairs its `items()`
returns (defaults merged, interpolation done, option names lower-cased by `optionxform`).
-/

namespace Pilo

/-- Content of a `ConfigParser`. -/
structure CfgData where
  sections : List (String × List (String × String))

/-- Containers met while resolving a config path: the root `Mapping` (`configparser.py:90-106`), a
`SectionMapping` (57-87) with its `defaults` (`None` is `none`), or a plain value (option text,
sub-mapping dict, default value, `NONE`). -/
inductive CfgVal where
  | root
  | sect (name : String) (defaults : Option (List (Val × Val)))
  | val (v : Val)
deriving Inhabited

/-- Configuration of a `ConfigSource` (`configparser.py:117-141`). `defaults` is keyed by option
when `section` is given, by section otherwise.  `raw` is the file content, as lines, used by
`as_raw` when `preserve_whitespace` is set. -/
structure ConfigCfg where
  data : CfgData
  sectionName : Option String := none
  location : Option String := none
  defaults : Option (List (Val × Val)) := none
  preserveWhitespace : Bool := false
  raw : List String := []

/-- `config.items(section)`. -/
def CfgData.items (d : CfgData) (s : String) : List (String × String) :=
  match d.sections.find? (fun p => p.1 == s) with
  | some p => p.2
  | none => []

/-- `config.has_section(s)`. -/
def CfgData.hasSection (d : CfgData) (s : String) : Bool := d.sections.any (fun p => p.1 == s)

/-- `re.match(r'(?P<name>[\w\_]+)\[(?P<key>[\w\_\-\.]+)\]', option)`
(`configparser.py:62,66`): neither character class contains the following delimiter, so the
match is found by two maximal munches. -/
def subMatch (L : Lib) (option : String) : Option (String × String) :=
  let cs := option.toList
  let name := cs.takeWhile (fun c => L.isWord c || c == '_')
  let rest := cs.dropWhile (fun c => L.isWord c || c == '_')
  match name, rest with
  | [], _ => none
  | _, '[' :: rest' =>
    let key := rest'.takeWhile (fun c => L.isWord c || c == '_' || c == '-' || c == '.')
    let rest'' := rest'.dropWhile (fun c => L.isWord c || c == '_' || c == '-' || c == '.')
    match key, rest'' with
    | [], _ => none
    | _, ']' :: _ => some (String.ofList name, String.ofList key)
    | _, _ => none
  | _, _ => none

/-- `configparser.py:64-69`: the sub-mapping `name -> {key: value}` for one name, as the dict built
by successive assignments; `none` when no option matches `name[...]`. -/
def subMapping (L : Lib) (items : List (String × String)) (name : String) :
    Option (List (Val × Val)) :=
  let hits := items.filterMap fun (o, v) =>
    match subMatch L o with
    | some (n, k) => if n == name then some (k, v) else none
    | none => none
  if hits.isEmpty then none
  else some (hits.foldl (fun d kv => dictSet d (.str kv.1) (.str kv.2)) [])

/-- `configparser.py:71-78`: `SectionMapping.__getitem__`.  `has_option` calls `key.lower()`, so a
non-string key raises `AttributeError`; `defaults=None` makes `key in self.defaults` a
`TypeError`. -/
def sectionGet (L : Lib) (d : CfgData) (sec : String) (defaults : Option (List (Val × Val)))
    (k : Val) : Except Exc Val :=
  match k with
  | .str s =>
    match subMapping L (d.items sec) s with
    | some m => .ok (.dict m)
    | none =>
      match (d.items sec).find? (fun p => p.1 == L.lower s) with
      | some p => .ok (.str p.2)
      | none =>
        match defaults with
        | none => .error (.typeError "argument of type 'NoneType' is not iterable")
        | some df => match dictGet? df k with
          | some v => .ok v
          | none => .error (.keyError "")
  | _ => .error (.attributeError "'int' object has no attribute 'lower'")

/-- `configparser.py:96-99`: `Mapping.__getitem__`; `self.defaults.get` on `None` is an
`AttributeError`. A default that is not a dict is modelled as its absence of items. -/
def cfgRootGet (cfg : ConfigCfg) (k : Val) : Except Exc CfgVal :=
  match k with
  | .str s =>
    if cfg.data.hasSection s then
      match cfg.defaults with
      | none => .error (.attributeError "'NoneType' object has no attribute 'get'")
      | some df => match dictGet? df k with
        | some (.dict kvs) => .ok (.sect s (some kvs))
        | _ => .ok (.sect s none)
    else .error (.keyError "")
  | _ => .error (.keyError "")

/-- `configparser.py:42-48`: `Sequence(value).values`. -/
def cfgWords (L : Lib) (s : String) : Except Exc (List String) :=
  if s.toList.contains '\n' then
    .ok (((L.splitlines s).map L.strip).filter (fun l => l != ""))
  else match L.shlexSplit s with
    | some ws => .ok ws
    | none => .error (.valueError "No closing quotation")

/-- `container[part.key]` in `ConfigPath.resolve` (`configparser.py:33-35`): strings are first
turned into a `Sequence`. -/
def cfgGet (L : Lib) (cfg : ConfigCfg) (c : CfgVal) (k : Val) : Except Exc CfgVal :=
  match c with
  | .root => cfgRootGet cfg k
  | .sect s df => match sectionGet L cfg.data s df k with
    | .ok v => .ok (.val v)
    | .error e => .error e
  | .val (.str s) =>
    match cfgWords L s with
    | .error e => .error e
    | .ok ws => match k.index? with
      | some i => match seqGet? ws i with
        | some w => .ok (.val (.str w))
        | none => .error (.indexError "list index out of range")
      | none => .error (.typeError "list indices must be integers")
  | .val v => match getItem v k with
    | .ok w => .ok (.val w)
    | .error e => .error e

/-- `configparser.py:31-37`: `ConfigPath.resolve` swallows only `KeyError`, `IndexError`,
`TypeError`. -/
def resolveConfig (L : Lib) (cfg : ConfigCfg) (c : CfgVal) (k : Val) : Except Exc CfgVal :=
  match cfgGet L cfg c k with
  | .ok v => .ok v
  | .error (.keyError _) => .ok (.val .NONE)
  | .error (.indexError _) => .ok (.val .NONE)
  | .error (.typeError _) => .ok (.val .NONE)
  | .error e => .error e

/-- `value is NONE`. -/
def CfgVal.isNONE : CfgVal → Bool
  | .val v => v.isNONE
  | _ => false

/-- `configparser.py:14-20`: the root container of a `ConfigPath`. -/
def ConfigCfg.rootVal (cfg : ConfigCfg) : CfgVal :=
  match cfg.sectionName with
  | some s => if s = "" then .root else .sect s cfg.defaults
  | none => .root

/-- `configparser.py:165-171`: `ConfigSource.sequence`, given `path.value`. -/
def cfgSequence (L : Lib) (c : CfgVal) : Except Exc Nat :=
  match c with
  | .val (.str s) => match cfgWords L s with
    | .ok ws => .ok ws.length
    | .error e => .error e
  | .val (.list xs) => .ok xs.length
  | .val (.tuple xs) => .ok xs.length
  | _ => .error (.sourceError "not a sequence")

/-- `configparser.py:80-84,101-103,173-176`: `ConfigSource.mapping`, given `path.value`.  Iterating a
`SectionMapping` uses `dict.iteritems`, which Python 3 lacks. The order of the sub-mapping names
is unspecified. -/
def cfgMapping (L : Lib) (cfg : ConfigCfg) (c : CfgVal) : Except Exc KeysView :=
  match c with
  | .root => .ok { ks := cfg.data.sections.map (fun p => .str p.1) }
  | .sect s _ =>
    let items := cfg.data.items s
    let subs := (items.filterMap (fun p => (subMatch L p.1).map Prod.fst)).eraseDups
    .ok { ks := (subs ++ items.map Prod.fst).map Val.str
          iterErr := if L.py3 then some (.attributeError
            "'collections.defaultdict' object has no attribute 'iteritems'") else none }
  | .val (.dict kvs) => .ok { ks := kvs.map Prod.fst }
  | _ => .error (.sourceError "not a mapping")

/-- `str.startswith`. -/
def startsWith (s pre : String) : Bool := pre.toList.isPrefixOf s.toList

/-- `configparser.py:148-157`: the lines `as_raw` collects: skip to the section header, skip to the
first line that starts with the option text, then take the following indented (or empty)
lines. -/
def asRawLines (L : Lib) (lines : List String) (header option : String) :
    List String :=
  let afterHeader := (lines.dropWhile (fun l => L.strip l != header)).drop 1
  let afterOption := (afterHeader.dropWhile (fun l => !(startsWith (L.strip l) option))).drop 1
  afterOption.takeWhile (fun l => match l.toList with
    | [] => true
    | c :: _ => L.isSpace c)

/-- The value `primitive` passes to the parser: containers are not primitives. -/
def CfgVal.toVal : CfgVal → Val
  | .val v => v
  | .root => .obj 0
  | .sect _ _ => .obj 1

end Pilo
