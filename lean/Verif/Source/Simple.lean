import Verif.Source.Ops
import Verif.Source.Config

/-!
# Non-composite paths: default, JSON, config
-/

namespace Pilo

/-- A path of a `DefaultSource`, `JsonSource` or `ConfigSource`. -/
inductive SPath where
  | dflt (cfg : DefaultCfg) (st : PathSt Val)
  | json (strict : Bool) (loc : Option String) (st : PathSt Val)
  | config (cfg : ConfigCfg) (st : PathSt CfgVal)

namespace SPath

/-- `[part.key for part in path]`. -/
def keys : SPath → List Val
  | .dflt _ st => st.keys
  | .json _ _ st => st.keys
  | .config _ st => st.keys

/-- `path.append(k)`. -/
def append : SPath → Val → SPath
  | .dflt cfg st, k => .dflt cfg (st.append k)
  | .json s l st, k => .json s l (st.append k)
  | .config cfg st, k => .config cfg (st.append k)

/-- `path.pop()`. -/
def pop : SPath → Except Exc SPath
  | .dflt cfg st => match st.pop with
    | .ok st' => .ok (.dflt cfg st')
    | .error e => .error e
  | .json s l st => match st.pop with
    | .ok st' => .ok (.json s l st')
    | .error e => .error e
  | .config cfg st => match st.pop with
    | .ok st' => .ok (.config cfg st')
    | .error e => .error e

/-- `DefaultPath.__str__` (`default.py:46-51`), `JsonPath.__str__` (`json.py:17-22`),
`ConfigPath.__str__` (`configparser.py:22-29`). -/
def render (L : Lib) : SPath → Except Exc String
  | .dflt cfg st => withLocation cfg.location (st.render L)
  | .json _ loc st => withLocation loc (st.render L)
  | .config cfg st =>
    let r := st.render L
    let r' := match cfg.sectionName with
      | some s => if s = "" then r else withLocation (some ("[" ++ s ++ "]")) r
      | none => r
    withLocation cfg.location r'

/-- `DefaultPath.value`: `Path.value` with `DefaultPath.resolve`. -/
def valueDflt (L : Lib) (cfg : DefaultCfg) (st : PathSt Val) : Except Exc Val × PathSt Val :=
  let (r, _, st') := PathSt.value (fun ks (_ : Unit) c k => (resolveDefault L cfg ks c k, ()))
    Val.isNONE () st
  (r, st')

/-- `JsonPath.value`: `Path.value` with `JsonPath.resolve`. -/
def valueJson (st : PathSt Val) : Except Exc Val × PathSt Val :=
  let (r, _, st') := PathSt.value (fun _ (_ : Unit) c k => (.ok (resolveJson c k), ()))
    Val.isNONE () st
  (r, st')

/-- `ConfigPath.value`: `Path.value` with `ConfigPath.resolve`. -/
def valueCfg (L : Lib) (cfg : ConfigCfg) (st : PathSt CfgVal) : Except Exc CfgVal × PathSt CfgVal :=
  let (r, _, st') := PathSt.value (fun _ (_ : Unit) c k => (resolveConfig L cfg c k, ()))
    CfgVal.isNONE () st
  (r, st')

/-- Apply a computation on `path.value` to a `DefaultPath`/`JsonPath`/`ConfigPath`. -/
def withValue {α : Type} (L : Lib) (p : SPath)
    (onD : DefaultCfg → List Val → Val → Except Exc α) (onJ : Bool → Val → Except Exc α)
    (onC : ConfigCfg → List Val → CfgVal → Except Exc α) : Except Exc α × SPath :=
  match p with
  | .dflt cfg st =>
    match valueDflt L cfg st with
    | (.ok v, st') => (onD cfg st.keys v, .dflt cfg st')
    | (.error e, st') => (.error e, .dflt cfg st')
  | .json s l st =>
    match valueJson st with
    | (.ok v, st') => (onJ s v, .json s l st')
    | (.error e, st') => (.error e, .json s l st')
  | .config cfg st =>
    match valueCfg L cfg st with
    | (.ok v, st') => (onC cfg st.keys v, .config cfg st')
    | (.error e, st') => (.error e, .config cfg st')

/-- `path.value`. -/
def value (L : Lib) (p : SPath) : Except Exc Val × SPath :=
  p.withValue L (fun _ _ v => .ok v) (fun _ v => .ok v) (fun _ _ v => .ok v.toVal)

/-- `path.exists` (`pilo/source/__init__.py:124-126`). -/
def exists_ (L : Lib) (p : SPath) : Except Exc Bool × SPath :=
  p.withValue L (fun _ _ v => .ok (!v.isNONE)) (fun _ v => .ok (!v.isNONE))
    (fun _ _ v => .ok (!v.isNONE))

/-- `path.is_null` (`pilo/source/__init__.py:128-130`). -/
def isNull (L : Lib) (p : SPath) : Except Exc Bool × SPath :=
  p.withValue L (fun _ _ v => .ok v.isNull) (fun _ v => .ok v.isNull)
    (fun _ _ v => .ok v.toVal.isNull)

/-- `path.mapping()`. -/
def mapping (L : Lib) (p : SPath) : Except Exc KeysView × SPath :=
  p.withValue L (fun cfg ks v => defaultMapping cfg ks v) (fun _ v => jsonMapping v)
    (fun cfg _ v => cfgMapping L cfg v)

/-- `path.sequence()`. -/
def sequence (L : Lib) (p : SPath) : Except Exc Nat × SPath :=
  p.withValue L (fun _ _ v => defaultSequence v) (fun _ v => jsonSequence v)
    (fun _ _ v => cfgSequence L v)

/-- `ConfigSource.primitive` (`configparser.py:178-185`), given `path.value`; the option name of
`as_raw` is `str(path[-1])` (`configparser.py:143-158`). -/
def cfgPrimitive (L : Lib) (cfg : ConfigCfg) (keys : List Val) (ty : PTy) (c : CfgVal) :
    Except Exc Val :=
  match parseNative L ty c.toVal with
  | .error e => .error e
  | .ok v =>
    match v with
    | .str s =>
      if cfg.preserveWhitespace && s.toList.contains '\n' then
        match keys.getLast? with
        | none => .error (.indexError "list index out of range")
        | some k =>
          let option := match k with | .str o => o | k => L.fmt k
          let header := "[" ++ cfg.sectionName.getD "None" ++ "]"
          .ok (.str (L.dedent (String.join (asRawLines L cfg.raw header option))))
      else .ok (.str s)
    | v => .ok v

/-- `path.primitive(type)`. -/
def primitive (L : Lib) (ty : PTy) (p : SPath) : Except Exc Val × SPath :=
  p.withValue L (fun _ _ v => parseNative L ty v) (fun strict v => parseJson L strict ty v)
    (fun cfg ks v => cfgPrimitive L cfg ks ty v)

/-- `DefaultSource(data, aliases).path()` (`default.py:43-44,77-83,92-93`). -/
def native (v : Val) (aliases : Option (List (Val × Val))) : SPath :=
  .dflt { aliases := aliases } { root := v, parts := [] }

/-- Lift an optional-keys result. -/
def someKeys (r : Except Exc KeysView × SPath) : Except Exc (Option KeysView) × SPath :=
  match r with
  | (.ok k, p) => (.ok (some k), p)
  | (.error e, p) => (.error e, p)

/-- The path interface of the non-composite sources. -/
def ops (L : Lib) : PathOps SPath where
  keys := keys
  render := render L
  append p k := .ok (p.append k)
  pop := pop
  value := value L
  exists_ := exists_ L
  isNull := isNull L
  mapping p := someKeys (mapping L p)
  sequence := sequence L
  primitive ty p := primitive L ty p
  hasSrc _ := true
  joinPath _ := none
  native := native

end SPath
end Pilo
