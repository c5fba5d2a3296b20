import Verif.Source.Mount

/-!
# The constructors of the sources

What `DefaultSource(...)`, `JsonSource(...)`, `ConfigSource(...)`, `UnionSource(...)` and `MountSource(...)` do
with their arguments, and what `path()` of the source they make is.  As in `Source/Union.lean` and
`Source/Mount.lean`, unions are made of non-composite sources and mounts of non-composite sources and unions.
-/

namespace Pilo

/-- A `DefaultSource`, `JsonSource` or `ConfigSource` object. -/
inductive SSrc where
  | dflt (data : Val) (cfg : DefaultCfg)
  | json (data : Val) (strict : Bool) (location : Option String)
  | config (cfg : ConfigCfg)

/-- A source that can be mounted: non-composite, or a `UnionSource` object. -/
inductive BSrc where
  | simple (s : SSrc)
  | union (cfg : UnionCfg) (srcs : List SSrc)

/-- An argument where a source is expected: a source object, or something else. -/
inductive SrcVal (σ : Type) where
  | source (s : σ)
  | val (v : Val)

/-- `DefaultSource.path` (`pilo/source/default.py:43-44,92-93`), `JsonSource.path` (`json.py:11-14,116-117`),
`ConfigSource.path` (`configparser.py:11-20,162-163`). -/
def SSrc.path : SSrc → SPath
  | .dflt data cfg => .dflt cfg { root := data, parts := [] }
  | .json data strict loc => .json strict loc { root := data, parts := [] }
  | .config cfg => .config cfg { root := cfg.rootVal, parts := [] }

/-- `UnionSource.path` (`union.py:96-97`). -/
def BSrc.path (L : Lib) : BSrc → Except Exc BPath
  | .simple s => .ok (.simple s.path)
  | .union cfg srcs => match UPath.mk' L cfg (srcs.map SSrc.path) with
    | .ok p => .ok (.union p)
    | .error e => .error e

/-- `DefaultSource.__init__` (`default.py:77-83`). -/
def makeDefault (data : Val) (aliases : Option (List (Val × Val)) := none) (ignores : Option (List String) := none)
    (location : Option String := none) : SSrc :=
  .dflt data { aliases := aliases, ignores := (ignores.getD []).map dotSplit, location := location }

/-- `JsonSource.__init__` (`json.py:39-44`); `loads` is `json.loads(text, encoding=encoding)`. -/
def makeJson (loads : String → Except Exc Val) (text : String) (strict : Bool) (location : Option String) :
    Except Exc SSrc :=
  match loads text with
  | .ok data => .ok (.json data strict location)
  | .error e => .error e

/-- The `config` argument of `ConfigSource`: a text, or a `ConfigParser` that has been filled. -/
inductive ConfigArg where
  | text (s : String)
  | parser (d : CfgData)

/-- `six.moves.StringIO.StringIO`: `six.moves.StringIO` is the class itself. -/
def noStringIO : Exc := .attributeError "type object '_io.StringIO' has no attribute 'StringIO'"

/-- `config.optionxform = ...` when `config` is a text. -/
def noOptionxform : Exc := .attributeError "'str' object has no attribute 'optionxform'"

/-- `ConfigSource.__init__` (`configparser.py:117-141`).  Line 134 sets an attribute of the text instead of the
parser; line 135 looks `StringIO` up in the class `StringIO`.  `raw` is the content of the file at
`location`, which `as_raw` opens when it is needed. -/
def makeConfig (config : ConfigArg) (sectionName location : Option String) (defaults : Option (List (Val × Val)))
    (preserveWhitespace preserveCase : Bool) (raw : List String) : Except Exc SSrc :=
  if preserveWhitespace && location.isNone then
    .error (.valueError "preserve_white_space=True without location")
  else match config with
    | .text _ => if preserveCase then .error noOptionxform else .error noStringIO
    | .parser d =>
      if preserveCase then .error (.valueError "preserve_case=True but config is not string")
      else .ok (.config { data := d, sectionName := sectionName, location := location, defaults := defaults,
                          preserveWhitespace := preserveWhitespace, raw := raw })

/-- `ConfigSource.from_file` (`configparser.py:111-115`); `read` opens and reads the file. -/
def configFromFile (read : String → Except Exc String) (path : String) (sectionName : Option String)
    (defaults : Option (List (Val × Val))) (preserveWhitespace preserveCase : Bool) (raw : List String) :
    Except Exc SSrc :=
  match read path with
  | .error e => .error e
  | .ok s => makeConfig (.text s) sectionName (some path) defaults preserveWhitespace preserveCase raw

/-- `isinstance(v, dict)`, `isinstance(v, collections.Mapping)`; a form is a `dict`. -/
def Val.isMapping : Val → Bool
  | .dict _ => true
  | .form _ => true
  | _ => false

/-- The loop of `UnionSource.__init__` (`union.py:78-87`): the items from the `i`-th on.  The result is what it
raises, if it does, and the items of the caller's list afterwards; `mutable` tells a list from a tuple. -/
def unionLoop (repr : Val → String) (mutable : Bool) :
    Nat → List (SrcVal SSrc) → Option Exc × List (SrcVal SSrc)
  | _, [] => (none, [])
  | i, .source s :: rest =>
    let (r, rest') := unionLoop repr mutable (i + 1) rest
    (r, .source s :: rest')
  | i, .val v :: rest =>
    if v.isMapping then
      if mutable then
        let (r, rest') := unionLoop repr mutable (i + 1) rest
        (r, .source (makeDefault v) :: rest')
      else (some (.typeError "'tuple' object does not support item assignment"), .val v :: rest)
    else (some (.typeError ("src[" ++ toString i ++ "]=" ++ repr v ++ " is not Source or mapping")), .val v :: rest)

/-- The sources among the items. -/
def sourcesOf : List (SrcVal SSrc) → List SSrc
  | [] => []
  | .source s :: rest => s :: sourcesOf rest
  | .val _ :: rest => sourcesOf rest

/-- `UnionSource.__init__` (`union.py:69-92`), with the caller's list afterwards; after a loop that did not
raise every item is a source. -/
def makeUnion (repr : Val → String) (srcs : List (SrcVal SSrc)) (mutable : Bool) (merge : Merge := .first)
    (mappingMerge sequenceMerge : Option Merge := none) (mergeDepth : Option Nat := none) :
    Except Exc BSrc × List (SrcVal SSrc) :=
  match unionLoop repr mutable 0 srcs with
  | (some e, items) => (.error e, items)
  | (none, items) =>
    (.ok (.union { mappingMerge := mappingMerge.getD merge, sequenceMerge := sequenceMerge.getD merge,
                   mergeDepth := mergeDepth } (sourcesOf items)), items)

/-- `MountSource.__init__` (`mount.py:123-134`): the keyword arguments, in the order of the `dict`. -/
def makeMount (repr : Val → String) : List (String × SrcVal BSrc) → Except Exc (List (String × BSrc))
  | [] => .ok []
  | (key, .source s) :: rest => match makeMount repr rest with
    | .ok srcs => .ok ((key, s) :: srcs)
    | .error e => .error e
  | (key, .val v) :: rest =>
    if v.isMapping || v.isNull then
      match makeMount repr rest with
      | .ok srcs => .ok ((key, .simple (makeDefault v)) :: srcs)
      | .error e => .error e
    else .error (.typeError (key ++ "=" ++ repr v ++ " is not None, dict or Source"))

/-- `src.path()` of every mounted source, in order (`mount.py:12-14`). -/
def mountPaths (L : Lib) : List (String × BSrc) → Except Exc (List (String × BPath))
  | [] => .ok []
  | (key, s) :: rest => match s.path L with
    | .error e => .error e
    | .ok p => match mountPaths L rest with
      | .error e => .error e
      | .ok ps => .ok ((key, p) :: ps)

/-- `MountSource.path` (`mount.py:138-139` and `9-14`): on Python 3 `iteritems` fails before any path is made. -/
def mountPath (L : Lib) (srcs : List (String × BSrc)) : Except Exc MPath :=
  if L.py3 then MPath.mk' L []
  else match mountPaths L srcs with
    | .error e => .error e
    | .ok ps => MPath.mk' L ps

end Pilo
