import Verif.Model.Cli

/-!
# Views of source files

A model of how `ConfigurationC` and `BaseTypesH` present their definitions: `standardize`, `get` with its formats, `todict`,
`tolines` and `tostring` (`parameter/_src.py`).
-/

namespace Eprem.Config

open Eprem Eprem.Symbolic

/-- A value in the attribute dictionary of a parameter: a text, a type, or anything else (by its `repr`). -/
inductive Attr
  | text (s : Str)
  | ty (t : Ty)
  | other (s : Str)
  deriving DecidableEq

/-- The attribute dictionary of a parameter. -/
abbrev Fields := Dict Str Attr

/-- How a view fails: `KeyError`, `TypeError`, `NotImplementedError`, or an error in computing a constant. -/
inductive ViewErr
  | key | type | notImplemented | value (e : Err)
  deriving DecidableEq

/-- `{**a, **b}`. -/
def merge {ν : Type} (a b : Dict Str ν) : Dict Str ν := b.foldl (fun d p => d.set p.1 p.2) a

/-- `ConfigurationC._types` (`_src.py` 389-396). -/
def modeTypes : List (Str × Ty) :=
  [("readInt".toList, .int), ("readDouble".toList, .float), ("readString".toList, .str), ("readDoubleArray".toList, .list)]

/-- `self._types[mode]` (`container.py` 738-740). -/
def typeOfMode : Attr → Option Attr
  | .text s => (Dict.get? modeTypes s).map .ty
  | _ => none

/-- `self._types.invert()[type]` (`container.py` 742-744). -/
def modeOfType : Attr → Option Attr
  | .ty t => (Dict.get? (modeTypes.map (fun p => (p.2, p.1))) t).map .text
  | _ => none

/-- One interior mapping in `_replace` (`_src.py` 464-467); none is a `KeyError`. -/
def replaceOne (old new : Str) (conversion : Attr → Option Attr) (interior : Fields) : Option Fields := do
  let x ← interior.get? old
  let y ← conversion x
  return merge [(new, y)] (interior.filter (fun p => decide (p.1 ≠ old)))

/-- `_replace(mapping, old, new, conversion)` (`_src.py` 454-469). -/
def replaceAll (old new : Str) (conversion : Attr → Option Attr) : Dict Str Fields → Option (Dict Str Fields)
  | [] => some []
  | (k, f) :: r => do
    let f' ← replaceOne old new conversion f
    let r' ← replaceAll old new conversion r
    return (k, f') :: r'

/-- `ConfigurationC.standardize(loaded)` (`_src.py` 401-402). -/
def standardize (loaded : Dict Str Fields) : Option (Dict Str Fields) :=
  replaceAll "mode".toList "type".toList typeOfMode loaded

/-- `type.__name__`. -/
def Ty.pyName : Ty → Str
  | .int => "int".toList
  | .float => "float".toList
  | .str => "str".toList
  | .list => "list".toList

/-- `v.__name__ if k == 'type' else v` (`_src.py` 222 and 439); none is an `AttributeError`, from a value that is no type. -/
def named (p : Str × Attr) : Option (Str × Attr) :=
  if p.1 = "type".toList then match p.2 with
    | .ty t => some (p.1, .text t.pyName)
    | _ => none
  else some p

/-- The items of a dictionary comprehension that names the type. -/
def nameTypes : Fields → Option Fields
  | [] => some []
  | p :: r => do
    let q ← named p
    let r' ← nameTypes r
    return q :: r'

/-- `ConfigurationC.get(key, default, format)` (`_src.py` 428-441 and 104-114).  An `AttributeError` is given as a
`TypeError`. -/
def viewParameter (definitions metadata : Dict Str Fields) (key : Str) (default : Option Fields) (format : Option Str) :
    Except ViewErr (Option Fields) :=
  if format = some "raw".toList then
    match replaceAll "type".toList "mode".toList modeOfType definitions with
    | none => .error .key
    | some loaded => .ok (match loaded.get? key with | some f => some f | none => default)
  else if format = some "full".toList then
    match (match definitions.get? key with | some f => some f | none => default) with
    | none => .error .type
    | some defined => match nameTypes (merge defined ((metadata.get? key).getD [])) with
      | none => .error .type
      | some f => .ok (some f)
  else if format = none ∨ format = some [] then
    .ok (match definitions.get? key with | some f => some f | none => default)
  else .error .notImplemented

/-- `todict(mode, sort)` (`_src.py` 116-131), for the keys of the object and its method `get`. -/
def toDict {ν : Type} (get : Str → Except ViewErr ν) (keys : List Str) : Except ViewErr (Dict Str ν) :=
  match keys with
  | [] => .ok []
  | k :: ks => do
    let x ← get k
    let r ← toDict get ks
    return (k, x) :: r

/-- The keys in `todict` (`_src.py` 130). -/
def dictKeys (keys : List Str) (sort : Bool) : List Str := if sort then sorted keys else keys

/-! ## Lines -/

/-- What `tolines` finds in the dictionary: a mapping or something else, by its text. -/
inductive Shown
  | mapping (f : List (Str × Attr))
  | plain (s : Str)

/-- `'\n'.join(items)`. -/
def unlines (l : List Str) : Str := joinWith '\n' l

/-- One attribute in `tolines` (`_src.py` 149-152); `rep` is `repr` on text and `shw` the text of a value after its key. -/
def fieldLine (pad : Str) (rep : Str → Str) (shw : Str → Attr → Str) (p : Str × Attr) : Str :=
  pad ++ pad ++ rep p.1 ++ ": ".toList ++ shw p.1 p.2 ++ ",".toList

/-- `v if k == 'type' else repr(v)` in a format string (`_src.py` 150), given `repr` of text. -/
def fieldText (rep : Str → Str) (key : Str) : Attr → Str
  | .text s => if key = "type".toList then s else rep s
  | .ty t => "<class '".toList ++ t.pyName ++ "'>".toList
  | .other s => s

/-- One line of `tolines`, which may hold newline characters (`_src.py` 147-156). -/
def toLine (indent : Nat) (rep : Str → Str) (name : Str) (current : Shown) : Str :=
  let pad := List.replicate indent ' '
  let value := match current with
    | .mapping f => unlines (f.map (fieldLine pad rep (fieldText rep)))
    | .plain s => s
  pad ++ rep name ++ ": {\n".toList ++ value ++ "\n".toList ++ pad ++ "}".toList

/-- `tolines(indent, …)` (`_src.py` 133-158). -/
def toLines (indent : Nat) (rep : Str → Str) (items : List (Str × Shown)) : List Str :=
  items.map (fun p => toLine indent rep p.1 p.2)

/-- `tostring` (`_src.py` 160-167, 227-229, 443-445), where `title` is `BASETYPES_H` or `CONFIGURATION_C`. -/
def toText (title : Str) (indent : Nat) (rep : Str → Str) (items : List (Str × Shown)) : Str :=
  title ++ " = {\n".toList ++ unlines ((toLines indent rep items).map (· ++ ",".toList)) ++ "\n}".toList

/-! ## Constants -/

variable {R : Type} [Field R]

/-- What does not change in a `BaseTypesH` object: definitions, types, and metadata. -/
structure Header (R : Type) where
  numbers : Numbers R
  definitions : Dict Str Str
  types : Str → Option Ty
  metadata : Dict Str Fields
  fuel : Nat

/-- `BaseTypesH.__getitem__(key)` (`_src.py` 231-239): what is found and the cache afterwards. -/
def readConstantFrom (H : Header R) (cache : Dict Str R) (key : Str) : Dict Str R × Except Err R :=
  match cache.get? key with
  | some x => (cache, .ok x)
  | none => match H.definitions.get? key with
    | none => (cache, .error .key)
    | some _ => match computeConstant H.numbers H.definitions H.types H.fuel key with
      | .ok x => (cache.set key x, .ok x)
      | .error e => (cache, .error e)

/-- A sequence of accesses on one object. -/
def readAll (H : Header R) (cache : Dict Str R) : List Str → Dict Str R × List (Except Err R)
  | [] => (cache, [])
  | k :: ks =>
    let (c, r) := readConstantFrom H cache k
    let (c', rs) := readAll H c ks
    (c', r :: rs)

/-- What `BaseTypesH.get` gives: the default, a number, a text, or the value (if not the default) with metadata. -/
inductive Constant (R : Type)
  | default
  | number (x : R)
  | text (s : Str)
  | full (x : Option R) (f : Fields)
  deriving DecidableEq

/-- `BaseTypesH.get(key, default)` (`_src.py` 224, 112): a `KeyError` gives the default. -/
def plainConstant (H : Header R) (cache : Dict Str R) (key : Str) : Except ViewErr (Option R) :=
  match (readConstantFrom H cache key).2 with
  | .ok x => .ok (some x)
  | .error .key => .ok none
  | .error e => .error (.value e)

/-- `BaseTypesH.get(key, default, format)` (`_src.py` 211-225).  Simplified: no definition is a symbolic expression, and the
value of the full format is kept apart from the metadata, which has no item `value`. -/
def viewConstant (H : Header R) (cache : Dict Str R) (key : Str) (format : Option Str) : Except ViewErr (Constant R) :=
  if format = some "raw".toList then
    .ok (match H.definitions.get? key with | some s => .text s | none => .default)
  else if format = some "full".toList then
    match plainConstant H cache key with
    | .error e => .error e
    | .ok x => match nameTypes ((H.metadata.get? key).getD []) with
      | none => .error .type
      | some f => .ok (.full x f)
  else if format = none ∨ format = some [] then
    match plainConstant H cache key with
    | .error e => .error e
    | .ok (some x) => .ok (.number x)
    | .ok none => .ok .default
  else .error .notImplemented

end Eprem.Config
