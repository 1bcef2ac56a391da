import Verif.Model.Config

/-!
# Model of the search for observer files: `eprem.py` 143-185, 232-310, 337-372, 410-421, 443-495

A directory is the list of the names of its entries, in the order in which the file system gives them.  Prefixes of names are
sets in the package, whose order is not determined, so the order is an argument.
-/

namespace Eprem.Observer

open Eprem Eprem.Config
open Eprem.Symbolic (Str showNat)

/-- Identifiers of observers. -/
inductive Id
  | int (n : Int)
  | str (s : Str)
  deriving DecidableEq

/-- The exceptions: `TypeError`, `SourcePathError`, `ValueError`. -/
inductive OErr
  | type | source | value
  deriving DecidableEq

/-- `pathlib.Path.glob(pattern)` for one name.  Brackets are not modelled. -/
def globMatch : Str → Str → Bool
  | [], s => s.isEmpty
  | a :: p, s =>
    if a = '*' then s.tails.any (globMatch p)
    else match s with
      | [] => false
      | c :: s => (a = '?' || a = c) && globMatch p s

/-- `directory.glob(pattern)`. -/
def glob (dir : List Str) (pattern : Str) : List Str := dir.filter (globMatch pattern)

/-- `format(n, '0w')`: at least `w` characters, with zeros after the sign. -/
def pad (w : Nat) (n : Int) : Str :=
  let ds := showNat n.natAbs
  if n < 0 then '-' :: List.replicate (w - 1 - ds.length) '0' ++ ds else List.replicate (w - ds.length) '0' ++ ds

/-- `Stream.prefixes` (`eprem.py` 146). -/
def streamPrefixes : List Str := [['s', 't', 'r', 'e', 'a', 'm'], ['o', 'b', 's'], ['f', 'l', 'u', 'x']]

/-- `Point.prefixes` (`eprem.py` 177). -/
def pointPrefixes : List Str := [['p', 'o', 'i', 'n', 't'], ['p', '_', 'o', 'b', 's']]

/-- The end of each pattern. -/
def dotStar : Str := ['.', '*']

/-- `Stream.patterns(id)` (`eprem.py` 148-155). -/
def streamPatterns (prefixes : List Str) : Id → Except OErr (List Str)
  | .int n => .ok (prefixes.map (fun p => p ++ pad 6 n ++ dotStar))
  | .str _ => .error .type

/-- `Point.patterns(id)` (`eprem.py` 179-191). -/
def pointPatterns (prefixes : List Str) : Id → List Str
  | .int n => prefixes.map (fun p => p ++ pad 3 n ++ dotStar)
  | .str s => (match pyInt s with
    | some n => prefixes.map (fun p => p ++ pad 3 n ++ dotStar)
    | none => []) ++ [s ++ dotStar]

/-- `_build_datapath(patterns, directory)` (`eprem.py` 443-460). -/
def buildDatapath (dir : List Str) : List Str → Except OErr Str
  | [] => .error .source
  | p :: ps => match glob dir p with
    | [f] => .ok f
    | [] => buildDatapath dir ps
    | _ => .error .source

/-- The file that `stream(id)` opens (`eprem.py` 271-279, 306). -/
def stream (prefixes dir : List Str) (id : Id) : Except OErr Str :=
  match streamPatterns prefixes id with
  | .error e => .error e
  | .ok ps => buildDatapath dir ps

/-- The file that `point(id)` opens (`eprem.py` 282-290, 306). -/
def point (prefixes dir : List Str) (id : Id) : Except OErr Str := buildDatapath dir (pointPatterns prefixes id)

/-- The file that `observer(id)` opens (`eprem.py` 249-268); `prefixes` is `{'obs', 'flux'}` in some order. -/
def observer (prefixes dir : List Str) : Id → Except OErr Str
  | .int n => buildDatapath dir (prefixes.map (fun p => p ++ pad 6 n ++ dotStar))
  | .str s => buildDatapath dir ((match pyInt s with
    | some n => [['p', '_', 'o', 'b', 's'] ++ pad 3 n ++ dotStar]
    | none => []) ++ [s ++ dotStar])

/-! ## Datasets -/

/-- The position of the last dot, if it is neither the first nor the last character. -/
def lastDot (name : Str) : Option Nat :=
  if '.' ∈ name then
    let i := name.length - 1 - name.reverse.idxOf '.'
    if 0 < i ∧ i < name.length - 1 then some i else none
  else none

/-- `path.stem`. -/
def stem (name : Str) : Str := match lastDot name with
  | some i => name.take i
  | none => name

/-- `path.suffix`. -/
def suffix (name : Str) : Str := match lastDot name with
  | some i => name.drop i
  | none => []

/-- The keys of `datafile.VIEWERS` (`datafile/_viewers.py` 132-141). -/
def viewers : List Str :=
  [['.', 'n', 'c'], ['n', 'e', 't', 'c', 'd', 'f'], ['N', 'e', 't', 'C', 'D', 'F'], ['N', 'E', 'T', 'C', 'D', 'F']]

/-- `text.lstrip(chars)`. -/
def lstrip (s chars : Str) : Str := s.dropWhile (fun c => decide (c ∈ chars))

/-- The loop of `_get_observer_id` (`eprem.py` 414-421); `order` is the union of the prefixes in some order. -/
def observerId (order : List Str) (name : Str) : Except OErr Id :=
  match order with
  | [] => .error .value
  | p :: ps =>
    if p.isPrefixOf (stem name) then
      let key := lstrip (stem name) p
      if p ∈ streamPrefixes then match pyInt key with
        | some n => .ok (.int n)
        | none => .error .value
      else .ok (.str key)
    else observerId ps name

/-- `{_get_observer_id(path): ... for path in obspaths}` (`eprem.py` 353-356), with the name of the file as the value. -/
def collect (order : List Str) : List Str → Dict Id Str → Except OErr (Dict Id Str)
  | [], d => .ok d
  | f :: fs, d => match observerId order f with
    | .error e => .error e
    | .ok k => collect order fs (d.set k f)

/-- The paths of `Dataset.streams` and `Dataset.points` (`eprem.py` 347-352, 363-368). -/
def obspaths (prefixes dir : List Str) : List Str :=
  prefixes.flatMap (fun p => (glob dir (p ++ ['*'])).filter (fun f => decide (suffix f ∈ viewers)))

/-- `Dataset.streams` (`eprem.py` 343-357) and `Dataset.points` (359-373): a mapping from identifiers to files. -/
def observers (order prefixes dir : List Str) : Except OErr (Dict Id Str) := collect order (obspaths prefixes dir) []

/-! ## Configuration files -/

/-- `_CONFIG_NAMES` (`eprem.py` 463-468). -/
def configNames : List Str := ["eprem_input_file".toList, "*.cfg".toList, "*.ini".toList, "*.in".toList]

/-- The guess of `_build_confpath(directory)` (`eprem.py` 474-481). -/
def guessConfig (dir : List Str) : List Str → Except OErr Str
  | [] => .error .value
  | p :: ps => match glob dir p with
    | f :: _ => .ok f
    | [] => guessConfig dir ps

/-- `_build_confpath(directory, config)` (`eprem.py` 470-495): the directory has the path `path` and the entries `dir`, and
`full` is the full path of an existing file, if it exists.  A name is a path without a slash; the special names `.` and
`..` and slashes at the end are left out. -/
def buildConfpath (path : Str) (dir : List Str) (full : Str → Option Str) : Option Str → Except OErr Str
  | none => match guessConfig dir configNames with
    | .error e => .error e
    | .ok f => .ok (path ++ '/' :: f)
  | some c =>
    if '/' ∈ c then match full c with
      | some p => .ok p
      | none => .error .source
    else if c ∈ dir then .ok (path ++ '/' :: c) else .error .value

end Eprem.Observer
