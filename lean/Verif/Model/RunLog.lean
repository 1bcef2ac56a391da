import Mathlib.Data.List.Sort
import Mathlib.Data.List.Lex
import Mathlib.Data.Char
import Verif.Model.Project

/-!
# Model of the log of runs and of the listings of runs of `src/eprempy/project.py`

`RunLog` (48-262), `RunPaths.resolve`, `RunPaths.runs` and `RunPaths.branches` (509-548), `Interface._show_run` (843-852) and
`Interface.name` (1054-1062).
-/

namespace Eprem.RunLog

open Eprem

/-- A string. -/
abbrev Text := List Char

/-- A value that can be given as metadata: `None`, a boolean, a number or a string (as its text), a list or a tuple, a
dictionary with strings as keys, or a `pathlib.Path`, which `json` does not support. -/
inductive Value
  | atom (text : Text)
  | arr (items : List Value)
  | obj (fields : List (Text × Value))
  | path (text : Text)

/-- The contents of the log. -/
abbrev Contents := Dict Text Value

/-- `sorted(d.items())` on strings (`sort_keys=True`, `project.py` 239). -/
def sortKeys (l : List (Text × Value)) : List (Text × Value) := l.insertionSort (fun a b => a.1 ≤ b.1)

mutual

/-- What is written by `json.dump(..., sort_keys=True)` (`project.py` 239) and read by `json.load` (`project.py` 230), or
nothing if there is a `TypeError`. -/
def serialize : Value → Option Value
  | .atom t => some (.atom t)
  | .arr l => (serializeItems l).map .arr
  | .obj l => (serializeFields l).map (fun l => .obj (sortKeys l))
  | .path _ => none

/-- The items of a list (`project.py` 239). -/
def serializeItems : List Value → Option (List Value)
  | [] => some []
  | v :: l => match serialize v, serializeItems l with
    | some v, some l => some (v :: l)
    | _, _ => none

/-- The items of a dictionary (`project.py` 239). -/
def serializeFields : List (Text × Value) → Option (List (Text × Value))
  | [] => some []
  | (k, v) :: l => match serialize v, serializeFields l with
    | some v, some l => some ((k, v) :: l)
    | _, _ => none

end

/-- Errors of the log. -/
inductive Err
  | logKey | type | jsonDecode | value | read
  deriving DecidableEq, Repr

/-- The log file: what it contains, if it can be read. -/
abbrev File := Option Contents

/-- `str(v) if isinstance(v, pathlib.Path) else v` (`project.py` 234-237). -/
def payload : Value → Value
  | .path t => .atom t
  | v => v

/-- `RunLog.dump` (`project.py` 232-239).  The file is opened for writing, which truncates it, before the contents are
encoded. -/
def dump (c : Contents) : File × Except Err Unit :=
  match serializeFields (c.map (fun p => (p.1, payload p.2))) with
  | none => (none, .error .type)
  | some l => (some (sortKeys l), .ok ())

/-- `RunLog(path, **common)` (`project.py` 51-81), given the existing file, if there is one. -/
def init (existing : Option File) (common : Contents) : File × Except Err Unit :=
  match existing with
  | some f => if common = [] then (f, .ok ()) else (f, .error .type)
  | none => dump common

/-- `RunLog.create(key, *mapping, **items)` (`project.py` 142-158). -/
def create (f : File) (key : Text) (mapping : List Contents) (items : Contents) : File × Except Err Unit :=
  match f with
  | none => (f, .error .jsonDecode)
  | some c =>
    if mapping ≠ [] ∧ items ≠ [] then (f, .error .type)
    else match mapping with
      | [] => dump (c.set key (.obj items))
      | [m] => dump (c.set key (.obj (if m = [] then items else m)))
      | _ => (f, .error .type)

/-- The file given to `RunLog.load`: whether its type is known and supported, and what it contains. -/
inductive Source
  | unknown
  | unsupported
  | contents (c : Contents)

/-- `RunLog.load(key, source)` (`project.py` 160-192).  The contents of the file update a copy of the contents of the log. -/
def load (f : File) (key : Text) (source : Source) : File × Except Err Unit :=
  match f with
  | none => (f, .error .jsonDecode)
  | some c => match source with
    | .unknown => (f, .error .value)
    | .unsupported => (f, .error .read)
    | .contents loaded => dump (c.set key (.obj (loaded.foldl (fun (c : Contents) p => Dict.set c p.1 p.2) c)))

/-- `RunLog.append(target, key, value)` (`project.py` 193-205). -/
def append (f : File) (target key : Text) (value : Value) : File × Except Err Unit :=
  match f with
  | none => (f, .error .jsonDecode)
  | some c => match c.get? target with
    | none => (f, .error .logKey)
    | some (.obj l) => dump (c.set target (.obj (Dict.set l key value)))
    | some _ => (f, .error .type)

/-- `RunLog.mv(source, target)` (`project.py` 207-218). -/
def mv (f : File) (old new : Text) : File × Except Err Unit :=
  match f with
  | none => (f, .error .jsonDecode)
  | some c => match c.get? old with
    | none => (f, .error .logKey)
    | some v => dump ((c.del old).set new v)

/-- `RunLog.rm(target)` (`project.py` 220-224). -/
def rm (f : File) (target : Text) : File × Except Err Unit :=
  match f with
  | none => (f, .error .jsonDecode)
  | some c => dump (c.del target)

/-- `log[key]` (`project.py` 91-95). -/
def getItem (f : File) (key : Text) : Except Err Value :=
  match f with
  | none => .error .jsonDecode
  | some c => match c.get? key with
    | none => .error .logKey
    | some v => .ok v

/-- `list(log)` (`project.py` 87-89). -/
def iter (f : File) : Except Err (List Text) :=
  match f with
  | none => .error .jsonDecode
  | some c => .ok c.keys

/-- The operations on a log (`project.py` 142-224). -/
inductive Op
  | create (key : Text) (mapping : List Contents) (items : Contents)
  | load (key : Text) (source : Source)
  | append (target key : Text) (value : Value)
  | mv (old new : Text)
  | rm (target : Text)

/-- One operation. -/
def exec (f : File) : Op → File × Except Err Unit
  | .create key mapping items => create f key mapping items
  | .load key source => load f key source
  | .append target key value => append f target key value
  | .mv old new => mv f old new
  | .rm target => rm f target

/-- Operations one after the other, each by a user who catches the exceptions. -/
def execAll : File → List Op → File × List (Except Err Unit)
  | f, [] => (f, [])
  | f, o :: os =>
    let r := execAll (exec f o).1 os
    (r.1, (exec f o).2 :: r.2)

end Eprem.RunLog

namespace Eprem.Project

open Eprem

variable {κ : Type} [DecidableEq κ]

/-- A dictionary made by a comprehension over keys (`project.py` 522-525, 526-530, 544). -/
def dictOf {ν : Type} (f : κ → ν) (l : List κ) : Dict κ ν := l.foldl (fun d k => d.set k (f k)) []

/-- `run.name for run in d.glob('*')` (`project.py` 524, 529). -/
def names (fs : FS κ) (d : Path κ) : List κ := (globDir fs d (fun r => r.length == 1)).filterMap List.getLast?

/-- `RunPaths.runs` (`project.py` 519-537).  A set is a list. -/
def Paths.runs (P : Paths κ) (fs : FS κ) : Dict κ (List κ) :=
  if P.branches = [] then dictOf (fun _ => []) (names fs (P.root ++ [P.base]))
  else dictOf (fun n => P.branches.filter (fun b => decide (isDir fs (P.root ++ [b, P.base, n]))))
    (P.branches.flatMap (fun b => names fs (P.root ++ [b, P.base])))

/-- `RunPaths.branches` (`project.py` 539-547). -/
def Paths.branchRuns (P : Paths κ) (fs : FS κ) : Dict κ (List κ) :=
  if P.branches = [] then []
  else dictOf (fun b => ((P.runs fs).filter (fun p => decide (b ∈ p.2))).map Prod.fst) P.branches

/-- `RunPaths.resolve(target, branches)` (`project.py` 509-516). -/
def Paths.resolve (P : Paths κ) (target : κ) (branches : List κ) : List (Path κ) :=
  if branches = [] then [P.root ++ [P.base, target]]
  else branches.map (fun b => P.root ++ [b, P.base, target])

/-- `Interface._show_run(run)` (`project.py` 843-852): the paths that are printed, or nothing if there is no run with that
name. -/
def Paths.showRun (P : Paths κ) (fs : FS κ) (run : κ) : Option (List (Path κ)) :=
  match (P.runs fs).get? run with
  | none => none
  | some branches => some (P.resolve run branches)

/-- `Interface.name` (`project.py` 1054-1062): the name that is returned, and the stored name. -/
def readName (stored : Option κ) (P : Paths κ) : Option κ × Option κ :=
  match stored with
  | some n => (some n, some n)
  | none => (P.root.getLast?, P.root.getLast?)

end Eprem.Project
