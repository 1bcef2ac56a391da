import Mathlib.Data.List.Infix
import Verif.Model.PyDict

/-!
# Model of the run manager of `src/eprempy/project.py`

The file system is a finite map from paths (lists of components, from the file-system root) to nodes.  It
has no symbolic links, so `paths.normalize` is the identity, and nothing but the modelled commands and the
processes they start changes it.  The log file is kept apart from the file system as a dictionary;
`none` stands for a log file that has been truncated and not yet rewritten.

Every command is executed as a sequence of atomic steps; the model returns the states after each step (the
points at which the process may be killed), the final state and the exception raised, if any.
-/

namespace Eprem.Project

/-- Components of paths are elements of any type with decidable equality. -/
abbrev Path (κ : Type) := List κ

/-- What a path refers to. -/
inductive Node | dir | file
  deriving DecidableEq, Repr

/-- A file system. -/
abbrev FS (κ : Type) := Dict (Path κ) Node

/-- Exceptions. -/
inductive Exc
  | pathOperation | pathType | osError | logKey | jsonDecode | process | projectExists
  deriving DecidableEq, Repr

/-- Keys of the log: the attributes common to all runs (`config`, `output`, `project.py` 775-784), or the
string form of the path of a run (`project.py` 980, 1002, 1023).  `str` is injective on absolute paths
and no attribute name is an absolute path. -/
inductive LogKey (κ : Type)
  | common (name : κ)
  | run (p : Path κ)
  deriving DecidableEq

variable {κ : Type} [DecidableEq κ] {ε : Type}

/-- The disk and the log. -/
structure State (κ ε : Type) where
  fs : FS κ
  log : Option (Dict (LogKey κ) ε)

/-- The atomic steps of an operation: the states after each of them, the last state, the exception. -/
structure Exec (κ ε : Type) where
  visited : List (State κ ε)
  final : State κ ε
  exc : Option Exc

/-! ## File-system primitives (operating system, `pathlib`, `shutil`) -/

/-- `path.is_dir()` -/
def isDir (fs : FS κ) (p : Path κ) : Prop := fs.get? p = some .dir

instance (fs : FS κ) (p : Path κ) : Decidable (isDir fs p) := inferInstanceAs (Decidable (_ = _))

/-- `path.mkdir(parents=True, exist_ok=True)`: every missing ancestor and `path` become directories. -/
def mkdirP (fs : FS κ) (p : Path κ) : FS κ :=
  p.inits.foldl (fun fs q => if fs.get? q = none then fs.set q .dir else fs) fs

/-- Whether `p` is or lies below `d`. -/
def under (d p : Path κ) : Bool := d.isPrefixOf p

/-- `shutil.rmtree` -/
def rmtree (fs : FS κ) (p : Path κ) : FS κ := fs.filter (fun e => !under p e.1)

/-- `source.rename(target)` for directories when `target` does not exist: everything below `source` moves.
(Nothing can lie below the non-existing `target`; the filter only makes that explicit.) -/
def renameDir (fs : FS κ) (a b : Path κ) : FS κ :=
  (rmtree fs b).map (fun e => if under a e.1 then (b ++ e.1.drop a.length, e.2) else e)

/-- A process that runs in directory `p` may change anything strictly below it. -/
def rewrite (fs : FS κ) (p : Path κ) (files : List (Path κ × Node)) : FS κ :=
  (files.filter (fun f => !f.1.isEmpty)).foldl (fun fs f => fs.set (p ++ f.1) f.2)
    (fs.filter (fun e => !(under p e.1 && e.1 != p)))

/-! ## Paths of runs -/

/-- The attributes of a project that determine its run directories (`RunPaths`, `project.py` 356-370). -/
structure Paths (κ : Type) where
  root : Path κ
  branches : List κ
  base : κ

/-- `RunPaths.listing` (`project.py` 562-576). -/
def Paths.listing (P : Paths κ) : List (Path κ) :=
  if P.branches = [] then [P.root ++ [P.base]] else P.branches.map (fun b => P.root ++ [b, P.base])

/-- `d.parent.name` -/
def parentName (d : Path κ) : Option κ := d.dropLast.getLast?

/-- `RunPaths._get_rundirs` (`project.py` 549-560); a single string stands for a list of one name. -/
def Paths.rundirs (P : Paths κ) (branches : List κ) : List (Path κ) :=
  if branches = [] then P.listing
  else P.listing.filter (fun d => match parentName d with
    | some n => decide (n ∈ branches)
    | none => false)

/-- A pattern given to `rm`: the empty string, or a glob pattern as the set of relative paths it matches. -/
inductive Pattern (κ : Type)
  | empty
  | glob (sel : Path κ → Bool)

/-- `'*'` -/
def Pattern.star : Pattern κ := .glob (fun r => r.length == 1)

/-- `rundir.glob(pattern)`: existing paths in the order the operating system lists them. -/
def globDir (fs : FS κ) (d : Path κ) (sel : Path κ → Bool) : List (Path κ) :=
  fs.keys.filter (fun p => under d p && sel (p.drop d.length))

/-- `RunPaths.define(pattern=...)` (`project.py` 483-508): an empty pattern means `'*'`. -/
def Paths.definePattern (P : Paths κ) (fs : FS κ) (pat : Pattern κ) (branches : List κ) : List (Path κ) :=
  (P.rundirs branches).flatMap (fun d => globDir fs d
    (match pat with
      | .empty => fun r => r.length == 1
      | .glob sel => sel))

/-! ## One path of each command -/

/-- The end of one path's turn in `_PathOperation.__iter__` when the operator returned an error
(`project.py` 305-320): raise it unless forced. -/
def pathError (s : State κ ε) (force : Bool) : Exec κ ε :=
  ⟨[], s, if force then none else some .pathOperation⟩

/-- `RunLog.dump` (`project.py` 232-239): opening the file for writing truncates it. -/
def dump (s : State κ ε) (l : Dict (LogKey κ) ε) : Exec κ ε :=
  ⟨[{ s with log := none }, { s with log := some l }], { s with log := some l }, none⟩

/-- Prefix an execution with a step that led to its first state. -/
def Exec.after (e : Exec κ ε) (steps : List (State κ ε)) : Exec κ ε := { e with visited := steps ++ e.visited }

/-- What a started process did: an exit code, or an exception while the run was prepared (no such
configuration file, no executable); in both cases files may have been written in the run directory. -/
structure Outcome (κ ε : Type) where
  files : List (Path κ × Node)
  /-- `none` if an exception was raised before the process ended -/
  exit : Option Int
  entry : ε

/-- One path of `Interface.run`: `RunPaths._mkdir` (`project.py` 418-426), then `Interface._create_run`
(`project.py` 934-985). -/
def runOne (force : Bool) (s : State κ ε) (x : Path κ × Outcome κ ε) : Exec κ ε :=
  let (p, o) := x
  if s.fs.get? p ≠ none then pathError s force
  else if p.inits.any (fun q => decide (s.fs.get? q = some .file)) then ⟨[], s, some .osError⟩
  else
    let s₁ := { s with fs := mkdirP s.fs p }
    let s₂ := { s with fs := rewrite s₁.fs p o.files }
    match o.exit with
    | none => ⟨[s₁, s₂], s₂, some .process⟩
    | some c =>
      if c = 0 then
        match s.log with
        | none => ⟨[s₁, s₂], s₂, some .jsonDecode⟩
        | some l => (dump s₂ (l.set (.run p) o.entry)).after [s₁, s₂]
      else ⟨[s₁, s₂], s₂, none⟩

/-- One pair of `Interface.mv`: `RunPaths._mv` (`project.py` 438-456), then `RunLog.mv` (`project.py`
207-218). -/
def mvOne (force : Bool) (s : State κ ε) (x : Path κ × Path κ) : Exec κ ε :=
  let (a, b) := x
  if s.fs.get? a = none then pathError s force
  else if ¬ isDir s.fs a then pathError s force
  else if s.fs.get? b ≠ none then pathError s force
  else if under a b ∨ ¬ isDir s.fs b.dropLast then ⟨[], s, some .osError⟩
  else
    let s₁ := { s with fs := renameDir s.fs a b }
    match s.log with
    | none => ⟨[s₁], s₁, some .jsonDecode⟩
    | some l =>
      match l.get? (.run a) with
      | none => ⟨[s₁], s₁, some .logKey⟩
      | some v => (dump s₁ ((l.del (.run a)).set (.run b) v)).after [s₁]

/-- One path of `Interface.rm`: `RunPaths._rm` (`project.py` 469-481), then `RunLog.rm` (`project.py`
220-224). -/
def rmOne (force : Bool) (s : State κ ε) (p : Path κ) : Exec κ ε :=
  if s.fs.get? p = none then pathError s force
  else if ¬ isDir s.fs p then pathError s force
  else
    let s₁ := { s with fs := rmtree s.fs p }
    match s.log with
    | none => ⟨[s₁], s₁, some .jsonDecode⟩
    | some l => (dump s₁ (l.del (.run p))).after [s₁]

/-- The loop over the paths of an operation: an exception ends it. -/
def loop {α : Type} (f : State κ ε → α → Exec κ ε) : State κ ε → List α → Exec κ ε
  | s, [] => ⟨[], s, none⟩
  | s, x :: xs =>
    let e := f s x
    match e.exc with
    | some _ => e
    | none => (loop f e.final xs).after e.visited

/-! ## Commands -/

/-- The commands that change runs.  The name of a run is a relative path; `outcome` says what happens to
the process started in each run directory. -/
inductive Cmd (κ ε : Type)
  | run (name : Path κ) (branches : List κ) (errors : Bool) (outcome : Path κ → Outcome κ ε)
  | mv (source target : Path κ) (branches : List κ) (errors : Bool)
  | rm (pattern : Pattern κ) (branches : List κ) (errors : Bool)

/-- `Interface.run` (`project.py` 912-932), `Interface.mv` (987-1006), `Interface.rm` (1008-1028). -/
def exec (P : Paths κ) (s : State κ ε) : Cmd κ ε → Exec κ ε
  | .run name branches errors outcome =>
    loop (runOne (!errors)) s ((P.rundirs branches).map (fun d => (d ++ name, outcome (d ++ name))))
  | .mv a b branches errors =>
    loop (mvOne (!errors)) s ((P.rundirs branches).map (fun d => (d ++ a, d ++ b)))
  | .rm pat branches errors =>
    loop (rmOne (!errors)) s (P.definePattern s.fs pat branches)

/-- `Interface.reset` (`project.py` 853-855). -/
def reset (P : Paths κ) (s : State κ ε) (force : Bool) : Exec κ ε := exec P s (.rm .star [] (!force))

/-- The run directories and the log of a new project (`project.py` 365-370, 775-784): `common` are the
attributes shared by all runs. -/
def newProject (P : Paths κ) (fs : FS κ) (common : Dict κ ε) : State κ ε :=
  ⟨P.listing.foldl mkdirP fs, some (common.map (fun p => (.common p.1, p.2)))⟩

/-! ## Renaming the project -/

/-- `key.replace(source, target)` on the components of a key (`project.py` 123): every occurrence of
`source`, from the left, is replaced.  (Python works on the characters.)  The first argument bounds the
recursion by the length of the key. -/
def replaceComps : Nat → Path κ → Path κ → Path κ → Path κ
  | 0, _, _, key => key
  | n + 1, source, target, key =>
    if source ≠ [] ∧ under source key then target ++ replaceComps n source target (key.drop source.length)
    else match key with
      | [] => []
      | c :: cs => c :: replaceComps n source target cs

/-- `key.replace` on the keys of the log; attribute names contain no path. -/
def LogKey.replace (source target : Path κ) : LogKey κ → LogKey κ
  | .common n => .common n
  | .run p => .run (replaceComps p.length source target p)

/-- `RunLog.mv` (`project.py` 207-218) on a readable log. -/
def logMv (l : Dict (LogKey κ) ε) (a b : LogKey κ) : Except Exc (Dict (LogKey κ) ε) :=
  match l.get? a with
  | none => .error .logKey
  | some v => .ok ((l.del a).set b v)

/-- The loop of `RunLog.update_directory` (`project.py` 122-123) over the keys read at the start. -/
def updateKeys (source target : Path κ) :
    List (LogKey κ) → Dict (LogKey κ) ε → Except Exc (Dict (LogKey κ) ε)
  | [], l => .ok l
  | k :: ks, l =>
    match logMv l k (k.replace source target) with
    | .error e => .error e
    | .ok l' => updateKeys source target ks l'

/-- `RunLog.update_directory(new)` (`project.py` 97-124).  `self._path` is assigned before `source` is
computed from it, so `source` is the new directory. -/
def updateDirectory (new : Path κ) (l : Dict (LogKey κ) ε) : Except Exc (Dict (LogKey κ) ε) :=
  updateKeys new new l.keys l

/-- `Interface.rename` (`project.py` 857-880) with `RunPaths.update(root=new)` (`project.py` 372-393), up to
the update of the metadata file.  Returns the new paths and state. -/
def rename (P : Paths κ) (s : State κ ε) (new : Path κ) (force : Bool) :
    Except Exc (Paths κ × State κ ε) :=
  if s.fs.get? new ≠ none then (if force then .error .pathType else .error .pathOperation)
  else if under P.root new ∨ ¬ isDir s.fs P.root ∨ ¬ isDir s.fs new.dropLast then .error .osError
  else match s.log with
    | none => .error .jsonDecode
    | some l =>
      match updateDirectory new l with
      | .error e => .error e
      | .ok l' => .ok ({ P with root := new }, ⟨renameDir s.fs P.root new, some l'⟩)

end Eprem.Project
