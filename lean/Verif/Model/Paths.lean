import Mathlib.Data.List.Basic

/-!
# Searching for files and programs

Model of `paths.py` and of the part of `project.Interface._create_run` that chooses
the configuration file and the programs of a run.  A disk is whatever answers the
questions the code asks of it; nothing is assumed about paths.
-/

namespace Eprem.Paths

/-- What the code asks of the file system; `P` is the type of paths.  `resolve` is
`Path.expanduser().resolve()`, `real` is `os.path.realpath`, `which` is
`shutil.which`. -/
structure Disk (P : Type) where
  resolve : P → P
  real : P → P
  isThere : P → Bool
  isDir : P → Bool
  isFile : P → Bool
  join : P → P → P
  cwd : P
  which : P → Option P

/-- The exceptions of this part. -/
inductive Exc (P : Type)
  /-- `NonExistentPathError` -/
  | missing (p : P)
  | typeError
  deriving DecidableEq, Repr

variable {P : Type}

/-- `paths.normalize` (`paths.py` 20-22). -/
def normalize (d : Disk P) (p : P) : P := d.resolve p

/-- `paths.fullpath` (`paths.py` 103-126). -/
def fullpath (d : Disk P) (p : P) (strict : Bool) : Except (Exc P) P :=
  if strict && !d.isThere (d.resolve p) then .error (.missing p) else .ok (d.resolve p)

/-- The loop of `paths.search` (`paths.py` 238-243). -/
def searchIn (d : Disk P) (file : P) : List P → Except (Exc P) (Option P)
  | [] => .ok none
  | p :: ps =>
    match fullpath d p true with
    | .error e => .error e
    | .ok path =>
      if d.isDir path && d.isThere (d.join path file) then .ok (some (d.join path file))
      else searchIn d file ps

/-- `paths.search` (`paths.py` 219-243). -/
def search (d : Disk P) (file : P) (paths : List P) : Except (Exc P) (Option P) :=
  searchIn d file (paths ++ [d.cwd])

/-- `paths.find_file_by_template` (`paths.py` 245-256). -/
def findByTemplate (d : Disk P) (templates : List (P → P)) (name directory : P) :
    Except (Exc P) (Option P) :=
  match fullpath d directory true with
  | .error e => .error e
  | .ok dir => .ok ((templates.map fun t => d.join dir (t name)).find? d.isThere)

/-- `paths.locate` (`paths.py` 46-63): `env` is what the environment has for the name
(an empty text counts as nothing). -/
def locate (d : Disk P) (name path : P) (env : Option P) : Except (Exc P) P :=
  let it := normalize d (d.real (env.getD (d.join path name)))
  if d.isThere it then .ok it
  else
    match d.which name with
    | some p => .ok p
    | none => .error .typeError

/-- The names the code uses. -/
structure Names (P : Type) where
  inputs : P
  mpirun : P
  eprem : P

/-- What one run is made of: its configuration file and the two programs. -/
structure Run (P : Type) where
  config : P
  mpirun : P
  eprem : P
  deriving DecidableEq, Repr

/-- The configuration file of a run (`project.py` 943-944). -/
def runConfig (d : Disk P) (n : Names P) (root config : P) : Except (Exc P) P :=
  if d.isFile (d.join (d.join root n.inputs) config) then .ok (d.join (d.join root n.inputs) config)
  else fullpath d config true

/-- How far a run got: the configuration that was copied into its directory, if
any, and the command or the exception. -/
structure Attempt (P : Type) where
  copied : Option P
  result : Except (Exc P) (Run P)

/-- The beginning of `Interface._create_run` (`project.py` 934-953): the configuration
is copied before the programs are looked for. -/
def startRun (d : Disk P) (n : Names P) (root branch config : P) (env : P → Option P) : Attempt P :=
  match runConfig d n root config with
  | .error e => ⟨none, .error e⟩
  | .ok c =>
    match locate d n.mpirun branch (env n.mpirun) with
    | .error e => ⟨some c, .error e⟩
    | .ok m =>
      match locate d n.eprem branch (env n.eprem) with
      | .error e => ⟨some c, .error e⟩
      | .ok x => ⟨some c, .ok ⟨c, m, x⟩⟩

end Eprem.Paths
