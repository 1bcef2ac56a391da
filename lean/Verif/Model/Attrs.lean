/-!
# Model of the attributes of a project (`Attrs`, `Interface._init_project` in `src/eprempy/project.py`)

Strings are lists of characters.  Paths are POSIX paths without symbolic links; the metadata file is a
JSON object of strings (and one list of strings), which JSON writes and reads back unchanged.
-/

namespace Eprem.Attrs

abbrev Str := List Char

/-- Exceptions. -/
inductive Exc | valueError | projectExists
  deriving DecidableEq, Repr

/-! ## `pathlib` -/

/-- Split at every `/`. -/
def splitSlash : Str → List Str
  | [] => [[]]
  | c :: s =>
    if c = '/' then [] :: splitSlash s
    else match splitSlash s with
      | [] => [[c]]
      | p :: ps => (c :: p) :: ps

/-- The components of `pathlib.Path(s)`, without the root: empty components and `.` are dropped. -/
def parts (s : Str) : List Str := (splitSlash s).filter (fun c => c ≠ [] ∧ c ≠ ['.'])

/-- `pathlib.Path(s).name`; `paths.localize` (`paths.py` 25-43) is the relative path with this name. -/
def localize (s : Str) : Str := (parts s).getLastD []

/-- `str(path)` of an absolute path. -/
def showAbs (p : List Str) : Str := if p = [] then ['/'] else p.flatMap (fun c => '/' :: c)

/-- `str(path)` of a relative path that consists of a name, which may be empty. -/
def showName (n : Str) : Str := if n = [] then ['.'] else n

/-- `root / name` -/
def join (root : List Str) (n : Str) : List Str := if n = [] then root else root ++ [n]

/-- Index of the last dot of a name that contains one. -/
def lastDot (n : Str) : Nat := n.length - 1 - n.reverse.idxOf '.'

/-- `'.json'` -/
def json : Str := ['.', 'j', 's', 'o', 'n']

/-- `path.with_suffix('.json')` on a path with the given name. -/
def withJson (n : Str) : Except Exc Str :=
  if n = [] then .error .valueError
  else if '.' ∈ n ∧ 0 < lastDot n ∧ lastDot n + 1 < n.length then .ok (n.take (lastDot n) ++ json)
  else .ok (n ++ json)

/-! ## `Attrs` -/

/-- The optional arguments of a project (`project.py` 689-699); `none` is Python's `None`. -/
structure Opts where
  branches : Option (List Str) := none
  config : Option Str := none
  inputs : Option Str := none
  output : Option Str := none
  rundir : Option Str := none
  logname : Option Str := none
  deriving DecidableEq, Repr

/-- `Attrs` (`project.py` 590-614). -/
structure Attrs where
  root : List Str
  branches : List Str
  config : Str
  inputs : List Str
  output : Str
  rundir : Str
  logname : Str
  deriving DecidableEq, Repr

/-- `value or default` for strings. -/
def orDefault (x : Option Str) (d : Str) : Str :=
  match x with
  | none => d
  | some s => if s = [] then d else s

/-- `Attrs.__init__` (`project.py` 593-614) on a normalized root. -/
def Attrs.mk? (root : List Str) (o : Opts) : Except Exc Attrs :=
  match withJson (localize (orDefault o.logname ['r', 'u', 'n', 's'])) with
  | .error e => .error e
  | .ok logname => .ok {
      root := root
      branches := o.branches.getD []
      config := orDefault o.config ['e', 'p', 'r', 'e', 'm', '.', 'c', 'f', 'g']
      inputs := join root (localize (orDefault o.inputs ['i', 'n', 'p', 'u', 't', 's']))
      output := localize (orDefault o.output ['e', 'p', 'r', 'e', 'm', '.', 'l', 'o', 'g'])
      rundir := localize (orDefault o.rundir ['r', 'u', 'n', 's'])
      logname := logname }

/-- The JSON object in `.eprem.conf`. -/
structure Serial where
  root : Str
  branches : List Str
  config : Str
  inputs : Str
  output : Str
  rundir : Str
  logname : Str
  deriving DecidableEq, Repr

/-- `Attrs.serial` (`project.py` 626-640). -/
def Attrs.serial (a : Attrs) : Serial :=
  ⟨showAbs a.root, a.branches, a.config, showAbs a.inputs, showName a.output, showName a.rundir, showName a.logname⟩

/-- `Interface._restore_project` (`project.py` 768-773): `paths.normalize` of an absolute path without
links, `.` or `..` gives its components. -/
def restore (s : Serial) : Except Exc Attrs :=
  Attrs.mk? (parts s.root) ⟨some s.branches, some s.config, some s.inputs, some s.output, some s.rundir, some s.logname⟩

/-- `Interface._get_attrs` (`project.py` 739-758): `stored` is the metadata of the project at `root`, if there
is one. -/
def getAttrs (stored : Option Serial) (root : List Str) (o : Opts) : Except Exc Attrs :=
  match stored with
  | none => Attrs.mk? root o
  | some s => if o = {} then restore s else .error .projectExists

/-- `Attrs.options` (`project.py` 616-624) as they are passed on to the new project. -/
def Attrs.options (a : Attrs) : Opts :=
  ⟨some a.branches, some a.config, some (showAbs a.inputs), some (showName a.output), some (showName a.rundir),
    some (showName a.logname)⟩

/-- `copied.update(options)` (`project.py` 736): every option is a key of `options`, also those that the
caller left at `None`. -/
def Opts.update (_copied options : Opts) : Opts := options

/-- `Interface._init_project` (`project.py` 725-737); `source` is the metadata of the project to copy. -/
def initProject (stored : Option Serial) (root : List Str) (source : Option Serial) (o : Opts) :
    Except Exc Attrs :=
  match source with
  | none => getAttrs stored root o
  | some s =>
    match restore s with
    | .error e => .error e
    | .ok a => getAttrs stored root (a.options.update o)

/-- `Interface._update_metadata` (`project.py` 886-905): only `root` is replaced in the metadata. -/
def updateMetadata (s : Serial) (new : List Str) : Serial := { s with root := showAbs new }

end Eprem.Attrs
