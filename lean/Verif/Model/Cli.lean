import Verif.Model.Config

/-!
# Generating and comparing configuration files

A model of the command `configfile` (`cli.py`) and of the comparison of configuration files (`parameter/_config.py` 136-226).
Files are their texts; resolving paths is left out.  How Python and NumPy print numbers and arrays is a parameter.
-/

namespace Eprem.Config

open Eprem Eprem.Symbolic

variable {R : Type} [Field R] [DecidableEq R]

/-- How values are printed: `str(x)` and `repr(x)` of a number, of the NumPy array of several numbers, `repr(s)` of a
text, `str(u)` of the unit with this name, and whether this unit equals `'1'`. -/
structure Printer (R : Type) where
  number : R → Str
  array : List R → Str
  reprNumber : R → Str
  reprArray : List R → Str
  reprText : Str → Str
  unit : Str → Str
  unitless : Str → Bool

/-- What an interface to parameters is made from (`_runtime.py` 206-231). -/
structure Session (R : Type) where
  env : Env R
  fuel : Nat
  locals : List (Str × Val R)
  units : Str → Option Str
  aliases : List (Finset Str)

/-- `parameter.interface(...)` (`_runtime.py` 206-231). -/
def Session.interface (S : Session R) (cfg : Option (Dict Str Str)) :
    Except Err (Aliased.AMap Str (Option Str × Val R)) :=
  match initValues S.env S.fuel S.locals cfg with
  | .error e => .error e
  | .ok d => .ok (Config.interface d S.units S.aliases)

/-! ## Text of values -/

/-- `', '.join(parts)`. -/
def joinComma : List Str → Str
  | [] => []
  | [p] => p
  | p :: q :: ps => p ++ ", ".toList ++ joinComma (q :: ps)

/-- `str(None)`. -/
def noneText : Str := "None".toList

/-- `repr(v)` of a value without unit. -/
def reprValue (P : Printer R) : Val R → Str
  | .none => noneText
  | .num x => P.number x
  | .text s => P.reprText s
  | .list l => '[' :: joinComma (l.map P.number) ++ [']']
  | .single v => '[' :: reprValue P v ++ [']']

/-- `str(v)` of a value without unit: as `repr(v)`, except for text. -/
def strValue (P : Printer R) : Val R → Str
  | .text s => s
  | v => reprValue P v

/-- `str(data)` where `data` is `arg.data[0] if len(arg.data) == 1 else arg.data` (`cli.py` 200-201). -/
def strData (P : Printer R) : Val R → Str
  | .none => noneText
  | .num x => P.number x
  | .text s => s
  | .list [x] => P.number x
  | .list l => P.array l
  | .single v => strValue P v

/-- `repr(data)`, as above. -/
def reprData (P : Printer R) : Val R → Str
  | .none => noneText
  | .num x => P.reprNumber x
  | .text s => P.reprText s
  | .list [x] => P.reprNumber x
  | .list l => P.reprArray l
  | .single v => reprValue P v

/-- `str(_get_arg_value(arg))` (`cli.py` 198-202); a parameter with a unit is a `Variable`. -/
def argText (P : Printer R) : Option Str × Val R → Str
  | (none, v) => strValue P v
  | (some _, v) => strData P v

/-- `data is None` (`cli.py` 189). -/
def dataIsNone : Val R → Bool
  | .none => true
  | .single .none => true
  | _ => false

/-- `_format_arg_string(arg)` (`cli.py` 185-194). -/
def formatArg (P : Printer R) : Option Str × Val R → Str
  | (none, v) => strValue P v
  | (some u, v) =>
    if P.unitless u || dataIsNone v then reprData P v
    else if P.unit u = "d".toList ∨ P.unit u = "day".toList then strData P v ++ " 'day'".toList
    else strData P v ++ " '".toList ++ P.unit u ++ "'".toList

/-! ## Generating a file -/

/-- The order of text by code points. -/
def strLe : Str → Str → Bool
  | [], _ => true
  | _ :: _, [] => false
  | a :: s, b :: t => decide (a.toNat < b.toNat) || (decide (a = b) && strLe s t)

/-- `sorted(keys)`. -/
def sorted (keys : List Str) : List Str := keys.mergeSort strLe

/-- The lines `key=value` (`cli.py` 62-65); a `KeyError` is passed on. -/
def valueLines (P : Printer R) (m : Aliased.AMap Str (Option Str × Val R)) : List Str → Except Err (List Str)
  | [] => .ok []
  | k :: ks => match getParameter m k with
    | .error e => .error e
    | .ok a => match valueLines P m ks with
      | .error e => .error e
      | .ok ls => .ok ((k ++ '=' :: argText P a) :: ls)

/-- `# --------------------------------` (`cli.py` 60, 67). -/
def ruler : Str := "# --------------------------------".toList

/-- The text that `generate_config_file(path, source)` writes (`cli.py` 49-75), at the given time. -/
def generate (P : Printer R) (S : Session R) (time : Str) : Except Err Str :=
  match S.interface none with
  | .error e => .error e
  | .ok m => match valueLines P m (sorted S.env.reference.keys) with
    | .error e => .error e
    | .ok ls => .ok (joinWith '\n' (["# EPREM default configuration file".toList, "# Generated at ".toList ++ time, ruler] ++ ls ++
        [ruler, []]))

/-! ## Comparing files on the command line -/

/-- Exceptions of the command: `UserError`, `StopIteration`, `ValueError` of `max`, and those of parameters. -/
inductive CliErr
  | user | stop | max | config (e : Err)
  deriving DecidableEq

/-- `(default)` (`cli.py` 168). -/
def defaultMark : Str := "(default)".toList

/-- A file to compare: its label, the pairs in it, and the interface to parameters that is made from it. -/
structure Target (R : Type) where
  label : Str
  cfg : Dict Str Str
  params : Aliased.AMap Str (Option Str × Val R)

/-- `_format_arg_string(interface.get(key))` (`cli.py` 166). -/
def getFormatted (P : Printer R) (m : Aliased.AMap Str (Option Str × Val R)) (key : Str) : Str :=
  match getParameter m key with
  | .ok a => formatArg P a
  | .error _ => noneText

/-- The value of one parameter in one file (`cli.py` 164-168). -/
def shownValue (P : Printer R) (key : Str) (t : Target R) : Str :=
  match t.cfg.get? key with
  | none => defaultMark
  | some s => if s.isEmpty then defaultMark else getFormatted P t.params key

/-- `_map_parameter(key, targets)` (`cli.py` 157-169). -/
def mapParameter (P : Printer R) (key : Str) (ts : List (Target R)) : Dict Str Str :=
  ts.map (fun t => (t.label, shownValue P key t))

/-- `parameter.interface(abspath)` for each file (`cli.py` 139-142). -/
def openTargets (S : Session R) : List (Str × Dict Str Str) → Except Err (List (Target R))
  | [] => .ok []
  | (label, cfg) :: fs => match S.interface (some cfg) with
    | .error e => .error e
    | .ok m => match openTargets S fs with
      | .error e => .error e
      | .ok ts => .ok (⟨label, cfg, m⟩ :: ts)

/-- The heading of a group (`cli.py` 146). -/
def heading (P : Printer R) (key : Str) (a : Option Str × Val R) : Str :=
  "  ".toList ++ key ++ " (default: ".toList ++ formatArg P a ++ ")  ".toList

/-- `any(vi != v0 for vi in values)` (`cli.py` 148-150). -/
def differ (values : List Str) : Bool :=
  match values with
  | [] => false
  | v0 :: _ => values.any (fun v => v ≠ v0)

/-- The loop over parameters (`cli.py` 145-151). -/
def buildGroups (P : Printer R) (m : Aliased.AMap Str (Option Str × Val R)) (ts : List (Target R)) (diff : Bool) :
    Dict Str (Dict Str Str) → List Str → Except Err (Dict Str (Dict Str Str))
  | built, [] => .ok built
  | built, k :: ks => match getParameter m k with
    | .error e => .error e
    | .ok a =>
      if !diff || differ (mapParameter P k ts).values then
        buildGroups P m ts diff (built.set (heading P k a) (mapParameter P k ts)) ks
      else buildGroups P m ts diff built ks

/-- `_build_arg_dict(files, source, diff, names)` (`cli.py` 126-154).  `files` are the labels and the pairs of different
files; `keys` are the parameters in `source`. -/
def buildArgs (P : Printer R) (S : Session R) (keys : List Str) (files : List (Str × Dict Str Str)) (diff : Bool) :
    Except Err (Dict Str (Dict Str Str)) :=
  match S.interface none with
  | .error e => .error e
  | .ok m => match openTargets S files with
    | .error e => .error e
    | .ok ts => match buildGroups P m ts diff ((sorted keys).map (fun k => (k, []))) (sorted keys) with
      | .error e => .error e
      | .ok built => .ok (if diff then built.filter (fun p => !p.2.isEmpty) else built)

/-- `s.ljust(n)`. -/
def ljust (n : Nat) (s : Str) : Str := s ++ List.replicate (n - s.length) ' '

/-- `s.rjust(n)`. -/
def rjust (n : Nat) (s : Str) : Str := List.replicate (n - s.length) ' ' ++ s

/-- The left padding of `s.center(n)` in CPython. -/
def leftPad (n : Nat) (s : Str) : Nat :=
  (n - s.length) / 2 + (if (n - s.length) % 2 = 1 ∧ n % 2 = 1 then 1 else 0)

/-- `s.center(n)`. -/
def center (n : Nat) (s : Str) : Str :=
  List.replicate (leftPad n s) ' ' ++ s ++ List.replicate (n - s.length - leftPad n s) ' '

/-- `max(len(x) for x in xs)`; zero for no texts. -/
def maxLength (xs : List Str) : Nat := (xs.map List.length).foldl max 0

/-- A line with the value of a parameter in a file (`cli.py` 122). -/
def valueLine (lwidth cwidth : Nat) (p : Str × Str) : Str := ljust lwidth p.1 ++ rjust (cwidth - lwidth) p.2

/-- A group of lines (`cli.py` 119-123). -/
def groupLines (lwidth cwidth : Nat) (g : Str × Dict Str Str) : List Str :=
  [center cwidth g.1, List.replicate cwidth '-'] ++ g.2.map (valueLine lwidth cwidth) ++ [[]]

/-- The width of a label (`cli.py` 101). -/
def labelWidth (top : Dict Str Str) : Nat := maxLength top.keys

/-- All values that are not empty (`cli.py` 97). -/
def nonNull (args : Dict Str (Dict Str Str)) : List Str := args.values.flatMap (fun d => d.values.filter (fun v => !v.isEmpty))

/-- The total width (`cli.py` 98-117). -/
def totalWidth (args : Dict Str (Dict Str Str)) (top : Dict Str Str) : Nat :=
  max (maxLength args.keys) (labelWidth top + min 78 (maxLength (nonNull args) + 2))

/-- What is printed for the groups (`cli.py` 95-123). -/
def printGroups (args : Dict Str (Dict Str Str)) : Except CliErr (List Str) :=
  match args.values.find? (fun v => !v.isEmpty) with
  | none => .error .stop
  | some top =>
    if (nonNull args).isEmpty then .error .max
    else .ok ([] :: args.flatMap (groupLines (labelWidth top) (totalWidth args top)))

/-- `compare_config_files(files, source, diff, names)` (`cli.py` 78-123). -/
def compareFiles (P : Printer R) (S : Session R) (keys : List Str) (files : List (Str × Dict Str Str)) (diff : Bool) :
    Except CliErr (List Str) :=
  if files.isEmpty then .error .user
  else match buildArgs P S keys files diff with
    | .error e => .error (.config e)
    | .ok args => printGroups args

/-! ## Comparing file objects -/

/-- What a file may be compared to: another file object, a path object or the text of a path, of a file with this text. -/
inductive Other
  | file (d : Dict Str Str)
  | path (text : Str)
  | string (text : Str)
  | other

/-- Exceptions of the comparison: `TypeError`, `AttributeError`, and those of reading a file. -/
inductive CompareErr
  | type | attribute | config (e : Err)
  deriving DecidableEq

/-- The other file (`_config.py` 207-216), with the comment markers if they are given (the class needs them).  The class
uses the path as it is, and the text of a path cannot be opened. -/
def otherFile (comments : Option (List Char)) : Other → Except CompareErr (Dict Str Str)
  | .file d => .ok d
  | .other => .error .type
  | .string _ => match comments with
    | none => .error .type
    | some _ => .error .attribute
  | .path text => match comments with
    | none => .error .type
    | some cs => match parseConfig (if cs.isEmpty then ['#'] else cs) text with
      | .error e => .error (.config e)
      | .ok d => .ok d

/-- `self.diff(other).keys` (`_config.py` 205-226): the names only in one of the files. -/
def diffKeys (d : Dict Str Str) (comments : Option (List Char)) (o : Other) : Except CompareErr (List Str × List Str) :=
  match otherFile comments o with
  | .error e => .error e
  | .ok d' => .ok (d.keys.filter (fun k => !d'.keys.contains k), d'.keys.filter (fun k => !d.keys.contains k))

/-- `self.compare(other)` (`_config.py` 197-203): `full` holds all pairs of each file, and `sorted` has no duplicates. -/
def compareConfig (d : Dict Str Str) (comments : Option (List Char)) (o : Other) :
    Except CompareErr (Dict Str (Option Str × Option Str)) :=
  match otherFile comments o with
  | .error e => .error e
  | .ok d' => .ok ((sorted (d.keys ++ d'.keys.filter (fun k => !d.keys.contains k))).map (fun k => (k, d.get? k, d'.get? k)))

end Eprem.Config
