import Verif.Model.Config

/-!
# Definitions in the EPREM source files

A model of the extraction of definitions from `configuration.c` and `baseTypes.h` (`parameter/_src.py` 160-470,
`paths.py` 158-188).  The regular expressions are deterministic: in each of them, what may follow a repeated class of
characters is not in that class, so that a scan from the left finds the only match.
-/

namespace Eprem.Config

open Eprem Eprem.Symbolic

/-- A literal part of a pattern. -/
def eat (lit : Str) (s : Str) : Option Str := if lit.isPrefixOf s then some (s.drop lit.length) else none

/-- An optional literal part. -/
def eatOpt (lit : Str) (s : Str) : Str := (eat lit s).getD s

/-- `(?P<name>[p]+)`: one or more characters of a class. -/
def eatSome (p : Char → Bool) (s : Str) : Option (Str × Str) :=
  if (s.takeWhile p).isEmpty then none else some (s.takeWhile p, s.dropWhile p)

/-! ## Calls of the functions that read parameters -/

/-- The functions (`_src.py` 297). -/
def readModes : List Str := ["readInt".toList, "readDouble".toList, "readDoubleArray".toList, "readString".toList]

/-- The first function whose name, followed by a parenthesis, the text begins with. -/
def eatMode : List Str → Str → Option (Str × Str)
  | [], _ => none
  | m :: ms, s => match eat (m ++ ['(']) s with
    | some r => some (m, r)
    | none => eatMode ms s

/-- `.*?\)\;\Z`. -/
def eatEnd (s : Str) : Option Str :=
  match s.reverse with
  | ';' :: ')' :: r => if '\n' ∈ r then none else some r.reverse
  | _ => none

/-- The cast of strings (`_src.py` 295). -/
def charCast : Str := "(char*)".toList

/-- From the name of the function on (`_src.py` 296-311). -/
def matchFunction (s : Str) : Option (Str × Str × Str) :=
  match eatMode readModes s with
  | none => none
  | some (mode, a) => match eat ['"'] a with
    | none => none
    | some b => match eat ['"'] (b.dropWhile isWord) with
      | none => none
      | some c => match eat [','] (c.dropWhile isSpace) with
        | none => none
        | some d => match eatEnd d with
          | none => none
          | some args => some (mode, b.takeWhile isWord, args)

/-- `FunctionCall.match(line)` (`_src.py` 284-318): function, key without quotation marks, and arguments. -/
def matchCall (line : Str) : Option (Str × Str × Str) :=
  match eatSome isWord (eatOpt configDot (strip line)) with
  | none => none
  | some (_, s) => match eat ['='] (s.dropWhile isSpace) with
    | none => none
    | some t => matchFunction (eatOpt charCast (t.dropWhile isSpace))

/-- The names of the arguments (`_src.py` 329-341). -/
def argumentNames (mode : Str) : List Str :=
  if mode = "readInt".toList ∨ mode = "readDouble".toList then ["defaultVal".toList, "minVal".toList, "maxVal".toList]
  else if mode = "readString".toList then ["defaultVal".toList]
  else if mode = "readDoubleArray".toList then
    ["defaultSize".toList, "size".toList, "defaultVal".toList, "minVal".toList, "maxVal".toList]
  else []

/-- `arg.strip(' "')` (`_src.py` 345). -/
def stripArg (s : Str) : Str := stripBy (fun c => c = ' ' || c = '"') s

/-- What is known about a parameter: the function that reads it and the arguments. -/
structure Call where
  mode : Str
  args : Dict Str Str
  deriving DecidableEq

/-- `FunctionCall.parse` (`_src.py` 320-346). -/
def parseCall (m : Str × Str × Str) : Str × Call :=
  (m.2.1, ⟨m.1, Dict.ofItems ((argumentNames m.1).zip ((splitOn ',' m.2.2).map stripArg))⟩)

/-- A line of `configuration.c` that reads a parameter. -/
def readCall (line : Str) : Option (Str × Call) := (matchCall line).map parseCall

/-! ## Definitions of arrays -/

/-- `\d*(?:\.\d+)?`. -/
def isNumber (s : Str) : Bool :=
  match s.dropWhile isDigit with
  | [] => true
  | c :: r => c = '.' && !r.isEmpty && r.all isDigit

/-- `(?:config\.)?\w+`. -/
def isMember (s : Str) : Bool := !(eatOpt configDot s).isEmpty && (eatOpt configDot s).all isWord

/-- The type of arrays (`_src.py` 363). -/
def scalarT : Str := "Scalar_t".toList

/-- From the equals sign on (`_src.py` 371-378). -/
def matchBraces (s : Str) : Option Str :=
  match eat ['='] (s.dropWhile isSpace) with
  | none => none
  | some t => match eat ['{'] (t.dropWhile isSpace) with
    | none => none
    | some v =>
      if (isNumber (v.takeWhile (· ≠ '}')) || isMember (v.takeWhile (· ≠ '}'))) && v.dropWhile (· ≠ '}') = ['}', ';'] then
        some (v.takeWhile (· ≠ '}'))
      else none

/-- `VariableDefinition.match(line)` (`_src.py` 358-385): name, size and value. -/
def matchVariable (line : Str) : Option (Str × Str × Str) :=
  match eat scalarT (strip line) with
  | none => none
  | some s => match eatSome isWord (s.dropWhile isSpace) with
    | none => none
    | some (name, t) => match eat ['['] t with
      | none => none
      | some u => match eatSome isDigit u with
        | none => none
        | some (size, v) => match eat [']'] v with
          | none => none
          | some w => match matchBraces w with
            | none => none
            | some value => some (name, size, value)

/-- `VariableDefinition.parse` (`_src.py` 387-393); the size is not used any more. -/
def readVariable (line : Str) : Option (Str × Str) :=
  (matchVariable line).map (fun m => (m.1, '[' :: m.2.2 ++ [']']))

/-! ## Constants -/

/-- `[0-9A-Z_]`. -/
def isName (c : Char) : Bool := isDigit c || decide (('A'.toNat ≤ c.toNat ∧ c.toNat ≤ 'Z'.toNat) ∨ c = '_')

/-- `[-+\.\*\/\d\w\s\(\)]`. -/
def isValueChar (c : Char) : Bool :=
  isWord c || isSpace c || decide (c ∈ ['-', '+', '.', '*', '/', '(', ')'])

/-- The directive (`_src.py` 168). -/
def define : Str := "#define".toList

/-- `BaseTypeDef.match(line)` and `parse` (`_src.py` 160-191): name and value. -/
def readConstant (line : Str) : Option (Str × Str) :=
  match eat define (strip line) with
  | none => none
  | some s => match eatSome isSpace s with
    | none => none
    | some (_, t) => match eatSome isName t with
      | none => none
      | some (name, u) => match eatSome isSpace u with
        | none => none
        | some (_, value) => if !value.isEmpty && value.all isValueChar then some (name, value) else none

/-! ## Files -/

/-- `TextFile.extract(match, parse)` (`paths.py` 162-188) on the lines of a file. -/
def extract {ν : Type} (f : Str → Option (Str × ν)) (lines : List Str) : Dict Str ν := Dict.ofItems (lines.filterMap f)

/-- One item of the attribute dictionary of a parameter whose default is an array (`_src.py` 418-425).  A missing argument
is a `KeyError`. -/
def substitute (arrays : Dict Str Str) (c : Call) : Except Err Call :=
  match c.args.get? "defaultVal".toList with
  | none => .error .key
  | some d => match arrays.get? d with
    | none => .ok c
    | some v => match c.args.get? "maxVal".toList with
      | none => .error .key
      | some hi => match c.args.get? "minVal".toList with
        | none => .error .key
        | some lo => .ok ⟨c.mode, [("defaultVal".toList, v), ("maxVal".toList, hi), ("minVal".toList, lo)]⟩

/-- The dictionary of all parameters (`_src.py` 418-430). -/
def substituteAll (arrays : Dict Str Str) : Dict Str Call → Except Err (Dict Str Call)
  | [] => .ok []
  | (k, c) :: r => match substitute arrays c with
    | .error e => .error e
    | .ok c' => match substituteAll arrays r with
      | .error e => .error e
      | .ok r' => .ok ((k, c') :: r')

/-- `ConfigurationC.load_from_source(file)` (`_src.py` 415-430). -/
def loadConfiguration (lines : List Str) : Except Err (Dict Str Call) :=
  substituteAll (extract readVariable lines) (extract readCall lines)

/-- `BaseTypesH.load_from_source(file)` (`_src.py` 206-208). -/
def loadConstants (lines : List Str) : Dict Str Str := extract readConstant lines

end Eprem.Config
