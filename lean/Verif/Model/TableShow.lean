import Mathlib.Data.List.Basic
import Verif.Model.PyDict

/-!
# Model of `Table.show` (`src/eprempy/container.py`)

What a table of mappings prints.
-/

namespace Eprem.TableShow

/-- Text. -/
abbrev Str := List Char

/-- A value in an entry of a table: text or a number by its text, a truth value, or an object without a format
of its own (`None`, a list, …) by its text. -/
inductive Cell
  | text (s : Str)
  | flag (b : Bool)
  | object (s : Str)
  deriving DecidableEq

/-- `str(value)`. -/
def Cell.str : Cell → Str
  | .text s => s
  | .flag b => if b then "True".toList else "False".toList
  | .object s => s

/-- `f"{s:^{w}}"` for text: the blanks are divided in two parts, the larger of which is on the right. -/
def center (w : Nat) (s : Str) : Str :=
  let blanks := w - s.length
  List.replicate (blanks / 2) ' ' ++ s ++ List.replicate (blanks - blanks / 2) ' '

/-- `f"{value:^{w}}"`: a truth value is formatted as an integer, and an object without a format of its own
refuses the format string (`TypeError`, given as nothing). -/
def Cell.format (w : Nat) : Cell → Option Str
  | .text s => some (center w s)
  | .flag b => some (center w (if b then "1".toList else "0".toList))
  | .object _ => none

/-- Exceptions. -/
inductive Err
  | indexError | typeError | keyError
  deriving DecidableEq

/-- `name in self.keys` for a table with entries (`container.py` 569-575). -/
def common (entries : List (Dict Str Cell)) (n : Str) : Bool := entries.all (fun e => (e.get? n).isSome)

/-- The keys of a dictionary comprehension: the first occurrence of every name. -/
def firsts : List Str → List Str
  | [] => []
  | n :: r => n :: (firsts r).filter (fun m => decide (m ≠ n))

/-- `columns` (`container.py` 534-537). -/
def columns (entries : List (Dict Str Cell)) (names : List Str) : List Str :=
  firsts (names.filter (common entries))

/-- `column['width']` after the loop (`container.py` 542-545). -/
def width (entries : List (Dict Str Cell)) (n : Str) : Nat :=
  entries.foldl (fun w e => match e.get? n with
    | some c => max w c.str.length
    | none => w) n.length

/-- One of the cells of a row (`container.py` 555-558). -/
def cell (entries : List (Dict Str Cell)) (e : Dict Str Cell) (n : Str) : Except Err Str :=
  match e.get? n with
  | none => .error .keyError
  | some c => match c.format (2 * 2 + width entries n) with
    | none => .error .typeError
    | some s => .ok s

/-- `show(names)` (`container.py` 530-567): the lines printed.  `names` that are not given are an empty list; an
empty table has no `all_keys[0]`, which is only asked for when there is a name. -/
def printed (entries : List (Dict Str Cell)) (names : List Str) : Except Err (List Str) :=
  if names = [] then .ok []
  else if entries = [] then .error .indexError
  else
    let cols := columns entries names
    match entries.mapM (fun e => cols.mapM (cell entries e)) with
    | .error e => .error e
    | .ok rows =>
      if cols = [] then .ok []
      else .ok ((cols.map (fun n => center (2 * 2 + width entries n) n)).flatten ::
        (cols.map (fun n => center (2 * 2 + width entries n) (List.replicate n.length '-'))).flatten ::
        rows.map List.flatten)

end Eprem.TableShow
