import Verif.Lemmas.Text
import Verif.Spec.Grammar

/-!
# Specification vocabulary for configuration files and parameters (C42–C45, C75–C77)
-/

namespace Eprem.Config

open Eprem Eprem.Symbolic

/-! ## Files -/

/-- A line of a configuration file. -/
inductive Line
  /-- an empty line -/
  | blank
  /-- a line that starts with a comment marker -/
  | comment (marker : Char) (rest : Str)
  /-- `key = value`, with white space `w₁` to `w₄` around the key and the value, and possibly a comment -/
  | entry (w₁ key w₂ w₃ value w₄ : Str) (comment : Option (Char × Str))

/-- The text of a line. -/
def Line.text : Line → Str
  | .blank => []
  | .comment m rest => m :: rest
  | .entry w₁ key w₂ w₃ value w₄ none => (w₁ ++ key ++ w₂) ++ '=' :: (w₃ ++ value ++ w₄)
  | .entry w₁ key w₂ w₃ value w₄ (some (m, rest)) => (w₁ ++ key ++ w₂) ++ '=' :: (w₃ ++ value ++ w₄) ++ m :: rest

/-- White space within a line. -/
def White (w : Str) : Prop := ∀ c ∈ w, isSpace c = true ∧ c ≠ '\n'

/-- A key or value: no `=`, no comment marker, no newline, no surrounding white space. -/
def Word (comments : List Char) (s : Str) : Prop :=
  (∀ c ∈ s, c ≠ '=' ∧ c ∉ comments ∧ c ≠ '\n') ∧ Trimmed isSpace s

/-- A well-formed line. -/
def Line.Ok (comments : List Char) : Line → Prop
  | .blank => True
  | .comment m rest => m ∈ comments ∧ '\n' ∉ rest
  | .entry w₁ key w₂ w₃ value w₄ c => White w₁ ∧ White w₂ ∧ White w₃ ∧ White w₄ ∧ Word comments key ∧ Word comments value ∧
      ∀ m rest, c = some (m, rest) → m ∈ comments ∧ '\n' ∉ rest

/-- The pair in a line, if there is one. -/
def Line.pair : Line → Option (Str × Str)
  | .entry _ key _ _ value _ _ => some (key, value)
  | _ => none

/-- The value of a key, if the last pair with this key counts. -/
def lastValue (pairs : List (Str × Str)) (key : Str) : Option Str :=
  (pairs.reverse.find? (fun p => p.1 = key)).map Prod.snd

/-- Sensible comment markers: no white space and no `=`. -/
def Markers (comments : List Char) : Prop := ∀ c ∈ comments, isSpace c = false ∧ c ≠ '='

/-! ## Parameters -/

variable {R : Type} [Field R] [DecidableEq R]

/-- The text has this value, whatever the limit of the recursion is, if only it is large enough. -/
def Evaluates (E : Env R) (s : Str) (v : Val R) : Prop := ∃ n, ∀ m, n ≤ m → evaluate E m s = .ok v

/-- The text is not a number other than zero, not one of the two special names, not the name of a parameter or constant. -/
def Composite (E : Env R) (s : Str) : Prop :=
  truthyCast E.numbers s = none ∧ s ≠ nProcs ∧ s ≠ third ∧ E.reference.get? s = none ∧ E.basetypes s = none

/-- `p` is the name of a parameter with default value `d`, which has to be evaluated. -/
def DefinedBy (E : Env R) (p d : Str) : Prop :=
  truthyCast E.numbers p = none ∧ p ≠ nProcs ∧ p ≠ third ∧
    ∃ t, E.reference.get? p = some (t, d) ∧ isType t (convert E.numbers t d) = false

/-- The value has the type of the parameter. -/
def HasType : Ty → Val R → Prop
  | .int, v => ∃ n : Int, v = .num (n : R)
  | .float, v => ∃ x, v = .num x
  | .str, v => ∃ s, v = .text s
  | .list, v => ∃ l, v = .list l

/-- The first text is the second one, with `config.` inserted any number of times. -/
inductive Prefixed : Str → Str → Prop
  | nil : Prefixed [] []
  | char (c : Char) {d s : Str} : Prefixed d s → Prefixed (c :: d) (c :: s)
  | config {d s : Str} : Prefixed d s → Prefixed ('c' :: 'o' :: 'n' :: 'f' :: 'i' :: 'g' :: '.' :: d) s

/-- A value that Python regards as true: no number zero, no empty text or list, and not `None`. -/
def IsSet (v : Val R) : Prop := v ≠ .none ∧ v ≠ .num 0 ∧ v ≠ .text [] ∧ v ≠ .list []

/-- The constant has this value, whatever the limit of the recursion is, if only it is large enough. -/
def ConstantIs (N : Numbers R) (definitions : Dict Str Str) (types : Str → Option Ty) (s : Str) (x : R) : Prop :=
  ∃ n, ∀ m, n ≤ m → computeConstant N definitions types m s = .ok x

end Eprem.Config

namespace Eprem.Symbolic

mutual
/-- The names in an operand. -/
def Atom.names : Atom → List Str
  | .const _ _ => []
  | .var _ ls ds _ => [ls ++ ds]
  | .group x _ => x.names
/-- The names in an expression. -/
def Expr.names : Expr → List Str
  | .one a => a.names
  | .cons a _ x => a.names ++ x.names
end

end Eprem.Symbolic
