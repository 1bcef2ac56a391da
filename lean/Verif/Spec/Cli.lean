import Verif.Model.Cli
import Verif.Spec.Config

/-!
# Specification vocabulary for generating and comparing configuration files
-/

namespace Eprem.Config

open Eprem Eprem.Symbolic

variable {R : Type} [Field R] [DecidableEq R]

/-- A sensible set of parameters: no parameter is listed twice, no two parameters share an alias, and there is a parameter
that tells whether angles are in degrees. -/
structure Session.Sensible (S : Session R) : Prop where
  once : S.env.reference.WF
  locals_once : (S.locals.map Prod.fst).Nodup
  disjoint : S.aliases.Pairwise Disjoint
  separate : ∀ k ∈ S.env.reference.keys ++ S.locals.map Prod.fst, ∀ k' ∈ S.env.reference.keys ++ S.locals.map Prod.fst,
    ∀ g ∈ S.aliases, k ∈ g → k' ∈ g → k = k'
  degrees : useDegrees ∈ S.env.reference.keys

/-- The value of a parameter when the file with these pairs is used. -/
def Session.Has (S : Session R) (cfg : Option (Dict Str Str)) (key : Str) (v : Val R) : Prop :=
  ∃ d, initValues S.env S.fuel S.locals cfg = .ok d ∧ d.get? key = some v

/-- What a user sees of a parameter of a session: its value, and its unit or the unit `deg` for angles. -/
def Session.Sees (S : Session R) (cfg : Option (Dict Str Str)) (key : Str) (a : Option Str × Val R) : Prop :=
  ∃ m, S.interface cfg = .ok m ∧ getParameter m key = .ok a

/-- The text of a number is one that Python prints: it has digits, and no other characters than these. -/
def Numeral (s : Str) : Prop := (∃ c ∈ s, isDigit c = true) ∧ ∀ c ∈ s, isDigit c = true ∨ c ∈ "+-.einfa".toList

/-- The text of a number reads back as the number, as a parameter of this type. -/
def ReadsBack (P : Printer R) (N : Numbers R) (t : Ty) (x : R) : Prop := convert N t (P.number x) = .num x

/-- The text of a number reads back as the number, as a member of a list. -/
def ReadsBackInList (P : Printer R) (N : Numbers R) (x : R) : Prop := cast N (P.number x) = some x

/-- The text that a comparison should show for a parameter of a file: a mark if the file does not mention the parameter, and
otherwise the value of the parameter when the file is used, with its unit. -/
def Session.Shown (P : Printer R) (S : Session R) (cfg : Dict Str Str) (key : Str) (s : Str) : Prop :=
  (cfg.get? key = none ∧ s = "(default)".toList) ∨
    ∃ x a, cfg.get? key = some x ∧ S.Sees (some cfg) key a ∧ s = formatArg P a

/-- The first text is before the second one in the order of code points. -/
def Before (a b : Str) : Prop := List.Lex (fun c d : Char => c.toNat < d.toNat) a b

end Eprem.Config
