import Verif.Spec.Grammar

/-!
# Compound names of observables: what a user writes, and what it stands for

A compound name is a product of names with powers, written with `**`, and of groups in parentheses.  This specification is
independent of the parser.
-/

namespace Eprem.Symbolic.Stars

open Eprem.Symbolic

/-- an optional `**number` -/
def expText : Option Lit → Str
  | none => []
  | some l => '*' :: '*' :: l.text

mutual
/-- Operands: names (letters, then digits) and groups, with optional powers. -/
inductive Atom
  | name (letters digits : Str) (e : Option Lit)
  | group (body : Expr) (e : Option Lit)
/-- Operands joined by separators: blanks, `*` or `/`. -/
inductive Expr
  | one (a : Atom)
  | cons (a : Atom) (s : Sep) (rest : Expr)
end

mutual
/-- The text of an operand. -/
def Atom.text : Atom → Str
  | .name ls ds e => (ls ++ ds) ++ expText e
  | .group x e => '(' :: x.text ++ ')' :: expText e
/-- The text of a compound name. -/
def Expr.text : Expr → Str
  | .one a => a.text
  | .cons a s x => a.text ++ s.text ++ x.text
end

/-- The sign that a separator gives to the power of the operand after it. -/
def Sep.sign : Sep → Rat
  | .div _ _ => -1
  | _ => 1

mutual
/-- The power of the name `b` in an operand. -/
def Atom.power (b : Str) : Atom → Rat
  | .name ls ds e => if ls ++ ds = b then litOr1 e else 0
  | .group x e => x.power b 1 * litOr1 e
/-- The power of the name `b` in a compound name, whose first operand has the sign `σ`. -/
def Expr.power (b : Str) : Rat → Expr → Rat
  | σ, .one a => σ * a.power b
  | σ, .cons a s x => σ * a.power b + x.power b (Sep.sign s)
end

mutual
/-- The names in an operand. -/
def Atom.names : Atom → List Str
  | .name ls ds _ => [ls ++ ds]
  | .group x _ => x.names
/-- The names in a compound name. -/
def Expr.names : Expr → List Str
  | .one a => a.names
  | .cons a _ x => a.names ++ x.names
end

/-- a group without a power -/
def Atom.isBareGroup : Atom → Bool
  | .group _ none => true
  | _ => false

mutual
/-- Well-written operands: letters and digits where they belong, powers that are not zero.  Names do not start with `sqrt`. -/
def Atom.Ok : Atom → Prop
  | .name ls ds e => ls ≠ [] ∧ (∀ x ∈ ls, isLetter x = true) ∧ (∀ x ∈ ds, isDigit x = true) ∧ OptOk e ∧
      ¬ ['s', 'q', 'r', 't'] <+: ls
  | .group x e => OptOk e ∧ x.Ok
/-- Well-written compound names: only groups may be written next to each other without a separator. -/
def Expr.Ok : Expr → Prop
  | .one a => a.Ok
  | .cons a s x => a.Ok ∧ x.Ok ∧ (s = .glue → a.isBareGroup = true)
end

end Eprem.Symbolic.Stars
