import Verif.Spec.Symbolic

/-!
# The written language of symbolic expressions, and its meaning

This is the specification for C05 and C06: a syntax tree, the string a user
writes for it, and the number it denotes.  It is independent of the parser.
-/

namespace Eprem.Symbolic

/-- A written number. -/
inductive Lit
  /-- `-12` -/
  | int (neg : Bool) (ds : Str)
  /-- `-3/2`: the denominator is a single digit -/
  | frac (neg : Bool) (ds : Str) (d : Char)
  /-- `-1.25` -/
  | dec (neg : Bool) (ds fs : Str)
  /-- `-1.25e-3` -/
  | sci (neg : Bool) (ds fs : Str) (eneg : Bool) (es : Str)
  deriving DecidableEq

/-- a minus sign or nothing -/
def signText (neg : Bool) : Str := if neg then ['-'] else []

/-- How the number is written. -/
def Lit.text : Lit → Str
  | .int neg ds => signText neg ++ ds
  | .frac neg ds d => signText neg ++ ds ++ ['/', d]
  | .dec neg ds fs => signText neg ++ ds ++ '.' :: fs
  | .sci neg ds fs eneg es => signText neg ++ ds ++ '.' :: fs ++ 'e' :: signText eneg ++ es

/-- a non-empty list of decimal digits -/
def Digits (ds : Str) : Prop := ds ≠ [] ∧ ∀ c ∈ ds, isDigit c = true

/-- The written number is made of digits, with a non-zero denominator. -/
def Lit.Ok : Lit → Prop
  | .int _ ds => Digits ds
  | .frac _ ds d => Digits ds ∧ isDigit d = true ∧ d ≠ '0'
  | .dec _ ds fs => Digits ds ∧ Digits fs
  | .sci _ ds fs _ es => Digits ds ∧ Digits fs ∧ Digits es

/-- The number it stands for. -/
def Lit.value : Lit → Rat
  | .int neg ds => signed neg (natVal ds)
  | .frac neg ds d => signed neg ((natVal ds : Rat) / digitVal d)
  | .dec neg ds fs => signed neg (natVal ds + (natVal fs : Rat) / 10 ^ fs.length)
  | .sci neg ds fs eneg es =>
    signed neg ((natVal ds + (natVal fs : Rat) / 10 ^ fs.length) *
      (if eneg then 1 / 10 ^ natVal es else 10 ^ natVal es))

/-- an optional `^number` -/
def expText : Option Lit → Str
  | none => []
  | some l => '^' :: l.text

/-- an optional number, 1 when absent -/
def litOr1 : Option Lit → Rat
  | none => 1
  | some l => l.value

/-- What may stand between two operands (`i`, `j` are numbers of blanks). -/
inductive Sep
  /-- blanks only: product -/
  | juxt (i : Nat)
  /-- `*` -/
  | mul (i j : Nat)
  /-- `/` -/
  | div (i j : Nat)
  /-- nothing at all, which is possible after a closing parenthesis -/
  | glue
  deriving DecidableEq

/-- `n` blanks -/
def blanks (n : Nat) : Str := List.replicate n ' '

/-- How the separator is written. -/
def Sep.text : Sep → Str
  | .juxt i => blanks (i + 1)
  | .mul i j => blanks i ++ '*' :: blanks j
  | .div i j => blanks i ++ '/' :: blanks j
  | .glue => []

mutual
/-- Operands: numbers, symbols with optional coefficient, groups. -/
inductive Atom
  | const (l : Lit) (e : Option Lit)
  | var (c : Option Lit) (letters digits : Str) (e : Option Lit)
  | group (body : Expr) (e : Option Lit)
/-- Operands joined by separators. -/
inductive Expr
  | one (a : Atom)
  | cons (a : Atom) (s : Sep) (rest : Expr)
end

mutual
/-- The string written for an operand. -/
def Atom.text : Atom → Str
  | .const l e => l.text ++ expText e
  | .var c ls ds e => (match c with | none => [] | some l => l.text) ++ (ls ++ ds) ++ expText e
  | .group x e => '(' :: x.text ++ ')' :: expText e
/-- The string written for an expression. -/
def Expr.text : Expr → Str
  | .one a => a.text
  | .cons a s x => a.text ++ s.text ++ x.text
end

/-- How a separator acts on the operand that follows it. -/
noncomputable def Sep.act : Sep → ℝ → ℝ
  | .div _ _, v => v⁻¹
  | _, v => v

mutual
/-- The number an operand denotes. -/
noncomputable def Atom.denote (ρ : Str → ℝ) : Atom → ℝ
  | .const l e => (l.value : ℝ) ^ (litOr1 e : ℝ)
  | .var c ls ds e => (litOr1 c : ℝ) * ρ (ls ++ ds) ^ (litOr1 e : ℝ)
  | .group x e => (x.denote ρ id) ^ (litOr1 e : ℝ)
/-- The number an expression denotes, read from left to right; `act` is the
effect of the preceding separator on the first operand only. -/
noncomputable def Expr.denote (ρ : Str → ℝ) : (ℝ → ℝ) → Expr → ℝ
  | act, .one a => act (a.denote ρ)
  | act, .cons a s x => act (a.denote ρ) * x.denote ρ s.act
end

/-- An optional number is well written and not zero. -/
def OptOk : Option Lit → Prop
  | none => True
  | some l => l.Ok ∧ l.value ≠ 0

/-- The number has a sign in its decimal exponent (such a number on its own is
not read as a number, see `parse_signed_exponent`). -/
def Lit.signedExp : Lit → Bool
  | .sci _ _ _ eneg _ => eneg
  | _ => false

/-- `e` or `E` followed by digits, which after a coefficient would be read as a
decimal exponent. -/
def LooksLikeExp (ls ds : Str) : Prop := (ls = ['e'] ∨ ls = ['E']) ∧ ds ≠ []

/-- The tokenizer reads a number to the power `p` exactly: integer powers, or 1. -/
def PowOk (c p : Rat) : Prop := p.den = 1 ∨ c = 1

/-- a group without an exponent, i.e. an operand ending in `)` -/
def Atom.isBareGroup : Atom → Bool
  | .group _ none => true
  | _ => false

/-- a name without an exponent -/
def Atom.isBareName : Atom → Bool
  | .var _ _ _ none => true
  | _ => false

/-- The exact value of `c ^ p` when `PowOk c p`. -/
def powVal (c p : Rat) : Rat := if p.den = 1 then c ^ p.num else 1

mutual
/-- Well-written operands inside a group raised (in total) to the power `E`:
letters and digits where they belong, non-zero coefficients and exponents,
numbers that a float holds exactly, fractional powers only of the number 1.  A
`/` without any blanks between a number and a digit would be part of the number. -/
def Atom.Ok (E : Rat) : Atom → Prop
  | .const l e => l.Ok ∧ l.signedExp = false ∧ l.value ≠ 0 ∧ OptOk e ∧ PowOk l.value (litOr1 e) ∧
      fl (powVal l.value (litOr1 e)) = powVal l.value (litOr1 e) ∧
      PowOk (powVal l.value (litOr1 e)) E
  | .var c ls ds e =>
      ls ≠ [] ∧ (∀ x ∈ ls, isLetter x = true) ∧ (∀ x ∈ ds, isDigit x = true) ∧
      OptOk c ∧ OptOk e ∧ PowOk (litOr1 c) E ∧
      (c = none → ¬ ['s', 'q', 'r', 't'] <+: ls) ∧
      (∀ l, c = some l → LooksLikeExp ls ds → ∃ n s d, l = .frac n s d)
  | .group x e => OptOk e ∧ x.Ok (litOr1 e * E)
/-- Well-written expressions. -/
def Expr.Ok (E : Rat) : Expr → Prop
  | .one a => a.Ok E
  | .cons a s x => a.Ok E ∧ x.Ok E ∧ (s = .glue → a.isBareGroup = true) ∧
      (s = .div 0 0 → a.isBareGroup = true ∨ a.isBareName = true ∨ ∀ c, x.text.head? = some c → isDigit c = false)
end

mutual
/-- All written coefficients are positive. -/
def Atom.Pos : Atom → Prop
  | .const l _ => 0 < l.value
  | .var c _ _ _ => 0 < litOr1 c
  | .group x _ => x.Pos
/-- All written coefficients are positive. -/
def Expr.Pos : Expr → Prop
  | .one a => a.Pos
  | .cons a _ x => a.Pos ∧ x.Pos
end

end Eprem.Symbolic
