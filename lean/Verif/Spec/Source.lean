import Verif.Model.Config

/-!
# Specification of the lines of source files

What each of the patterns of `parameter/_src.py` means, part by part.
-/

namespace Eprem.Config

open Eprem Eprem.Symbolic

/-- Any amount of white space. -/
def Spaces (s : Str) : Prop := ∀ c ∈ s, isSpace c = true

/-- An identifier of letters, digits and underscores; may be empty. -/
def Identifier (s : Str) : Prop := ∀ c ∈ s, isWord c = true

/-- Digits; may be empty. -/
def Digits (s : Str) : Prop := ∀ c ∈ s, isDigit c = true

/-- The line is `target = function("key", arguments);` with any white space: the target may be a member of `config`, the
result may be cast to a string. -/
def IsCall (line mode key args : Str) : Prop :=
  ∃ pre member target s₁ s₂ cast s₃ post,
    line = pre ++ (member ++ (target ++ (s₁ ++ ("=".toList ++ (s₂ ++ (cast ++ (mode ++ ("(".toList ++ ("\"".toList ++ (key ++
      ("\"".toList ++ (s₃ ++ (",".toList ++ (args ++ ");".toList)))))))))))))) ++ post ∧
    Spaces pre ∧ Spaces s₁ ∧ Spaces s₂ ∧ Spaces s₃ ∧ Spaces post ∧
    (member = [] ∨ member = "config.".toList) ∧ target ≠ [] ∧ Identifier target ∧ (cast = [] ∨ cast = "(char*)".toList) ∧
    mode ∈ ["readInt".toList, "readDouble".toList, "readDoubleArray".toList, "readString".toList] ∧ Identifier key ∧ '\n' ∉ args

/-- A number without sign and exponent, or nothing; or an identifier, possibly a member of `config`. -/
def IsValue (v : Str) : Prop :=
  Digits v ∨ (∃ a b, v = a ++ ".".toList ++ b ∧ Digits a ∧ Digits b ∧ b ≠ []) ∨
    ∃ m w, v = m ++ w ∧ (m = [] ∨ m = "config.".toList) ∧ Identifier w ∧ w ≠ []

/-- The line is `Scalar_t name[size] = {value};` with any white space. -/
def IsVariable (line name size value : Str) : Prop :=
  ∃ pre s₁ s₂ s₃ post,
    line = pre ++ ("Scalar_t".toList ++ (s₁ ++ (name ++ ("[".toList ++ (size ++ ("]".toList ++ (s₂ ++ ("=".toList ++ (s₃ ++
      ("{".toList ++ (value ++ "};".toList))))))))))) ++ post ∧
    Spaces pre ∧ Spaces s₁ ∧ Spaces s₂ ∧ Spaces s₃ ∧ Spaces post ∧ name ≠ [] ∧ Identifier name ∧ size ≠ [] ∧ Digits size ∧
    IsValue value

/-- The characters of names of constants. -/
def NameChar (c : Char) : Prop := isDigit c = true ∨ ('A'.toNat ≤ c.toNat ∧ c.toNat ≤ 'Z'.toNat) ∨ c = '_'

/-- The characters of values of constants. -/
def ValueChar (c : Char) : Prop := isWord c = true ∨ isSpace c = true ∨ c ∈ "-+.*/()".toList

/-- The line is `#define name value`, where the value neither begins nor ends with white space. -/
def IsDefine (line name value : Str) : Prop :=
  ∃ pre s₁ s₂ post, line = pre ++ ("#define".toList ++ (s₁ ++ (name ++ (s₂ ++ value)))) ++ post ∧
    Spaces pre ∧ Spaces s₁ ∧ s₁ ≠ [] ∧ Spaces s₂ ∧ s₂ ≠ [] ∧ Spaces post ∧ name ≠ [] ∧ (∀ c ∈ name, NameChar c) ∧
    value ≠ [] ∧ (∀ c ∈ value, ValueChar c) ∧ (∀ c, value.head? = some c → isSpace c = false) ∧
    (∀ c, value.getLast? = some c → isSpace c = false)

end Eprem.Config
