import Verif.Model.Measurable
import Mathlib.Data.List.Basic

/-!
# Specification vocabulary for parsing measurable input (C41)

The documented forms of measurable input, with the numbers and the unit that each of them stands for.
-/

namespace Eprem.Measurable

open Eprem Eprem.Symbolic Eprem.Metric

variable {R : Type} (toFloat : Name → Option R)

/-- A string that may be used as a unit: one that the parser of symbolic expressions accepts. -/
def UnitText (s : Name) : Prop := s = Symbolic.one ∨ ∃ e, exprOfString false s = .ok e

/-- An object stands for a unit, given as a string or as a unit object. -/
inductive IsUnitOf : Obj R → Name → Prop
  | text (s : Name) (h : UnitText s) : IsUnitOf (.str s) s
  | object (s : Name) : IsUnitOf (.unit s) s

/-- A number, or a string that can be converted to a number. -/
inductive Numeral : Obj R → R → Prop
  | number (x : R) : Numeral (.num x) x
  | text (s : Name) (x : R) (h : toFloat s = some x) : Numeral (.str s) x

/-- One or more numbers with at most one unit: a number or numeric string, a range or list of numbers, a list of numbers
followed by a unit, or a list of a range or list of numbers, and a unit. -/
inductive Flat : Obj R → List R → Name → Prop
  | number (x : R) : Flat (.num x) [x] Symbolic.one
  | text (s : Name) (x : R) (hs : s ≠ []) (h : toFloat s = some x) : Flat (.str s) [x] Symbolic.one
  | range (xs : List R) (h : xs ≠ []) : Flat (.range xs) xs Symbolic.one
  | numbers (xs : List R) (h : xs ≠ []) : Flat (.seq (xs.map .num)) xs Symbolic.one
  | unit (xs : List R) (h : xs ≠ []) (o : Obj R) (u : Name) (hu : IsUnitOf o u) : Flat (.seq (xs.map .num ++ [o])) xs u
  | listUnit (xs : List R) (o : Obj R) (u : Name) (hu : IsUnitOf o u) : Flat (.seq [.seq (xs.map .num), o]) xs u
  | rangeUnit (xs : List R) (o : Obj R) (u : Name) (hu : IsUnitOf o u) : Flat (.seq [.range xs, o]) xs u

/-- The input stands for these numbers, all with this unit: flat input, numbers given as strings and numbers (two or more
strings) with or without a unit that is no number, one such input in any number of lists, or a list of two or more lists
that have the same unit. -/
inductive Reads : Obj R → List R → Name → Prop
  | flat {x : Obj R} {xs : List R} {u : Name} (h : Flat toFloat x xs u) : Reads x xs u
  | texts (l : List (Obj R)) (xs : List R) (h : List.Forall₂ (Numeral toFloat) l xs) (hs : 1 < l.countP Obj.isStr) :
      Reads (.seq l) xs Symbolic.one
  | textsUnit (l : List (Obj R)) (xs : List R) (u : Name) (h : List.Forall₂ (Numeral toFloat) l xs)
      (hs : 0 < l.countP Obj.isStr) (hu : UnitText u) (hn : toFloat u = none) : Reads (.seq (l ++ [.str u])) xs u
  | wrap (x : Obj R) (xs : List R) (u : Name) (h : Reads x xs u) : Reads (.seq [x]) xs u
  | parts (ps : List (Obj R × List R)) (u : Name) (hl : 2 ≤ ps.length) (hs : ∀ p ∈ ps, p.1.isSeq = true)
      (h : ∀ p ∈ ps, Reads p.1 p.2 u) : Reads (.seq (ps.map Prod.fst)) (ps.map Prod.snd).flatten u

/-- The input stands for these numbers with these units: as above, but each of several lists may have its own unit. -/
inductive Distributes : Obj R → List (R × Name) → Prop
  | flat {x : Obj R} {xs : List R} {u : Name} (h : Flat toFloat x xs u) : Distributes x (xs.map (fun v => (v, u)))
  | wrap (x : Obj R) (ps : List (R × Name)) (h : Distributes x ps) : Distributes (.seq [x]) ps
  | parts (ps : List (Obj R × List (R × Name))) (hl : 2 ≤ ps.length) (hs : ∀ p ∈ ps, p.1.isSeq = true)
      (h : ∀ p ∈ ps, Distributes p.1 p.2) : Distributes (.seq (ps.map Prod.fst)) (ps.map Prod.snd).flatten

/-- The input never has a list of values, together with a unit, that contains other things than numbers, and never other
values next to such a list. -/
inductive Regular : Obj R → Prop
  | leaf (x : Obj R) (h : x.isSeq = false) : Regular x
  | seq (l : List (Obj R)) (h : ∀ x ∈ l, Regular x)
      (hl : l.all Obj.isSeq = false → ∀ v rest, l = .seq v :: rest → rest.length ≤ 1 ∧ v.all Obj.isNum = true)
      (hr : ∀ v rest, l = .range v :: rest → rest.length ≤ 1) : Regular (.seq l)

/-- The returned tuple of numbers followed by a unit. -/
def flatResult (xs : List R) (u : Name) : List (Item R) := xs.map (fun x => .obj (.num x)) ++ [.obj (.str u)]

/-- The returned tuple of pairs. -/
def pairResult (ps : List (R × Name)) : List (Item R) := ps.map (fun p => .pair (.num p.1) p.2)

/-- `x` enclosed in `n` lists. -/
def enclosed (n : Nat) (x : Obj R) : Obj R := Nat.rec x (fun _ y => .seq [y]) n

end Eprem.Measurable
