import Verif.Model.Variable
import Verif.Props.Members
import Verif.Props.Create

/-!
# Variables of runtime parameters (C113)
-/

namespace Eprem.Physical

open Eprem Eprem.Symbolic Eprem.Metric Eprem.Numeric Eprem.Measured

variable {K T : Type}

section
variable [Field K]

/-- **C113**, variables of numbers: they are made exactly from single numbers and from lists, with the given unit or `1`. -/
theorem c113_plain (x : Source K) (hx : x.Plain) (unit : Option (List Term)) :
    ((∃ o, newVariable x unit = .ok o) ↔ (valuesOf x).ndim ≤ 1) ∧
    ∀ o, newVariable x unit = .ok o → o.data.ndim = 1 ∧ Holds o (valuesOf x) (unit.getD [⟨1, c! "1", 1⟩]) := by
  have h1 : newVariable x unit = variableArgs x unit := by
    unfold newVariable; rw [unrefused (Or.inr hx)]; rfl
  have key : ∀ d : ND K, vector (.values d) unit = vectorFrom d (unit.getD [⟨1, c! "1", 1⟩]) :=
    fun d => vector_args (Or.inr trivial)
  rw [h1]
  cases x with
  | number r =>
    rw [show variableArgs (.number r) unit = _ from key _]
    refine ⟨⟨fun _ => Nat.le_refl 1, fun _ => ⟨_, rfl⟩⟩, fun o h => ?_⟩
    have := vectorFrom_holds h
    exact ⟨by rw [ND.ndim, this.1]; rfl, this.2⟩
  | values d =>
    rw [show variableArgs (.values d) unit = _ from key _]
    have hs : (d.atLeast 1).size = d.size := by
      match hd : d.shape with
      | [] => simp [ND.size, ND.atLeast, ND.ndim, hd, Numeric.sizeOf]
      | a :: l => simp [ND.size, ND.atLeast, ND.ndim, hd]
    have hn : (d.atLeast 1).ndim = 1 ↔ d.ndim ≤ 1 := by
      simp [ND.atLeast, ND.ndim]; omega
    refine ⟨vectorFrom_iff.trans hn, fun o h => ?_⟩
    have h2 := vectorFrom_holds h
    refine ⟨by rw [ND.ndim, h2.1]; exact vectorFrom_iff.1 ⟨o, h⟩, ?_, ?_, h2.2.2.2⟩
    · rw [h2.2.1]; exact hs
    · intro i hi
      exact h2.2.2.1 i (by rw [hs]; exact hi)
  | _ => exact hx.elim

/-- a list of three numbers -/
example : (Source.values ⟨[3], fun i => (i : ℚ)⟩).Plain ∧ (valuesOf (.values ⟨[3], fun i => (i : ℚ)⟩)).ndim ≤ 1 := by
  exact ⟨trivial, by decide⟩

/-- **C113**, variables of measured objects: they have the values and the unit of the vector of the object (C106), and no unit
may be given. -/
theorem c113_object (x : Source K) (hx : ¬x.Plain) (u : List Term) :
    newVariable x none = vector x none ∧ newVariable x (some u) = .error (.look .value) := by
  have h1 : x.isObject = true := by
    cases x with
    | number _ => exact absurd trivial hx
    | values _ => exact absurd trivial hx
    | _ => rfl
  constructor
  · unfold newVariable; rw [unrefused (Or.inl rfl)]
    cases x with
    | number _ => exact absurd trivial hx
    | values _ => exact absurd trivial hx
    | _ => rfl
  · exact if_pos (by simp [refused, h1])

/-- a scalar -/
example : ∃ o, newVariable (.object .scalar ⟨⟨[], fun _ => (3 : ℚ)⟩, [⟨1, c! "m", 1⟩]⟩) none = .ok o ∧ o.data.shape = [1] ∧
    o.unit = [⟨1, c! "m", 1⟩] := ⟨_, rfl, rfl, rfl⟩

end

/-! ## Members -/

/-- The unwrapped subscripts that select by an integer. -/
theorem variableItem_int {x : Obj K} {l : List K} {u : List Term} (h : IsSeries x l u) (args : Args) (i : ℤ)
    (ha : args = .one (.int i) ∨ args = .tuple [.int i] ∨ args = .one (.seq .list [i])) :
    variableItem x args = match axisIndex l.length (if i < 0 then i + l.length else i) with
      | .error e => .error (.look e)
      | .ok j => .ok (.value (x.data.get [j]) u) := by
  have hu : unwrappedSub args = .one (.int i) := by rcases ha with rfl | rfl | rfl <;> rfl
  unfold variableItem
  rw [c107_length x l u h]
  simp only [hu, shiftSub]
  cases hj : axisIndex l.length (if i < 0 then i + l.length else i) with
  | error e =>
    have : npIndex x.data (.itself (.int (if i < 0 then i + l.length else i))) = .error e := by
      simp only [npIndex, h.shape, picksOf, pickOf, hj]; rfl
    simp only [subData, this]
  | ok j =>
    simp only [subData, npIndex_int h hj, ← h.unit]
    rfl

/-- **C113**, members: `v[i]` for `-len(v) ≤ i < len(v)`, also in a tuple of one, is the value at that position, counted
from the end if `i` is negative, with the unit of `v`. -/
theorem c113_item (x : Obj K) (l : List K) (u : List Term) (h : IsSeries x l u) (i : ℤ) (j : Nat)
    (hj : j < l.length) (hi : i = j ∨ i = (j : ℤ) - l.length) (args : Args) (ha : args = .one (.int i) ∨ args = .tuple [.int i]) :
    variableItem x args = .ok (.value l[j] u) := by
  have hax : axisIndex l.length (if i < 0 then i + l.length else i) = .ok j := by
    refine axisIndex_ok.2 ⟨hj, ?_⟩
    split <;> omega
  rw [variableItem_int h args i (ha.imp id Or.inl), hax]
  simp only [h.values j _ (List.getElem?_eq_getElem hj)]

/-- **C113**, outside.  Positions after the last, and more than twice the length before it, raise `IndexError`. -/
theorem c113_outside_partial (x : Obj K) (l : List K) (u : List Term) (h : IsSeries x l u) (i : ℤ)
    (hi : i < -(2 * l.length) ∨ (l.length : ℤ) ≤ i) : variableItem x (.one (.int i)) = .error (.look .index) := by
  have : axisIndex l.length (if i < 0 then i + l.length else i) = .error .index := by
    unfold axisIndex; rw [if_neg]; split <;> omega
  rw [variableItem_int h _ i (Or.inl rfl), this]

/-- **C113** does not hold for the other positions before the first: for every variable that has values, `v[-len(v) - 1]` is
its last value, and so on, instead of an `IndexError`. -/
theorem c113_not_outside (x : Obj K) (l : List K) (u : List Term) (h : IsSeries x l u) (j : Nat) (hj : j < l.length) :
    variableItem x (.one (.int ((j : ℤ) - 2 * l.length))) = .ok (.value l[j] u) := by
  have hax : axisIndex l.length (if (j : ℤ) - 2 * l.length < 0 then (j : ℤ) - 2 * l.length + l.length else (j : ℤ) - 2 * l.length) = .ok j := by
    refine axisIndex_ok.2 ⟨hj, ?_⟩
    split <;> omega
  rw [variableItem_int h _ _ (Or.inl rfl), hax]
  simp only [h.values j _ (List.getElem?_eq_getElem hj)]

/-- The subscripts that are neither changed by unwrapping, nor by the treatment of negative positions. -/
theorem variableItem_part {x : Obj K} {l : List K} {u : List Term} (h : IsSeries x l u) {a : Arg} {ps : List Nat}
    (hp : Positions l.length a ps) (ha : ∀ i, a ≠ .int i) (h1 : ∀ i, a ≠ .seq .list [i]) (h2 : ∀ is, a ≠ .seq .array is) :
    variableItem x (.one a) = variableMember u (x.data.select [.keep ps]) := by
  have hu : unwrappedSub (.one a) = .one a := by
    unfold unwrappedSub
    split <;> first | rfl | (rename_i e; cases e <;> first | rfl | exact absurd rfl (h1 _))
  have hs : shiftSub l.length (.one a) = .ok (.one a) := by
    unfold shiftSub
    split <;> first | rfl | (rename_i e; cases e <;> first | exact absurd rfl (ha _) | exact absurd rfl (h2 _))
  unfold variableItem
  rw [c107_length x l u h]
  simp only [hu, hs, subData, npIndex_part h hp ha, h.unit]

/-- **C113**, parts: a slice or list that selects some values, but not a list of one, gives the variable of these values in
order, with the same unit. -/
theorem c113_part_partial (x : Obj K) (l : List K) (u : List Term) (h : IsSeries x l u) (a : Arg)
    (ps : List Nat) (hp : Positions l.length a ps) (ha : ∀ i, a ≠ .int i) (h1 : ∀ i, a ≠ .seq .list [i])
    (h2 : ∀ is, a ≠ .seq .array is) (hne : ps ≠ []) :
    ∃ o, variableItem x (.one a) = .ok (.several o) ∧ IsSeries o (ps.filterMap (fun j => l[j]?)) u := by
  refine ⟨_, ?_, select_series h (positions_lt hp)⟩
  rw [variableItem_part h hp ha h1 h2]
  cases ps with
  | nil => exact absurd rfl hne
  | cons p ps => rfl

/-- **C113** does not hold for parts without values: they raise `TypeError`, -/
theorem c113_not_empty (x : Obj K) (l : List K) (u : List Term) (h : IsSeries x l u) (a : Arg)
    (hp : Positions l.length a []) (h2 : ∀ is, a ≠ .seq .array is) : variableItem x (.one a) = .error .type := by
  have ha : ∀ i, a ≠ .int i := by
    rintro i rfl
    obtain ⟨j, hj, -⟩ := hp
    cases hj
  have h1 : ∀ i, a ≠ .seq .list [i] := by
    rintro i rfl
    cases (hp : List.Forall₂ _ [i] [])
  rw [variableItem_part h hp ha h1 h2]
  rfl

/-- for lists of one position, which give a scalar and not a variable, -/
theorem c113_not_list (x : Obj K) (l : List K) (u : List Term) (h : IsSeries x l u) (j : Nat) (hj : j < l.length) :
    variableItem x (.one (.seq .list [(j : ℤ)])) = .ok (.value l[j] u) := by
  have hax : axisIndex l.length (if (j : ℤ) < 0 then (j : ℤ) + l.length else j) = .ok j := by
    refine axisIndex_ok.2 ⟨hj, ?_⟩
    split <;> omega
  rw [variableItem_int h _ _ (Or.inr (Or.inr rfl)), hax]
  simp only [h.values j _ (List.getElem?_eq_getElem hj)]

/-- and for numpy arrays of several positions, which raise `ValueError`. -/
theorem c113_not_array (x : Obj K) (l : List K) (u : List Term) (h : IsSeries x l u) (i j : ℤ) (is : List ℤ) :
    variableItem x (.one (.seq .array (i :: j :: is))) = .error (.look .value) := by
  unfold variableItem
  rw [c107_length x l u h]
  rfl

/-! ## Casts and rounding -/

/-- **C113**, casts: a variable of one value is converted to the built-in type of that value, and rounding it gives a scalar
with its unit. -/
theorem c113_single_partial (t : K → T) (f : K → K) (x : Obj K) (v : K) (u : List Term) (h : IsSeries x [v] u) :
    castVariable t x = .ok (t v) ∧ roundVariable f x = .ok (.value (f v) u) := by
  have h0 : x.data.data 0 = v := h.data (i := 0) (by simp)
  have h1 : x.data.size ≠ 0 := by rw [h.size]; simp
  unfold castVariable roundVariable
  rw [if_neg h1, if_neg h1, h0, h.unit]
  exact ⟨rfl, rfl⟩

/-- **C113** does not hold for variables of several values: instead of raising `TypeError` they are converted and rounded as
if the first value were the only one, -/
theorem c113_not_single (t : K → T) (f : K → K) (x : Obj K) (v : K) (l : List K) (u : List Term) (h : IsSeries x (v :: l) u) :
    castVariable t x = .ok (t v) ∧ roundVariable f x = .ok (.value (f v) u) := by
  have h0 : x.data.data 0 = v := h.data (i := 0) (by simp)
  have h1 : x.data.size ≠ 0 := by rw [h.size]; simp
  unfold castVariable roundVariable
  rw [if_neg h1, if_neg h1, h0, h.unit]
  exact ⟨rfl, rfl⟩

/-- and without values they raise `IndexError`. -/
theorem c113_not_none (t : K → T) (f : K → K) (x : Obj K) (u : List Term) (h : IsSeries x [] u) :
    castVariable t x = .error (.look .index) ∧ roundVariable f x = .error (.look .index) := by
  have h1 : x.data.size = 0 := by rw [h.size]; rfl
  unfold castVariable roundVariable
  rw [if_pos h1, if_pos h1]
  exact ⟨rfl, rfl⟩

/-! ## The hypotheses can be met -/

/-- three lengths: the last, the last again, a slice, and the first as a number -/
example : variableItem lengths3 (.one (.int (-1))) = .ok (.value 7 [⟨1, c! "km", 1⟩]) ∧
    variableItem lengths3 (.one (.int (-4))) = .ok (.value 7 [⟨1, c! "km", 1⟩]) ∧
    variableItem lengths3 (.one (.int (-7))) = .error (.look .index) ∧
    castVariable id lengths3 = .ok 1 :=
  ⟨c113_item lengths3 _ _ lengths3_series (-1) 2 (by simp) (Or.inr (by simp)) _ (Or.inl rfl),
   c113_not_outside lengths3 _ _ lengths3_series 2 (by simp),
   c113_outside_partial lengths3 _ _ lengths3_series (-7) (Or.inl (by simp)),
   (c113_not_single id id lengths3 _ _ _ lengths3_series).1⟩

example : ∃ o, variableItem lengths3 (.one (.slice (some 1) none none)) = .ok (.several o) ∧ IsSeries o [5, 7] [⟨1, c! "km", 1⟩] :=
  c113_part_partial lengths3 _ _ lengths3_series _ [1, 2] (by show slicePositions _ _ _ _ = _; decide +kernel) (by simp) (by simp) (by simp) (by simp)

example : variableItem lengths3 (.one (.slice (some 1) (some 1) none)) = .error .type :=
  c113_not_empty lengths3 _ _ lengths3_series _ (by show slicePositions _ _ _ _ = _; decide +kernel) (by simp)

end Eprem.Physical
