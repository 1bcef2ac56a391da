import Verif.Spec.IndexArith
import Verif.Lemmas.NumericIndex
import Mathlib.Data.List.GetD
import Mathlib.Tactic.Linarith

/-!
# Index objects (C109)
-/

namespace Eprem.Numeric

theorem fdiv_spec {x y : ℤ} (hy : y ≠ 0) : OpResult .floordiv x y (x.fdiv y) := by
  refine ⟨hy, x.fmod y, (Int.mul_fdiv_add_fmod x y).symm, fun h => ⟨Int.fmod_nonneg_of_pos x h, Int.fmod_lt_of_pos x h⟩, fun h => ?_⟩
  have h1 := Int.neg_fmod_neg (a := -x) (b := -y)
  rw [neg_neg, neg_neg] at h1
  have h2 := Int.fmod_nonneg_of_pos (-x) (show 0 < -y by omega)
  have h3 := Int.fmod_lt_of_pos (-x) (show 0 < -y by omega)
  omega

theorem fmod_spec {x y : ℤ} (hy : y ≠ 0) : OpResult .mod x y (x.fmod y) := by
  obtain ⟨-, d, h1, h2, h3⟩ := fdiv_spec (x := x) hy
  have h4 := Int.mul_fdiv_add_fmod x y
  have : d = x.fmod y := by omega
  subst this
  exact ⟨hy, ⟨_, h1⟩, h2, h3⟩

/-- The operation is defined for these integers. -/
theorem npOp_spec {op : IdxOp} {x y : ℤ} (h : ∃ r, OpResult op x y r) : OpResult op x y (npOp op x y) := by
  obtain ⟨r, hr⟩ := h
  cases op with
  | add => rfl
  | sub => rfl
  | mul => rfl
  | floordiv => simp only [npOp, if_neg hr.1]; exact fdiv_spec hr.1
  | mod => simp only [npOp, if_neg hr.1]; exact fmod_spec hr.1
  | pow => obtain ⟨n, rfl, -⟩ := hr; exact ⟨n, rfl, by simp [npOp]⟩

theorem pyOp_spec {op : IdxOp} {x y : ℤ} (h : ∃ r, OpResult op x y r) : ∃ r, pyOp op x y = .ok r ∧ OpResult op x y r := by
  refine ⟨npOp op x y, ?_, npOp_spec h⟩
  obtain ⟨r, hr⟩ := h
  cases op <;> first | rfl | simp only [pyOp, npOp, if_neg hr.1]

theorem idxOp_of {op : IdxOp} {a b : IdxOperand} (h : op = .pow → negativeExponent b = .ok false) :
    idxOp op a b = arithmetic op a b := by
  cases op <;> first | rfl | (simp only [idxOp, h rfl])

theorem negativeExponent_one {b : IdxOperand} {y : ℤ} (hb : b.IsOne y) (hy : ∃ x r, OpResult .pow x y r) :
    negativeExponent b = .ok false := by
  obtain ⟨x, r, n, rfl, -⟩ := hy
  rcases hb with rfl | rfl <;> simp [negativeExponent]

/-- An operation on two index values, or on an index value and an integer, gives the index value of the operation on
integers. -/
theorem c109_values (op : IdxOp) (a b : IdxOperand) (x y : ℤ) (ha : a.IsOne x) (hb : b.IsOne y)
    (hi : a = .idx (.value x) ∨ b = .idx (.value y)) (h : ∃ r, OpResult op x y r) :
    ∃ r, idxOp op a b = .ok (.value r) ∧ OpResult op x y r := by
  obtain ⟨r, hr, hs⟩ := pyOp_spec h
  refine ⟨r, ?_, hs⟩
  rw [idxOp_of (by rintro rfl; exact negativeExponent_one hb ⟨x, r, hs⟩)]
  rcases ha with rfl | rfl <;> rcases hb with rfl | rfl <;> first | (simp only [arithmetic, hr]; rfl) | simp at hi

theorem floordiv_unique {x y r s : ℤ} (h : OpResult .floordiv x y r) (h' : OpResult .floordiv x y s) : r = s := by
  obtain ⟨hy, d, h1, h2, h3⟩ := h
  obtain ⟨-, e, g1, g2, g3⟩ := h'
  rcases lt_or_gt_of_ne hy with hn | hp
  · have := h3 hn; have := g3 hn
    nlinarith [lt_trichotomy r s, mul_comm y r]
  · have := h2 hp; have := g2 hp
    nlinarith [lt_trichotomy r s, mul_comm y r]

/-- The specification leaves no choice. -/
theorem OpResult.unique {op : IdxOp} {x y r s : ℤ} (h : OpResult op x y r) (h' : OpResult op x y s) : r = s := by
  cases op with
  | add => exact (show r = _ from h).trans (show s = _ from h').symm
  | sub => exact (show r = _ from h).trans (show s = _ from h').symm
  | mul => exact (show r = _ from h).trans (show s = _ from h').symm
  | floordiv => exact floordiv_unique h h'
  | mod =>
    obtain ⟨hy, ⟨q, h1⟩, h2, h3⟩ := h
    obtain ⟨-, ⟨p, g1⟩, g2, g3⟩ := h'
    have : q = p := floordiv_unique ⟨hy, r, h1, h2, h3⟩ ⟨hy, s, g1, g2, g3⟩
    subst this; omega
  | pow =>
    obtain ⟨n, rfl, rfl⟩ := h
    obtain ⟨m, hm, rfl⟩ := h'
    rw [Nat.cast_injective hm]

/-- Division of an index value by zero raises `ZeroDivisionError`, and a negative power raises `ValueError`. -/
theorem c109_undefined (a b : IdxOperand) (x y : ℤ) (ha : a.IsOne x) (hb : b.IsOne y)
    (hi : a = .idx (.value x) ∨ b = .idx (.value y)) :
    (y = 0 → idxOp .floordiv a b = .error .zero ∧ idxOp .mod a b = .error .zero) ∧
      (y < 0 → idxOp .pow a b = .error .value) := by
  constructor
  · rintro rfl
    rcases ha with rfl | rfl <;> rcases hb with rfl | rfl <;> first | exact ⟨rfl, rfl⟩ | simp at hi
  · intro hy
    rcases ha with rfl | rfl <;> rcases hb with rfl | rfl <;> simp [idxOp, negativeExponent, hy]

/-- An operation with sequences of the same length gives the sequence of the operations on the members; operands that are
not sequences count as sequences of equal members.  Powers are excepted if the exponent is a sequence. -/
theorem c109_elementwise_partial (op : IdxOp) (n : Nat) (a b : IdxOperand) (h : Match n a b)
    (hp : op = .pow → ∃ y, b.IsOne y ∧ 0 ≤ y) :
    ∃ l, idxOp op a b = .ok (.seq l) ∧ l.length = n ∧
      ∀ (i : Nat) x y, i < n → a.at i = some x → b.at i = some y → (∃ r, OpResult op x y r) →
        ∃ r, l[i]? = some r ∧ OpResult op x y r := by
  have hop : idxOp op a b = arithmetic op a b := by
    refine idxOp_of ?_
    intro e
    obtain ⟨y, hy, h0⟩ := hp e
    exact negativeExponent_one hy ⟨1, 1, y.toNat, by omega, by simp⟩
  rw [hop]
  rcases h with ⟨⟨l, rfl, hl⟩, ⟨m, rfl, hm⟩⟩ | ⟨⟨l, rfl, hl⟩, y, hy⟩ | ⟨⟨x, hx⟩, ⟨m, rfl, hm⟩⟩
  · refine ⟨_, rfl, by simp [hl, hm], ?_⟩
    intro i x y hi hx hy hr
    simp only [IdxOperand.at] at hx hy
    exact ⟨npOp op x y, by simp [List.getElem?_zipWith, hx, hy], npOp_spec hr⟩
  · refine ⟨l.map (fun x => npOp op x y), by rcases hy with rfl | rfl <;> rfl, by simp [hl], ?_⟩
    intro i x z hi hx hz hr
    simp only [IdxOperand.at] at hx
    have : z = y := by rcases hy with rfl | rfl <;> simpa [IdxOperand.at] using hz.symm
    subst this
    exact ⟨npOp op x z, by simp [hx], npOp_spec hr⟩
  · refine ⟨m.map (fun y => npOp op x y), by rcases hx with rfl | rfl <;> rfl, by simp [hm], ?_⟩
    intro i z y hi hz hy hr
    simp only [IdxOperand.at] at hy
    have : z = x := by rcases hx with rfl | rfl <;> simpa [IdxOperand.at] using hz.symm
    subst this
    exact ⟨npOp op z y, by simp [hy], npOp_spec hr⟩

/-- Sequences of different lengths are not refused: the members that the shorter one does not have are dropped. -/
theorem c109_not_length (op : IdxOp) (hop : op ≠ .pow) (l m : List ℤ) :
    ∃ r, idxOp op (.idx (.seq l)) (.idx (.seq m)) = .ok (.seq r) ∧ r.length = min l.length m.length := by
  refine ⟨List.zipWith (npOp op) l m, ?_, by simp⟩
  rw [idxOp_of (fun e => absurd e hop)]; rfl

/-- A power whose exponent is a sequence of several members always raises `ValueError`. -/
theorem c109_not_power (a : IdxOperand) (x y : ℤ) (l : List ℤ) :
    idxOp .pow a (.idx (.seq (x :: y :: l))) = .error .value := rfl

/-- Division of a sequence by zero is not an error, unlike that of a value: the quotients and remainders are zero. -/
theorem c109_not_zero (l : List ℤ) : idxOp .floordiv (.idx (.seq l)) (.int 0) = .ok (.seq (l.map (fun _ => 0))) ∧
    idxOp .mod (.idx (.seq l)) (.int 0) = .ok (.seq (l.map (fun _ => 0))) := ⟨rfl, rfl⟩

/-- Subtraction is addition of the negated operand, for all operands, also of different lengths. -/
theorem c109_negate (a : IdxOperand) (b : Idx) :
    idxOp .sub a (.idx b) = idxOp .add a (.idx (idxUnary (fun x => -x) b)) := by
  rcases a with (x | l) | x | _ <;> rcases b with y | m <;>
    simp [idxOp, arithmetic, idxUnary, pyOp, npOp, List.zipWith_map_right, Int.sub_eq_add_neg, Function.comp_def]
  exact congrArg (fun f => List.zipWith f l m) (funext fun a => funext fun b => Int.sub_eq_add_neg)

/-- Addition and multiplication are commutative. -/
theorem c109_commutes (a b : IdxOperand) : idxOp .add a b = idxOp .add b a ∧ idxOp .mul a b = idxOp .mul b a := by
  rcases a with (x | l) | x | _ <;> rcases b with (y | m) | y | _ <;>
    simp only [idxOp, arithmetic, pyOp, npOp, Int.add_comm, Int.mul_comm, and_self] <;>
    refine ⟨?_, ?_⟩ <;> rw [List.zipWith_comm] <;>
    refine congrArg (fun f => Except.ok (Idx.seq (List.zipWith f m l))) (funext fun a => funext fun b => ?_)
  · exact Int.add_comm b a
  · exact Int.mul_comm b a

/-- Comparisons of values and integers compare the integers. -/
theorem c109_compare (f : ℤ → ℤ → Bool) (a b : IdxOperand) (x y : ℤ) (ha : a.IsOne x) (hb : b.IsOne y)
    (hi : a = .idx (.value x) ∨ b = .idx (.value y)) : compareIdx f a b = some (.one (f x y)) := by
  rcases ha with rfl | rfl <;> rcases hb with rfl | rfl <;> first | rfl | simp at hi

/-- Comparisons with sequences of the same length compare the members. -/
theorem c109_compare_elementwise_partial (f : ℤ → ℤ → Bool) (n : Nat) (a b : IdxOperand) (h : Match n a b) :
    ∃ l, compareIdx f a b = some (.array l) ∧ l.length = n ∧
      ∀ (i : Nat) x y, i < n → a.at i = some x → b.at i = some y → l[i]? = some (f x y) := by
  rcases h with ⟨⟨l, rfl, hl⟩, ⟨m, rfl, hm⟩⟩ | ⟨⟨l, rfl, hl⟩, y, hy⟩ | ⟨⟨x, hx⟩, ⟨m, rfl, hm⟩⟩
  · refine ⟨_, rfl, by simp [hl, hm], ?_⟩
    intro i x y hi hx hy
    simp only [IdxOperand.at] at hx hy
    simp [List.getElem?_zipWith, hx, hy]
  · refine ⟨l.map (fun x => f x y), by rcases hy with rfl | rfl <;> rfl, by simp [hl], ?_⟩
    intro i x z hi hx hz
    simp only [IdxOperand.at] at hx
    have : z = y := by rcases hy with rfl | rfl <;> simpa [IdxOperand.at] using hz.symm
    subst this
    simp [hx]
  · refine ⟨m.map (fun y => f x y), by rcases hx with rfl | rfl <;> rfl, by simp [hm], ?_⟩
    intro i z y hi hz hy
    simp only [IdxOperand.at] at hy
    have : z = x := by rcases hx with rfl | rfl <;> simpa [IdxOperand.at] using hz.symm
    subst this
    simp [hy]

/-- Two values are equal exactly if their integers are, and `!=` is the opposite of `==`, also for sequences. -/
theorem c109_equal (x y : ℤ) : idxEq (.idx (.value x)) (.idx (.value y)) = .one (decide (x = y)) := rfl

theorem c109_unequal (a b : IdxOperand) :
    idxNe a b = match idxEq a b with
      | .one t => .one (!t)
      | .array l => .array (l.map (!·)) := by
  rcases a with (x | l) | x | _ <;> rcases b with (y | m) | y | _ <;>
    simp [idxNe, idxEq, compareIdx, List.map_zipWith]

/-- A sequence is equal to every longer sequence that begins with its members, in that all compared members are equal. -/
theorem c109_not_equal (l m : List ℤ) :
    ∃ t, idxEq (.idx (.seq l)) (.idx (.seq (l ++ m))) = .array t ∧ ∀ b ∈ t, b = true := by
  refine ⟨List.zipWith (fun x y => decide (x = y)) l (l ++ m), rfl, ?_⟩
  induction l with
  | nil => simp
  | cons x l ih => simpa using ih

/-- `s[i]` is the index value of the member, for `-len(s) ≤ i < len(s)`, and raises `IndexError` otherwise. -/
theorem c109_item (l : List ℤ) (i : ℤ) :
    (∀ (j : Nat) x, l[j]? = some x → i = j ∨ i = (j : ℤ) - l.length → idxItem l i = .ok (.value x)) ∧
      (i < -l.length ∨ (l.length : ℤ) ≤ i → idxItem l i = .error .index) := by
  constructor
  · intro j x hx hi
    obtain ⟨hj, rfl⟩ := List.getElem?_eq_some_iff.1 hx
    have : axisIndex l.length i = .ok j := axisIndex_ok.2 ⟨hj, by omega⟩
    simp only [idxItem, this]
    rw [List.getD_eq_getElem _ _ hj]
  · intro hi
    have : axisIndex l.length i = .error .index := by unfold axisIndex; rw [if_neg]; omega
    simp only [idxItem, this]

/-! ## Creation -/

section creation
variable (toInt : List Char → Option ℤ)

theorem intsOf_eq (m : List (List Char)) (l : List ℤ) : intsOf toInt m = some l ↔ m.map toInt = l.map some := by
  induction m generalizing l with
  | nil => cases l <;> simp [intsOf]
  | cons s m ih =>
    cases hs : toInt s with
    | none => cases l <;> simp [intsOf, hs]
    | some i =>
      cases hm : intsOf toInt m with
      | none =>
        cases l with
        | nil => simp [intsOf, hs, hm]
        | cons j l =>
          simp only [intsOf, hs, hm, List.map_cons, reduceCtorEq, false_iff]
          intro e
          have := (ih l).2 (List.cons.inj e).2
          rw [hm] at this; cases this
      | some r =>
        cases l with
        | nil => simp [intsOf, hs, hm]
        | cons j l =>
          have := ih l
          rw [hm] at this
          simp only [intsOf, hs, hm, List.map_cons, Option.some.injEq, List.cons.injEq] at this ⊢
          rw [this]

theorem flatInts_eq {a : ND ℤ} {l : List ℤ} (h1 : l.length = a.size) (h2 : ∀ (i : Nat) x, l[i]? = some x → a.data i = x) :
    flatInts a = l := by
  apply List.ext_getElem (by simp [flatInts, h1])
  intro i h3 h4
  simp only [flatInts, List.getElem_map, List.getElem_range]
  exact h2 i _ (List.getElem?_eq_getElem h4)

/-- `sequence(x)` is the sequence of the integers that `x` lists.  Arrays must have one value or one dimension, not
counting those of length one. -/
theorem c109_sequence (x : IdxSource) (l : List ℤ) (h : Lists toInt x l)
    (ha : ∀ a, x = .array a → a.size = 1 ∨ (a.shape.filter (fun n => n ≠ 1)).length = 1) :
    newSequence toInt x = .ok (.seq l) := by
  cases x with
  | int i => obtain rfl : l = [i] := h; rfl
  | str s => obtain ⟨i, hi, rfl⟩ := h; simp only [newSequence, sequenceArgs, valueArgs, hi]
  | ints m => obtain rfl : l = m := h; rfl
  | strs m => simp only [newSequence, sequenceArgs, (intsOf_eq toInt m l).2 h]
  | range m => obtain rfl : l = m := h; rfl
  | seq m => obtain rfl : l = m := h; rfl
  | other => exact h.elim
  | array a =>
    obtain ⟨h1, h2⟩ := h
    by_cases hs : a.size = 1
    · have : l = [a.data 0] := by
        rw [hs] at h1
        obtain ⟨x, rfl⟩ := List.length_eq_one_iff.1 h1
        rw [h2 0 x rfl]
      simp only [newSequence, sequenceArgs, if_pos hs, this]
    · have hd := (ha a rfl).resolve_left hs
      have hd' : squeezedDims a.shape = 1 := hd
      simp only [newSequence, sequenceArgs, if_neg hs, if_pos hd', flatInts_eq h1 h2]

/-- `value(x)` is the index value of the only integer that `x` lists. -/
theorem c109_value_partial (x : IdxSource) (i : ℤ) (h : Lists toInt x [i]) : newValue toInt x = .ok (.value i) := by
  cases x with
  | int j => obtain ⟨rfl⟩ : [i] = [j] := h; rfl
  | str s => obtain ⟨j, hj, ⟨⟩⟩ := h; simp only [newValue, valueArgs, hj]
  | ints m => obtain rfl : [i] = m := h; rfl
  | strs m => simp only [newValue, valueArgs, sequenceArgs, (intsOf_eq toInt m [i]).2 h, firstOf]
  | range m => obtain rfl : [i] = m := h; rfl
  | seq m => obtain rfl : [i] = m := h; rfl
  | other => exact h.elim
  | array a =>
    obtain ⟨h1, h2⟩ := h
    have hs : a.size = 1 := h1.symm
    simp only [newValue, valueArgs, if_pos hs, h2 0 i rfl]

/-- But `value(x)` of a list, range or sequence with several integers is the first of them, instead of a `TypeError`; only
arrays are refused. -/
theorem c109_not_value (i j : ℤ) (l : List ℤ) :
    newValue toInt (.ints (i :: j :: l)) = .ok (.value i) ∧ newValue toInt (.range (i :: j :: l)) = .ok (.value i) ∧
      newValue toInt (.seq (i :: j :: l)) = .ok (.value i) ∧
      ∀ a : ND ℤ, a.size ≠ 1 → newValue toInt (.array a) = .error .type := by
  refine ⟨rfl, rfl, rfl, fun a ha => ?_⟩
  simp only [newValue, valueArgs, if_neg ha]

end creation

/-! ## The hypotheses can be met -/

example : ∃ r, idxOp .mod (.int (-7)) (.idx (.value 3)) = .ok (.value r) ∧ OpResult .mod (-7) 3 r :=
  c109_values .mod (.int (-7)) (.idx (.value 3)) (-7) 3 (Or.inr rfl) (Or.inl rfl) (Or.inr rfl)
    ⟨2, by decide, ⟨-3, by decide⟩, by decide, by decide⟩

example : idxOp .floordiv (.idx (.value 5)) (.int 0) = .error .zero :=
  ((c109_undefined (.idx (.value 5)) (.int 0) 5 0 (Or.inl rfl) (Or.inr rfl) (Or.inl rfl)).1 rfl).1

example : Match 2 (.idx (.seq [1, 2])) (.idx (.seq [5, 7])) ∧ Match 2 (.int 4) (.idx (.seq [5, 7])) :=
  ⟨Or.inl ⟨⟨_, rfl, rfl⟩, ⟨_, rfl, rfl⟩⟩, Or.inr (Or.inr ⟨⟨4, Or.inr rfl⟩, ⟨_, rfl, rfl⟩⟩)⟩

example : ∃ l, idxOp .pow (.idx (.seq [1, 2])) (.int 3) = .ok (.seq l) ∧ l.length = 2 :=
  let ⟨l, h1, h2, _⟩ := c109_elementwise_partial .pow 2 (.idx (.seq [1, 2])) (.int 3)
    (Or.inr (Or.inl ⟨⟨_, rfl, rfl⟩, 3, Or.inr rfl⟩)) (fun _ => ⟨3, Or.inr rfl, by decide⟩)
  ⟨l, h1, h2⟩

example : idxEq (.idx (.seq [1, 2])) (.idx (.seq [1, 2, 3])) = .array [true, true] := by decide

example : ∃ l, compareIdx (fun x y => decide (x < y)) (.idx (.seq [1, 7])) (.idx (.value 5)) = some (.array l) ∧ l.length = 2 :=
  let ⟨l, h1, h2, _⟩ := c109_compare_elementwise_partial (fun x y => decide (x < y)) 2 (.idx (.seq [1, 7])) (.idx (.value 5))
    (Or.inr (Or.inl ⟨⟨_, rfl, rfl⟩, 5, Or.inl rfl⟩))
  ⟨l, h1, h2⟩

example : idxItem [4, 5, 6] (-1) = .ok (.value 6) := (c109_item [4, 5, 6] (-1)).1 2 6 rfl (Or.inr (by simp))

example (toInt : List Char → Option ℤ) : newSequence toInt (.array ⟨[1, 2], fun i => i⟩) = .ok (.seq [0, 1]) :=
  c109_sequence toInt _ [0, 1] ⟨by decide, by
    intro i x hx
    match i with
    | 0 => simpa using hx
    | 1 => simpa using hx
    | n + 2 => simp at hx⟩ (by rintro a ⟨⟩; right; decide)

example (toInt : List Char → Option ℤ) : newValue toInt (.ints [4]) = .ok (.value 4) := c109_value_partial toInt (.ints [4]) 4 rfl

end Eprem.Numeric
