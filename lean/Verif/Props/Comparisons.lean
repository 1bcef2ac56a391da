import Verif.Model.Derived
import Verif.Props.PhysicalFunctions

/-!
# Comparisons (C37)
-/

namespace Eprem.Derived

/-- `==` and `<` are those of the elements of a linear order, here the values of the objects. -/
structure Ordered {α L : Type} [LinearOrder L] (b : Base α) (value : α → L) : Prop where
  eq : ∀ x y, b.eq x y = true ↔ value x = value y
  lt : ∀ x y, b.lt x y = true ↔ value x < value y

/-- **C37**, derived comparisons.  If `==` and `<` compare values in a linear order, then so do the operators derived from
them; exactly one of `<`, `==` and `>` holds, `<=` means `<` or `==`, `!=` is the negation of `==`, and a difference is the
sum with the negation. -/
theorem c37_derived {α L : Type} [LinearOrder L] (b : Base α) (value : α → L) (h : Ordered b value) (x y : α) :
    (b.ne x y = true ↔ value x ≠ value y) ∧ (b.le x y = true ↔ value x ≤ value y) ∧
    (b.gt x y = true ↔ value y < value x) ∧ (b.ge x y = true ↔ value y ≤ value x) ∧ b.gt' x y = b.gt x y ∧
    (b.lt x y = true ∧ b.eq x y = false ∧ b.gt x y = false ∨ b.lt x y = false ∧ b.eq x y = true ∧ b.gt x y = false ∨
      b.lt x y = false ∧ b.eq x y = false ∧ b.gt x y = true) ∧
    (b.le x y = true ↔ b.lt x y = true ∨ b.eq x y = true) ∧ b.ne x y = !b.eq x y ∧
    b.sub x y = b.add x (b.neg y) ∧ b.rsub x y = b.sub y x := by
  have he := h.eq x y
  have hl := h.lt x y
  unfold Base.ne Base.le Base.gt Base.ge Base.gt' Base.sub Base.rsub
  refine ⟨?_, ?_, ?_, ?_, ?_, ?_, ?_, rfl, rfl, rfl⟩
  · rw [ne_eq, ← he]; simp
  · rw [Bool.or_eq_true, he, hl, le_iff_lt_or_eq]
  · rw [Bool.not_eq_true', Bool.or_eq_false_iff, ← Bool.not_eq_true, ← Bool.not_eq_true, he, hl, not_lt]
    exact ⟨fun h => lt_of_le_of_ne h.1 (Ne.symm h.2), fun h => ⟨h.le, h.ne'⟩⟩
  · rw [Bool.not_eq_true', ← Bool.not_eq_true, hl, not_lt]
  · cases b.lt x y <;> cases b.eq x y <;> rfl
  · rcases lt_trichotomy (value x) (value y) with h1 | h1 | h1
    · left
      have e1 := hl.2 h1
      have e2 : b.eq x y = false := by rw [← Bool.not_eq_true, he]; exact h1.ne
      simp [e1, e2]
    · right; left
      have e1 := he.2 h1
      have e2 : b.lt x y = false := by rw [← Bool.not_eq_true, hl, h1]; exact lt_irrefl _
      simp [e1, e2]
    · right; right
      have e1 : b.eq x y = false := by rw [← Bool.not_eq_true, he]; exact h1.ne'
      have e2 : b.lt x y = false := by rw [← Bool.not_eq_true, hl]; exact h1.asymm
      simp [e1, e2]
  · rw [Bool.or_eq_true]

/-- integers -/
example : Ordered (⟨fun x y => decide (x = y), fun x y => decide (x < y), (· + ·), (- ·)⟩ : Base ℤ) id :=
  ⟨fun x y => by simp, fun x y => by simp⟩

/-- **C37** is violated by values that are not ordered, such as NaN: `x > y` and `y > x` both hold, and so do `x >= y` and
`y >= x`, although neither `x < y` nor `x == y`. -/
theorem c37_unordered {α : Type} (b : Base α) (x y : α) (h1 : b.lt x y = false) (h2 : b.eq x y = false)
    (h3 : b.lt y x = false) (h4 : b.eq y x = false) :
    b.gt x y = true ∧ b.gt y x = true ∧ b.ge x y = true ∧ b.ge y x = true := by
  simp [Base.gt, Base.ge, h1, h2, h3, h4]

/-- numbers with a value that is unequal to itself -/
example : ∃ b : Base (Option ℤ), b.lt none none = false ∧ b.eq none none = false :=
  ⟨⟨fun x y => match x, y with | some x, some y => decide (x = y) | _, _ => false,
    fun x y => match x, y with | some x, some y => decide (x < y) | _, _ => false, fun x _ => x, id⟩, rfl, rfl⟩

end Eprem.Derived

namespace Eprem.Physical

open Eprem Eprem.Symbolic Eprem.Metric Eprem.Numeric Eprem.Measured

variable {κ ν : Type} [DecidableEq κ]

/-- The answer of a comparison of scalars: `True` or `False`, or an exception. -/
def answer {K : Type} [Field K] [DecidableEq K] (f : K → K → Bool) (a b : Operand κ ν K) : Option Bool :=
  match comparative f a b with
  | .ok d => some (d.get [])
  | .error _ => none

theorem answer_scalars {K : Type} [Field K] [DecidableEq K] (f : K → K → Bool) (x y : K) (u v : List Term)
    (h : exprEq u v = true) : answer f (scalarOf x u : Operand κ ν K) (scalarOf y v) = some (f x y) := by
  unfold answer scalarOf comparative
  simp only [h, if_true]
  rfl

theorem eq_scalars {K : Type} [Field K] [DecidableEq K] (same : ν → ν → Bool) (x y : K) (u v : List Term) :
    eq same (scalarOf x u : Operand κ ν K) (scalarOf y v) = (decide (x = y) && exprEq u v) := by
  have h1 : arrayEqual (⟨[], fun _ => x⟩ : ND K) ⟨[], fun _ => y⟩ = decide (x = y) := by
    have h2 : List.range ((⟨[], fun _ => x⟩ : ND K).size) = [0] := rfl
    simp [arrayEqual, h2]
  unfold eq scalarOf
  simp only [h1]

/-- **C37**, scalars.  For scalars with equal units, the comparisons compare the amounts, whatever the sizes of units;
exactly one of `<`, `==` and `>` holds, `<=` means `<` or `==`, `>=` means `>` or `==`, and `!=` is the negation of `==`. -/
theorem c37_scalars (same : ν → ν → Bool) (x y : ℝ) (u v : List Term) (d : ℕ) (hd : d ∣ 4) (hu : GoodUnit d u)
    (hv : GoodUnit d v) (h : exprEq u v = true) (a b : Operand κ ν ℝ) (ha : a = scalarOf x u) (hb : b = scalarOf y v)
    (ρ : Name → ℝ) (hρ : ∀ n, 0 < ρ n) :
    ∃ lt le gt ge, answer (fun x y : ℝ => decide (x < y)) a b = some lt ∧ answer (fun x y : ℝ => decide (x ≤ y)) a b = some le ∧
      answer (fun x y : ℝ => decide (x > y)) a b = some gt ∧ answer (fun x y : ℝ => decide (x ≥ y)) a b = some ge ∧
      (lt = true ↔ a.shown ρ [] < b.shown ρ []) ∧ (le = true ↔ a.shown ρ [] ≤ b.shown ρ []) ∧
      (gt = true ↔ a.shown ρ [] > b.shown ρ []) ∧ (ge = true ↔ a.shown ρ [] ≥ b.shown ρ []) ∧
      (eq same a b = true ↔ a.shown ρ [] = b.shown ρ []) ∧ ne same a b = !eq same a b ∧
      (lt = true ∧ eq same a b = false ∧ gt = false ∨ lt = false ∧ eq same a b = true ∧ gt = false ∨
        lt = false ∧ eq same a b = false ∧ gt = true) ∧
      le = (lt || eq same a b) ∧ ge = (gt || eq same a b) := by
  subst ha hb
  have hval := value_equal hd hu hv h ρ
  have hp : 0 < value ρ v := value_pos hρ hv.1.coeff
  refine ⟨_, _, _, _, answer_scalars _ x y u v h, answer_scalars _ x y u v h, answer_scalars _ x y u v h,
    answer_scalars _ x y u v h, ?_⟩
  rw [eq_scalars, h, Bool.and_true, shown_scalar, shown_scalar, hval]
  simp only [decide_eq_true_eq, gt_iff_lt, ge_iff_le, mul_lt_mul_iff_left₀ hp, mul_le_mul_iff_left₀ hp,
    mul_left_inj' hp.ne', true_and]
  refine ⟨by unfold ne; rw [eq_scalars, h, Bool.and_true], ?_, ?_, ?_⟩
  · rcases lt_trichotomy x y with h | h | h
    · simp [h, h.ne, h.le, h.asymm]
    · simp [h]
    · simp [h, h.ne', h.asymm]
  · rw [Bool.eq_iff_iff]; simp [le_iff_lt_or_eq]
  · rw [Bool.eq_iff_iff]
    simp only [decide_eq_true_eq, Bool.or_eq_true]
    exact le_iff_lt_or_eq.trans (or_congr_right eq_comm)

/-- scalars in metres -/
example : GoodUnit 1 [⟨1, c! "m", 1⟩] ∧ exprEq [⟨1, c! "m", 1⟩] [⟨1, c! "m", 1⟩] = true := ⟨good_metre, by decide +kernel⟩

/-- **C37** is violated by scalars with different units: `1 km` and `1000 m` are the same length, but they are unequal, and
`<` and `>` raise `ValueError`. -/
theorem c37_units_not (same : ν → ν → Bool) :
    ∃ a b : Operand κ ν ℝ, (∀ ρ : Name → ℝ, ρ (c! "km") = 1000 * ρ (c! "m") → a.shown ρ [] = b.shown ρ []) ∧
      eq same a b = false ∧ ∀ f : ℝ → ℝ → Bool, comparative f a b = .error .units := by
  have h : exprEq [⟨1, c! "km", 1⟩] [⟨1, c! "m", 1⟩] = false := by decide +kernel
  refine ⟨scalarOf 1 [⟨1, c! "km", 1⟩], scalarOf 1000 [⟨1, c! "m", 1⟩], fun ρ hρ => ?_, ?_, fun f => ?_⟩
  · rw [shown_scalar, shown_scalar, value_symbol ρ (by decide), value_symbol ρ (by decide), hρ, one_mul]
  · rw [eq_scalars, h, Bool.and_false]
  · unfold scalarOf comparative
    simp only [h, Bool.false_eq_true, if_false]

/-- **C37** is violated by numbers: the order comparisons of a scalar with a number ignore the unit, and a scalar never
equals a number.  So `2 == scalar(2)` is false, although `2 <= scalar(2)` and neither `<` nor `>` hold; and `1 km < 2` but
not `1000 m < 2`. -/
theorem c37_number_not (same : ν → ν → Bool) (x : ℝ) (u : List Term) :
    eq same (scalarOf x u : Operand κ ν ℝ) (.number x) = false ∧
    (∀ f : ℝ → ℝ → Bool, ∀ y, answer f (scalarOf x u : Operand κ ν ℝ) (.number y) = some (f x y) ∧
      answer f (.number y : Operand κ ν ℝ) (scalarOf x u) = some (f y x)) ∧
    answer (fun x y : ℝ => decide (x < y)) (scalarOf 1 [⟨1, c! "km", 1⟩] : Operand κ ν ℝ) (.number 2) = some true ∧
    answer (fun x y : ℝ => decide (x < y)) (scalarOf 1000 [⟨1, c! "m", 1⟩] : Operand κ ν ℝ) (.number 2) = some false := by
  have h : ∀ (f : ℝ → ℝ → Bool) x u y, answer f (scalarOf x u : Operand κ ν ℝ) (.number y) = some (f x y) :=
    fun f x u y => rfl
  refine ⟨rfl, fun f y => ⟨rfl, rfl⟩, ?_, ?_⟩
  · rw [h]; norm_num
  · rw [h]; norm_num

theorem zip_neg {K : Type} [Field K] (x y : ND K) :
    ND.zip (fun a b => a - b) x y = ND.zip (fun a b => a + b) x (y.map (fun a => -a)) := by
  unfold ND.zip ND.map ND.atLeast ND.get ND.ndim
  simp only [sub_eq_add_neg]

/-- **C37**, differences: `a - b` is `a + (-b)`, for all measured objects and numbers; in particular one is refused if the
other is. -/
theorem c37_sub {K : Type} [Field K] [DecidableEq K] (same inside : ν → ν → Bool) (a b : Operand κ ν K) (wb : b.WF)
    (mb : b.isMeasurement = false) :
    match b with
    | .number y => additive same inside (fun a b => a - b) a (.number y) =
        additive same inside (fun a b => a + b) a (.number (-y))
    | b => ∃ c, unary (fun x => -x) b = .ok c ∧
        additive same inside (fun a b => a - b) a b = additive same inside (fun a b => a + b) a c := by
  have hm : ∀ y : K, (measureNumber (-y)).data = (measureNumber y).data.map (fun a => -a) := fun y => rfl
  cases b with
  | number y =>
    simp only
    cases a with
    | number x => rfl
    | object k o => simp only [additive, additiveMeasured, zipData, hm, zip_neg]; rfl
    | array c => simp only [additive, additiveMeasured, zipData, hm, zip_neg]; rfl
  | object k o =>
    simp only
    refine ⟨.object k ⟨o.data.map (fun x => -x), o.unit⟩, ?_, ?_⟩
    · unfold unary withNumber create
      cases k with
      | scalar =>
        have h0 : o.data.shape = [] := wb
        have h1 : (o.data.map (fun x => -x)).size = 1 := by
          show Numeric.sizeOf o.data.shape = 1; rw [h0]; rfl
        simp only [h1, if_true]
        have : (o.data.map (fun x => -x)) = ⟨[], (o.data.map (fun x => -x)).data⟩ := by
          unfold ND.map; simp only [h0]
        rw [this]; rfl
      | vector =>
        have h0 : o.data.shape.length = 1 := wb
        have h1 : (o.data.map (fun x => -x)).ndim = 1 := h0
        simp only [h1, if_true]; rfl
      | tensor =>
        have h0 : o.data.shape ≠ [] := wb
        have h1 : (o.data.map (fun x => -x)).ndim ≠ 0 := fun h => h0 (List.length_eq_zero_iff.1 h)
        simp only [h1, if_false]; rfl
      | measurement => cases mb
    · cases a with
      | number x => simp only [additive, additiveMeasured, zipData, zip_neg, Operand.unit]; rfl
      | object l y => simp only [additive, additiveMeasured, zipData, zip_neg]
      | array c => simp only [additive, additiveMeasured, zipData, zip_neg]
  | array c =>
    simp only
    have wc : c.WF := wb
    have hk := dimensions_nodup (wf_axes wc)
    have hl : (dimensions c.axes.keys).length = c.arr.raw.data.ndim := by
      rw [hk, wc.axes]; exact wc.named.length
    have hd : (PArr.new (⟨c.arr.data.data.map (fun x => -x), dimensions c.axes.keys, false⟩ : Named κ K) c.arr.unit).data =
        ⟨c.arr.data.data.map (fun x => -x), c.arr.raw.dims, false⟩ := by
      rw [hk, wc.axes]
      unfold PArr.data PArr.new ND.map
      simp
    refine ⟨.array ⟨PArr.new ⟨c.arr.data.data.map (fun x => -x), dimensions c.axes.keys, false⟩ c.arr.unit, c.axes⟩, ?_, ?_⟩
    · simp only [unary, withNumber, newArray, arrayFactory]
      rw [if_pos (by exact hl)]
      rfl
    · cases a with
      | number x =>
        simp only [additive, additiveMeasured, zipData, zip_neg, Operand.unit, hd]
        rfl
      | object l y =>
        simp only [additive, additiveMeasured, zipData, zip_neg, hd]
        rfl
      | array e =>
        simp only [additive, additiveMeasured, addArrays, Numeric.additive, zip_neg, hd]
        rfl

end Eprem.Physical
