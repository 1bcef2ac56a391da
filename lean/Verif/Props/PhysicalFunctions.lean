import Verif.Props.Physical

/-!
# Powers, functions and reductions of physical objects (C36)
-/

namespace Eprem.Physical

open Eprem Eprem.Symbolic Eprem.Metric Eprem.Numeric Eprem.Measured

variable {κ ν : Type} [DecidableEq κ]

/-! ## Powers and roots -/

theorem powUnits_value {float : Bool} {d : ℕ} (hd : d ∣ 4) {u w : List Term} (hu : GoodUnit d u) {p : ℚ} (hp : p ≠ 0)
    (he : ∀ t ∈ u, ∃ z : ℤ, t.exp * p = z / 8 ∧ |z| < 2 ^ 53) (h : powUnits float u p = .ok w) :
    IsUnit 8 w ∧ ∀ ρ, CoherentSizes ρ → value ρ w = value ρ u ^ (p : ℝ) := by
  obtain ⟨r, hr, hi, hv⟩ := c71_pow_partial float d hd u hu.1 hu.2 p hp he
  unfold powUnits at h
  rw [hr] at h
  cases h
  exact ⟨hi, hv⟩

/-- The exponent of a number or a scalar. -/
def Exponent.value? {K : Type} : Exponent κ ν K → Option ℚ
  | .number _ p => some p
  | .scalar _ p _ => some p
  | _ => none

theorem mul_rpow_of {x y p : ℝ} (hx : 0 ≤ x ∨ ∃ z : ℤ, p = z) (hy : 0 < y) : (x * y) ^ p = x ^ p * y ^ p := by
  rcases hx with hx | ⟨z, rfl⟩
  · exact Real.mul_rpow hx hy.le
  · rw [Real.rpow_intCast, Real.rpow_intCast, Real.rpow_intCast, mul_zpow]

/-- **C36**, powers.  If the power of a measured object is computed, for a number or scalar `p ≠ 0` as exponent, then it has
the shape of the object, and at every position it shows the power of the amount that the object shows there.  The number
must be non-negative or the exponent an integer; otherwise the power is no real number. -/
theorem c36_power (f : ℝ → ℝ → ℝ) (a r : Operand κ ν ℝ) (wa : a.WF) (b : Exponent κ ν ℝ) (p : ℚ) (hb : b.value? = some p)
    (hp : p ≠ 0) (d : ℕ) (hd : d ∣ 4) (ha : GoodUnit d a.unit)
    (he : ∀ t ∈ a.unit, ∃ z : ℤ, t.exp * p = z / 8 ∧ |z| < 2 ^ 53)
    (h : exponential f (fun x q => x ^ (q : ℝ)) a b = .ok r) :
    r.WF ∧ r.shape = a.shape ∧ r.axes? = a.axes? ∧ IsUnit 8 r.unit ∧ exprEq b.unit unitless = true ∧
    ∀ ρ, CoherentSizes ρ → ∀ pos, Valid pos r.shape → (0 ≤ a.shown ρ pos ∨ p.den = 1) →
      r.shown ρ pos = a.shown ρ pos ^ (p : ℝ) := by
  have key : ∀ float, exprEq b.unit unitless = true → (match powUnits float a.unit p with
      | .error e => .error e
      | .ok unit => withNumber (fun x : ℝ => x ^ (p : ℝ)) unit a) = Except.ok (ε := PErr) r →
      r.WF ∧ r.shape = a.shape ∧ r.axes? = a.axes? ∧ IsUnit 8 r.unit ∧ exprEq b.unit unitless = true ∧
      ∀ ρ, CoherentSizes ρ → ∀ pos, Valid pos r.shape → (0 ≤ a.shown ρ pos ∨ p.den = 1) →
        r.shown ρ pos = a.shown ρ pos ^ (p : ℝ) := by
    intro float hu h
    split at h
    · cases h
    next w hw =>
      obtain ⟨h1, h2⟩ := powUnits_value hd ha hp he hw
      obtain ⟨h3, h4⟩ := withNumber_shows h
      obtain ⟨h5, h6, h7⟩ := withNumber_wf wa h
      refine ⟨h5, h6, h7, h3 ▸ h1, hu, fun ρ hρ pos hpos hx => ?_⟩
      have hv := value_pos hρ.pos ha.1.coeff
      rw [shown_eq, shown_eq, h4 pos hpos, h3, h2 ρ hρ, mul_rpow_of _ hv]
      rcases hx with hx | hx
      · rw [shown_eq] at hx
        exact .inl ((mul_nonneg_iff_of_pos_right hv).1 hx)
      · exact .inr ⟨p.num, by exact_mod_cast ((Rat.den_eq_one_iff p).1 hx).symm⟩
  unfold exponential at h
  split at h
  next hu =>
    cases b with
    | number float q =>
      cases hb
      cases a with
      | number x => cases h
      | object k o => exact key float hu h
      | array c => exact key float hu h
    | scalar float q u =>
      cases hb
      cases a with
      | number x => cases h
      | object k o => exact key float hu h
      | array c => exact key float hu h
    | object k o => cases hb
    | array c => cases hb
  · cases h

/-- **C36**, exponents with a unit are refused, and so are array-like exponents of objects with a unit. -/
theorem c36_exponent_unit {K : Type} [Field K] [DecidableEq K] (f : K → K → K) (g : K → ℚ → K) (a : Operand κ ν K)
    (b : Exponent κ ν K)
    (h : exprEq b.unit unitless = false ∨ b.value? = none ∧ exprEq a.unit unitless = false) :
    ∃ e, exponential f g a b = .error e := by
  unfold exponential
  split
  next hu =>
    rcases h with h | ⟨h, ha⟩
    · rw [h] at hu; cases hu
    · cases b with
      | number float q => cases h
      | scalar float q u => cases h
      | object k o => cases a <;> simp only [ha, Bool.false_eq_true, if_false] <;> exact ⟨_, rfl⟩
      | array c => cases a <;> simp only [ha, Bool.false_eq_true, if_false] <;> exact ⟨_, rfl⟩
  · exact ⟨_, rfl⟩

/-- **C36**, square roots: the unit has half the exponents, and at every position the result shows the root of the amount. -/
theorem c36_sqrt (a r : Operand κ ν ℝ) (wa : a.WF) (d : ℕ) (hd : d ∣ 4) (ha : GoodUnit d a.unit)
    (h : sqrt Real.sqrt a = .ok r) :
    r.WF ∧ r.shape = a.shape ∧ r.axes? = a.axes? ∧ IsUnit 8 r.unit ∧
    ∀ ρ, CoherentSizes ρ → ∀ pos, Valid pos r.shape → r.shown ρ pos = Real.sqrt (a.shown ρ pos) := by
  unfold sqrt at h
  split at h
  · cases h
  next w hw =>
    have he : ∀ t ∈ a.unit, ∃ z : ℤ, t.exp * (1/2) = z / 8 ∧ |z| < 2 ^ 53 := by
      intro t ht
      obtain ⟨z, hz⟩ := (ha.1.exp t ht).1
      obtain ⟨k, hk⟩ := hd
      have hd0 : (d : ℚ) ≠ 0 := by
        intro h0
        have : d = 0 := by exact_mod_cast h0
        rw [this, zero_mul] at hk; cases hk
      have h4 : (4 : ℚ) = d * k := by exact_mod_cast hk
      have h8 : t.exp = (k * z : ℤ) / 4 := by
        rw [h4, hz]; push_cast
        have hk0 : (k : ℚ) ≠ 0 := by
          intro h0
          have : k = 0 := by exact_mod_cast h0
          rw [this, mul_zero] at hk; cases hk
        field_simp
      refine ⟨k * z, by rw [h8]; ring, ?_⟩
      have hs := ha.2 t ht
      rw [h8, abs_div, abs_of_pos (show (0 : ℚ) < 4 by norm_num), div_lt_iff₀ (by norm_num)] at hs
      have h9 : |((k * z : ℤ) : ℚ)| < (2 ^ 53 : ℤ) := lt_of_lt_of_le hs (by norm_num)
      exact_mod_cast h9
    obtain ⟨h1, h2⟩ := powUnits_value hd ha (by norm_num) he hw
    obtain ⟨h3, h4⟩ := withNumber_shows h
    obtain ⟨h5, h6, h7⟩ := withNumber_wf wa h
    refine ⟨h5, h6, h7, h3 ▸ h1, fun ρ hρ pos hpos => ?_⟩
    have hv := value_pos hρ.pos ha.1.coeff
    rw [shown_eq, shown_eq, h4 pos hpos, h3, h2 ρ hρ, Real.sqrt_mul' _ hv.le]
    congr 1
    rw [Real.sqrt_eq_rpow]
    norm_num

/-- the square and the root of a scalar in metres -/
example (f : ℝ → ℝ → ℝ) : ∃ r : Operand κ ν ℝ, exponential f (fun x q => x ^ (q : ℝ))
    (.object .scalar ⟨⟨[], fun _ => -5⟩, [⟨1, c! "m", 1⟩]⟩) (.number false 2) = .ok r ∧ r.unit = [⟨1, c! "m", 2⟩] := by
  have hu : exprEq unitless unitless = true := by decide +kernel
  have hp : unitPow false [⟨1, c! "m", 1⟩] 2 = .ok [⟨1, c! "m", 2⟩] := by decide +kernel
  refine ⟨.object .scalar ⟨⟨[], fun _ => (-5 : ℝ) ^ ((2 : ℚ) : ℝ)⟩, [⟨1, c! "m", 2⟩]⟩, ?_, rfl⟩
  refine (if_pos hu).trans ?_
  simp only [powUnits, Operand.unit, hp]
  rfl

example : ∃ r : Operand κ ν ℝ, sqrt Real.sqrt (.object .scalar ⟨⟨[], fun _ => 5⟩, [⟨1, c! "m", 1⟩]⟩) = .ok r ∧
    r.unit = [⟨1, c! "m", 1/2⟩] := by
  have hp : unitPow true [⟨1, c! "m", 1⟩] (1/2) = .ok [⟨1, c! "m", 1/2⟩] := by decide +kernel
  refine ⟨.object .scalar ⟨⟨[], fun _ => Real.sqrt 5⟩, [⟨1, c! "m", 1/2⟩]⟩, ?_, rfl⟩
  simp only [sqrt, powUnits, Operand.unit, hp]
  rfl

/-- an exponent with a unit, and an array-like exponent -/
example : exprEq (Exponent.scalar (κ := κ) (ν := ν) (K := ℝ) false 2 [⟨1, c! "m", 1⟩]).unit unitless = false := by
  show exprEq [⟨1, c! "m", 1⟩] unitless = false
  decide +kernel

/-! ## Unary operations -/

/-- **C36**, the sign and the absolute value: the unit is kept, and the result shows the function of the amount. -/
theorem c36_unary (a r : Operand κ ν ℝ) (wa : a.WF) (hc : ∀ t ∈ a.unit, t.coeff = 1) (f : ℝ → ℝ)
    (hf : ∀ c x, 0 < c → f (x * c) = f x * c) (h : unary f a = .ok r) :
    r.WF ∧ r.shape = a.shape ∧ r.axes? = a.axes? ∧ r.unit = a.unit ∧
    ∀ ρ : Name → ℝ, (∀ n, 0 < ρ n) → ∀ pos, Valid pos r.shape → r.shown ρ pos = f (a.shown ρ pos) := by
  unfold unary at h
  obtain ⟨h3, h4⟩ := withNumber_shows h
  obtain ⟨h5, h6, h7⟩ := withNumber_wf wa h
  refine ⟨h5, h6, h7, h3, fun ρ hρ pos hpos => ?_⟩
  rw [shown_eq, shown_eq, h4 pos hpos, h3, hf _ _ (value_pos hρ hc)]

/-- The functions for which this holds include `-x`, `+x` and `abs(x)`. -/
theorem c36_unary_functions : (∀ c x : ℝ, 0 < c → -(x * c) = -x * c) ∧ (∀ c x : ℝ, 0 < c → x * c = x * c) ∧
    (∀ c x : ℝ, 0 < c → |x * c| = |x| * c) :=
  ⟨fun _ _ _ => (neg_mul _ _).symm, fun _ _ _ => rfl, fun c x hc => by rw [abs_mul, abs_of_pos hc]⟩

/-! ## Functions of numbers -/

/-- **C36**, trigonometric functions of angles in radians: the result has no unit and shows the function of the angle, if the
radian has size 1. -/
theorem c36_trig (f : ℝ → ℝ) (a r : Operand κ ν ℝ) (wa : a.WF) (hu : a.unit = [⟨1, c! "rad", 1⟩]) (h : trig f a = .ok r) :
    r.WF ∧ r.shape = a.shape ∧ r.axes? = a.axes? ∧ r.unit = unitless ∧
    ∀ ρ : Name → ℝ, ρ (c! "rad") = 1 → ∀ pos, Valid pos r.shape → r.shown ρ pos = f (a.shown ρ pos) := by
  unfold trig at h
  split at h
  · obtain ⟨h3, h4⟩ := withNumber_shows h
    obtain ⟨h5, h6, h7⟩ := withNumber_wf wa h
    refine ⟨h5, h6, h7, h3, fun ρ hρ pos hpos => ?_⟩
    rw [shown_eq, shown_eq, h4 pos hpos, h3, hu]
    simp [unitless, value_unit, value, Term.val, hρ]
  · cases h

/-- the sine of an angle in radians -/
example (x : ℝ) : ∃ r : Operand κ ν ℝ, trig Real.sin (.object .scalar ⟨⟨[], fun _ => x⟩, [⟨1, c! "rad", 1⟩]⟩) = .ok r := by
  refine ⟨.object .scalar ⟨⟨[], fun _ => Real.sin x⟩, unitless⟩, ?_⟩
  unfold trig
  rw [if_pos (by left; exact show_symbol (c! "rad"))]
  rfl

/-- **C36**, trigonometric functions are refused for objects whose unit is neither radians nor degrees. -/
theorem c36_trig_units {K : Type} [Field K] [DecidableEq K] (f : K → K) (a : Operand κ ν K)
    (h1 : showExpr a.unit ≠ c! "rad") (h2 : showExpr a.unit ≠ c! "deg") : trig f a = .error .units := by
  unfold trig
  rw [if_neg (by rintro (h | h); exacts [h1 h, h2 h])]

/-- **C36** is violated for angles in degrees: the functions are applied to the numbers, whatever the unit.  The cosine of
180 degrees is not -1. -/
theorem c36_trig_deg_not (a : Operand κ ν ℝ) (ha : a = .object .scalar ⟨⟨[], fun _ => 180⟩, [⟨1, c! "deg", 1⟩]⟩)
    (ρ : Name → ℝ) (h1 : ρ (c! "deg") = Real.pi / 180) :
    ∃ r, trig Real.cos a = .ok r ∧ r.shown ρ [] ≠ Real.cos (a.shown ρ []) := by
  subst ha
  refine ⟨.object .scalar ⟨⟨[], fun _ => Real.cos 180⟩, unitless⟩, ?_, ?_⟩
  · unfold trig
    rw [if_pos (by right; exact show_symbol (c! "deg"))]
    rfl
  · have e1 : (Operand.object .scalar ⟨⟨[], fun _ => Real.cos 180⟩, unitless⟩ : Operand κ ν ℝ).shown ρ [] =
        Real.cos 180 := by
      rw [shown_eq]
      simp [Operand.num, ND.spread, ND.get, Operand.unit, unitless, value_unit]
    have e2 : (Operand.object .scalar ⟨⟨[], fun _ => 180⟩, [⟨1, c! "deg", 1⟩]⟩ : Operand κ ν ℝ).shown ρ [] =
        Real.pi := by
      rw [shown_eq]
      simp [Operand.num, ND.spread, ND.get, Operand.unit, value, Term.val, h1]
      rw [if_neg (by decide)]; ring
    rw [e1, e2, Real.cos_pi]
    intro h
    obtain ⟨k, hk⟩ := Real.cos_eq_neg_one_iff.1 h
    have h2 : Real.pi * (1 + 2 * k) = 180 := by rw [← hk]; ring
    have h3 : (1 + 2 * (k : ℝ)) ≠ 0 := by
      intro h0
      have : (1 + 2 * k : ℤ) = 0 := by exact_mod_cast h0
      omega
    have h4 : Real.pi = ((180 / (1 + 2 * k) : ℚ) : ℝ) := by
      push_cast
      rw [eq_div_iff h3]; exact h2
    exact irrational_pi ⟨_, h4.symm⟩

/-- **C36**, logarithms: only of objects without a unit, and the result has none. -/
theorem c36_log (f : ℝ → ℝ) (a : Operand κ ν ℝ) (wa : a.WF) :
    (showExpr a.unit ≠ Symbolic.one → log f a = .error .units) ∧
    ∀ r, log f a = .ok r → r.WF ∧ r.shape = a.shape ∧ r.axes? = a.axes? ∧ r.unit = unitless ∧
      (a.unit = unitless → ∀ ρ : Name → ℝ, ∀ pos, Valid pos r.shape → r.shown ρ pos = f (a.shown ρ pos)) := by
  refine ⟨fun h => by unfold log; rw [if_neg h], fun r h => ?_⟩
  unfold log at h
  split at h
  · obtain ⟨h3, h4⟩ := withNumber_shows h
    obtain ⟨h5, h6, h7⟩ := withNumber_wf wa h
    refine ⟨h5, h6, h7, h3, fun hu ρ pos hpos => ?_⟩
    rw [shown_eq, shown_eq, h4 pos hpos, h3, hu]
    simp [unitless, value_unit]
  · cases h

/-- the logarithm of a number without a unit -/
example (x : ℝ) : ∃ r : Operand κ ν ℝ, log Real.log (.object .scalar ⟨⟨[], fun _ => x⟩, unitless⟩) = .ok r := by
  refine ⟨.object .scalar ⟨⟨[], fun _ => Real.log x⟩, unitless⟩, ?_⟩
  unfold log
  rw [if_pos (by exact show_symbol one)]
  rfl

/-! ## Reductions -/

theorem positions_ravel : ∀ s : List Nat, (allPositions s).map (ravel s) = List.range (Numeric.sizeOf s)
  | [] => rfl
  | n :: s => by
    have ih := positions_ravel s
    have h1 : (allPositions (n :: s)).map (ravel (n :: s)) =
        (List.range n).flatMap (fun i => (List.range (Numeric.sizeOf s)).map (fun j => i * Numeric.sizeOf s + j)) := by
      rw [allPositions, List.map_flatMap]
      congr 1
      funext i
      rw [← ih, List.map_map, List.map_map]
      rfl
    rw [h1]
    clear h1
    show _ = List.range (n * Numeric.sizeOf s)
    generalize Numeric.sizeOf s = m
    induction n with
    | zero => simp
    | succ n ihn => rw [List.range_succ, List.flatMap_append, ihn]; simp [Nat.succ_mul, List.range_add]

theorem positions_valid : ∀ {s p : List Nat}, p ∈ allPositions s → Valid p s
  | [], p, h => by rw [allPositions, List.mem_singleton] at h; subst h; exact .nil
  | n :: s, p, h => by
    rw [allPositions, List.mem_flatMap] at h
    obtain ⟨i, hi, h⟩ := h
    obtain ⟨q, hq, rfl⟩ := List.mem_map.1 h
    exact .cons (List.mem_range.1 hi) (positions_valid hq)

theorem elements_positions {K : Type} [Field K] [DecidableEq K] (a : ND K) :
    elements a = (allPositions a.shape).map a.spread := by
  unfold elements
  show List.map a.data (List.range (Numeric.sizeOf a.shape)) = _
  rw [← positions_ravel, List.map_map]
  apply List.map_congr_left
  intro p hp
  rw [spread_self (positions_valid hp)]
  rfl

/-- **C36**, `numpy.sum(x)`, `mean`, `max`, `min` without an axis: a scalar with the unit of `x`, which shows the sum (mean,
...) of all amounts. -/
theorem c36_reduce_all (f : List ℝ → ℝ) (hf : ∀ c l, 0 < c → f (l.map (· * c)) = f l * c) (a r : Operand κ ν ℝ)
    (hc : ∀ t ∈ a.unit, t.coeff = 1) (h : reduceAll f a = .ok r) :
    r.WF ∧ r.shape = [] ∧ r.unit = a.unit ∧
    ∀ ρ : Name → ℝ, (∀ n, 0 < ρ n) → r.shown ρ [] = f (a.amounts ρ) := by
  have key : ∀ (d : ND ℝ) (u : List Term), (∀ t ∈ u, t.coeff = 1) → ∀ ρ : Name → ℝ, (∀ n, 0 < ρ n) →
      f (elements d) * value ρ u = f ((allPositions d.shape).map (fun p => d.spread p * value ρ u)) := by
    intro d u hu ρ hρ
    rw [← hf _ _ (value_pos hρ hu), elements_positions, List.map_map]
    rfl
  cases a with
  | number x => cases h
  | object k o =>
    cases h
    exact ⟨rfl, rfl, rfl, fun ρ hρ => key o.data o.unit hc ρ hρ⟩
  | array c =>
    cases h
    exact ⟨rfl, rfl, rfl, fun ρ hρ => key c.arr.data.data c.arr.unit hc ρ hρ⟩

theorem foldr_max_scale {c : ℝ} (hc : 0 < c) (l : List ℝ) (x : ℝ) :
    (l.map (· * c)).foldr max (x * c) = l.foldr max x * c ∧ (l.map (· * c)).foldr min (x * c) = l.foldr min x * c := by
  induction l with
  | nil => exact ⟨rfl, rfl⟩
  | cons y l ih =>
    simp only [List.map_cons, List.foldr_cons, ih.1, ih.2]
    exact ⟨(max_mul_of_nonneg _ _ hc.le).symm, (min_mul_of_nonneg _ _ hc.le).symm⟩

/-- The reductions for which this holds: the sum, the mean, the largest and the smallest element. -/
theorem c36_reductions (c : ℝ) (hc : 0 < c) (l : List ℝ) : (l.map (· * c)).sum = l.sum * c ∧
    (l.map (· * c)).sum / (l.map (· * c)).length = l.sum / l.length * c ∧
    (l.map (· * c)).foldr max ((l.map (· * c)).headD 0) = l.foldr max (l.headD 0) * c ∧
    (l.map (· * c)).foldr min ((l.map (· * c)).headD 0) = l.foldr min (l.headD 0) * c := by
  have h1 : (l.map (· * c)).sum = l.sum * c := by simpa using List.sum_map_mul_right l id c
  have h2 : (l.map (· * c)).headD 0 = l.headD 0 * c := by cases l <;> simp
  rw [h2]
  exact ⟨h1, by rw [h1, List.length_map]; ring, (foldr_max_scale hc l _).1, (foldr_max_scale hc l _).2⟩

/-- The axes that remain after an operation on named dimensions. -/
theorem reduceAxis_ok {K : Type} [Field K] [DecidableEq K] {g : Named κ K → Except Numeric.Err (Named κ K)} {a : Arr κ ν K}
    {d : Named κ K} (hg : g a.arr.data = .ok d) (hd : WellNamed d) (hs : ∀ k ∈ d.dims, k ∈ a.axes.keys) :
    ∃ c, reduceAxis g a = .ok (.array c) ∧ c.WF ∧ c.axes.keys = d.dims ∧ c.arr.unit = a.arr.unit ∧
      (∀ k ∈ d.dims, c.axes.get? k = a.axes.get? k) ∧ c.arr.raw = ⟨d.data, d.dims, false⟩ ∧ c.arr.scale = 1 := by
  obtain ⟨axes, h1, h2, h3⟩ := Axes.lookupAll_ok a.axes d.dims hs
  have hu : Container.unique d.dims = d.dims := dimensions_nodup hd.nodup
  rw [hu] at h2
  have hdk : dimensions axes.keys = d.dims := by rw [h2]; exact hu
  refine ⟨⟨PArr.new ⟨d.data, d.dims, false⟩ a.arr.unit, axes⟩, ?_, ⟨⟨hd.nodup, hd.length⟩, h2⟩, h2, rfl, ?_, rfl, rfl⟩
  · unfold reduceAxis
    rw [hg]
    simp only [h1]
    unfold newArray arrayFactory
    rw [hdk, if_pos (show d.dims.length = d.data.ndim from hd.length)]
  · intro k hk
    rw [h3, if_pos hk]

/-- **C36**, `numpy.sum(x, axis=axis)` and `numpy.mean(x, axis=axis)` for arrays of at least two dimensions: the result has
the unit of `x` and the axes of `x` except the given one, and it holds the sums (means) of the amounts of `x` along that
axis. -/
theorem c36_reduce_axis (f : List ℝ → ℝ) (hf : ∀ c l, 0 < c → f (l.map (· * c)) = f l * c) (a : Arr κ ν ℝ) (wa : a.WF)
    (hc : ∀ t ∈ a.arr.unit, t.coeff = 1) (axis : ℤ) (k : Nat) (d : κ) (n : Nat) (_h2 : 2 ≤ a.axes.keys.length)
    (hk : axisIndex a.axes.keys.length axis = .ok k) (hd : a.axes.keys[k]? = some d) (hn : a.arr.raw.sizeAlong d = some n) :
    ∀ g ∈ [fun x => sumAxis f x axis none, fun x => meanAxis f x axis none], ∃ c, reduceAxis g a = .ok (.array c) ∧ c.WF ∧
      c.arr.unit = a.arr.unit ∧ c.axes.keys = a.axes.keys.filter (fun n => decide (n ≠ d)) ∧
      (∀ k ∈ c.axes.keys, c.axes.get? k = a.axes.get? k) ∧
      ∀ ρ : Name → ℝ, (∀ n, 0 < ρ n) → ∀ pos, c.arr.raw.Has pos → c.amount ρ pos =
        f ((List.range n).map (fun i => a.arr.data.at (Function.update pos d i) * value ρ a.arr.unit)) := by
  intro g hg
  rw [wa.axes] at hk hd
  obtain ⟨r1, r2⟩ := c69_reduce_partial f a.arr.data (data_wellNamed wa.named) axis k d hk hd
  have : ∃ r, g a.arr.data = .ok r ∧ ReducesAlong f a.arr.data d r := by
    simp only [List.mem_cons, List.not_mem_nil, or_false] at hg
    rcases hg with rfl | rfl
    · exact r1
    · exact r2
  obtain ⟨r, h1, h2⟩ := this
  have hdims : r.dims = a.axes.keys.filter (fun n => decide (n ≠ d)) := by rw [wa.axes]; exact h2.dims
  obtain ⟨c, e1, e2, e3, e4, e5, e6, e7⟩ := reduceAxis_ok (a := a) h1 h2.named
    (fun k hk => by rw [hdims] at hk; exact (List.mem_filter.1 hk).1)
  refine ⟨c, e1, e2, e4, by rw [e3, hdims], fun k hk => e5 k (by rwa [← e3]), fun ρ hρ pos hp => ?_⟩
  have hp' : r.Has pos := by rw [e6] at hp; exact hp
  have h3 : c.arr.data.read pos = r.at pos := by
    rw [read_of_has _ (show c.arr.data.Has pos from hp)]
    unfold PArr.data
    rw [e6, e7]
    exact one_mul _
  have hn' : a.arr.data.sizeAlong d = some n := hn
  unfold Arr.amount
  rw [h3, h2.element pos hp', e4, Named.along, hn', ← hf _ _ (value_pos hρ hc), List.map_map]
  rfl

/-- **C36**, `numpy.cumsum(x, axis=axis)` for arrays: the result has the unit and the axes of `x`, and holds the sums of the
amounts up to each position. -/
theorem c36_cumsum (f : List ℝ → ℝ) (hf : ∀ c l, 0 < c → f (l.map (· * c)) = f l * c) (a : Arr κ ν ℝ) (wa : a.WF)
    (hc : ∀ t ∈ a.arr.unit, t.coeff = 1) (axis : ℤ) (k : Nat) (d : κ)
    (hk : axisIndex a.axes.keys.length axis = .ok k) (hd : a.axes.keys[k]? = some d) :
    ∃ c, reduceAxis (fun x => cumsumAxis f x axis) a = .ok (.array c) ∧ c.WF ∧
      c.arr.unit = a.arr.unit ∧ c.axes.keys = a.axes.keys ∧ (∀ k, c.axes.get? k = a.axes.get? k) ∧
      ∀ ρ : Name → ℝ, (∀ n, 0 < ρ n) → ∀ pos, c.arr.raw.Has pos → c.amount ρ pos =
        f ((List.range (pos d + 1)).map (fun i => a.arr.data.at (Function.update pos d i) * value ρ a.arr.unit)) := by
  rw [wa.axes] at hk hd
  obtain ⟨r, h1, h2⟩ := c69_cumsum f a.arr.data (data_wellNamed wa.named) axis k d hk hd
  have hdims : r.dims = a.axes.keys := by rw [wa.axes]; exact h2.dims
  obtain ⟨c, e1, e2, e3, e4, e5, e6, e7⟩ := reduceAxis_ok (g := fun x => cumsumAxis f x axis) (a := a) h1 h2.named
    (fun k hk => by rwa [hdims] at hk)
  refine ⟨c, e1, e2, e4, by rw [e3, hdims], fun k => ?_, fun ρ hρ pos hp => ?_⟩
  · by_cases hk : k ∈ r.dims
    · exact e5 k hk
    · rw [Dict.get?_eq_none.2 (by rw [e3]; exact hk), Dict.get?_eq_none.2 (by rw [← hdims]; exact hk)]
  have hp' : r.Has pos := by rw [e6] at hp; exact hp
  have h3 : c.arr.data.read pos = r.at pos := by
    rw [read_of_has _ (show c.arr.data.Has pos from hp)]
    unfold PArr.data
    rw [e6, e7]
    exact one_mul _
  unfold Arr.amount
  rw [h3, h2.element pos hp', e4, ← hf _ _ (value_pos hρ hc), List.map_map]
  rfl

/-- an array with axes x and y, and its second axis -/
example (p : Nat → ℝ) (v w : ν) : (⟨PArr.new ⟨⟨[2, 3], p⟩, ["x", "y"], false⟩ [⟨1, c! "m", 1⟩], [("x", v), ("y", w)]⟩ :
    Arr String ν ℝ).WF ∧ axisIndex (Dict.keys [("x", v), ("y", w)]).length (-1) = .ok 1 ∧
    (Dict.keys [("x", v), ("y", w)])[1]? = some "y" := ⟨⟨⟨by simp [PArr.new], rfl⟩, rfl⟩, rfl, rfl⟩

/-! ## Violations -/

/-- A scalar. -/
def scalarOf {K : Type} (x : K) (u : List Term) : Operand κ ν K := .object .scalar ⟨⟨[], fun _ => x⟩, u⟩

theorem shown_scalar (ρ : Name → ℝ) (x : ℝ) (u : List Term) (p : List Nat) :
    (scalarOf x u : Operand κ ν ℝ).shown ρ p = x * value ρ u := rfl

/-- **C36** is violated by the exponent 0: the result keeps the unit, so that `(5 m) ** 0` is `1 m`, not 1. -/
theorem c36_power_zero (f : ℝ → ℝ → ℝ) :
    ∃ r : Operand κ ν ℝ, exponential f (fun x q => x ^ (q : ℝ)) (scalarOf 5 [⟨1, c! "m", 1⟩]) (.number false 0) = .ok r ∧
      r.unit = [⟨1, c! "m", 1⟩] ∧ ∀ ρ, r.shown ρ [] = ρ (c! "m") := by
  have hu : exprEq (Exponent.number (κ := κ) (ν := ν) (K := ℝ) false 0).unit unitless = true := by
    show exprEq unitless unitless = true
    decide +kernel
  refine ⟨scalarOf ((5 : ℝ) ^ ((0 : ℚ) : ℝ)) [⟨1, c! "m", 1⟩], ?_, rfl, fun ρ => ?_⟩
  · unfold exponential
    rw [if_pos hu]
    simp only [scalarOf, Operand.unit, powUnits, c71_pow_zero.1]
    rfl
  · rw [shown_scalar, value_symbol ρ (by decide)]
    simp

theorem km_over_m : unitDiv [.mks, .cgs] [⟨1, c! "km", 1⟩] [⟨1, c! "m", 1⟩] = .ok [⟨1, c! "km", 1⟩, ⟨1, c! "m", -1⟩] := by
  decide +kernel

/-- **C36** is violated by `//`, which divides the numbers whatever their units: `(5 km) // (3 m)` shows 1000, but the
quotient of the amounts, rounded down, is 1666.  The same for `%`, which moreover gives the remainder the unit of the
quotient: `(5 km) % (3 m)` shows 2000, but the remainder is 2 (metres). -/
theorem c36_floordiv_not (ρ : Name → ℝ) (h1 : ρ (c! "km") = 1000) (h2 : ρ (c! "m") = 1) :
    (∃ r : Operand κ ν ℝ, multiplicative [.mks, .cgs] false (fun x y : ℝ => (⌊x / y⌋ : ℝ)) (scalarOf 5 [⟨1, c! "km", 1⟩])
      (scalarOf 3 [⟨1, c! "m", 1⟩]) = .ok r ∧ r.shown ρ [] = 1000 ∧
      (⌊(scalarOf 5 [⟨1, c! "km", 1⟩] : Operand κ ν ℝ).shown ρ [] /
        (scalarOf 3 [⟨1, c! "m", 1⟩] : Operand κ ν ℝ).shown ρ []⌋ : ℝ) = 1666) ∧
    (∃ r : Operand κ ν ℝ, multiplicative [.mks, .cgs] false (fun x y : ℝ => x - ⌊x / y⌋ * y) (scalarOf 5 [⟨1, c! "km", 1⟩])
      (scalarOf 3 [⟨1, c! "m", 1⟩]) = .ok r ∧ r.unit = [⟨1, c! "km", 1⟩, ⟨1, c! "m", -1⟩] ∧ r.shown ρ [] = 2000) := by
  have hv : value ρ [⟨1, c! "km", 1⟩, ⟨1, c! "m", -1⟩] = 1000 := by
    simp [value, Term.val, h1, h2, show (c! "km") ≠ one by decide, show (c! "m") ≠ one by decide]
  have hz : ∀ f : ℝ → ℝ → ℝ, multiplicative [.mks, .cgs] false f (scalarOf 5 [⟨1, c! "km", 1⟩] : Operand κ ν ℝ)
      (scalarOf 3 [⟨1, c! "m", 1⟩]) = .ok (scalarOf (f 5 3) [⟨1, c! "km", 1⟩, ⟨1, c! "m", -1⟩]) := by
    intro f
    simp only [multiplicative, scalarOf, Operand.unit, combineUnits, Bool.false_eq_true, if_false, km_over_m]
    rfl
  have hf : ⌊(5 : ℝ) / 3⌋ = 1 := by rw [Int.floor_eq_iff]; norm_num
  refine ⟨⟨_, hz _, ?_, ?_⟩, ⟨_, hz _, rfl, ?_⟩⟩
  · rw [shown_scalar, hv, hf]; norm_num
  · rw [shown_scalar, shown_scalar, value_symbol ρ (by decide), value_symbol ρ (by decide), h1, h2]
    have : ⌊(5 * 1000 : ℝ) / (3 * 1)⌋ = 1666 := by rw [Int.floor_eq_iff]; norm_num
    rw [this]; norm_num
  · rw [shown_scalar, hv, hf]; norm_num

/-- `numpy.power(x, p)` for a vector or tensor and a number (`physical/_operations.py` 410-424): the numpy array of the
powers, without the unit. -/
def numpyPower {K : Type} (g : K → ℚ → K) (o : Obj K) (p : ℚ) : ND K := o.data.map (fun x => g x p)

/-- **C36** is violated by `numpy.power`: the result depends on the unit in which the same length is given. -/
theorem c36_numpy_power_not (ρ : Name → ℝ) (h : ρ (c! "km") = 1000 * ρ (c! "m")) :
    ∃ x y : Obj ℝ, (∀ p, (Operand.object .vector x : Operand κ ν ℝ).shown ρ p =
        (Operand.object .vector y : Operand κ ν ℝ).shown ρ p) ∧
      (numpyPower (fun x q => x ^ (q : ℝ)) x 2).get [0] ≠ (numpyPower (fun x q => x ^ (q : ℝ)) y 2).get [0] := by
  refine ⟨⟨⟨[1], fun _ => 1⟩, [⟨1, c! "km", 1⟩]⟩, ⟨⟨[1], fun _ => 1000⟩, [⟨1, c! "m", 1⟩]⟩, fun p => ?_, ?_⟩
  · show (1 : ℝ) * value ρ [⟨1, c! "km", 1⟩] = 1000 * value ρ [⟨1, c! "m", 1⟩]
    rw [value_symbol ρ (by decide), value_symbol ρ (by decide), h, one_mul]
  · show (1 : ℝ) ^ ((2 : ℚ) : ℝ) ≠ 1000 ^ ((2 : ℚ) : ℝ)
    norm_num

/-- **C36** is violated by powers of arrays: they are combined by position, and the axis of the exponent is forgotten. -/
theorem c36_power_axes (x y : String) (v w : ν) (p q : Nat → ℝ) :
    ∃ r : Operand String ν ℝ, exponential (· ^ ·) (fun x q => x ^ (q : ℝ))
      (.array ⟨PArr.new ⟨⟨[2], p⟩, [x], false⟩ unitless, [(x, v)]⟩) (.array ⟨PArr.new ⟨⟨[2], q⟩, [y], false⟩ unitless, [(y, w)]⟩)
      = .ok r ∧ r.axes? = some [(x, v)] := by
  have hu : exprEq unitless unitless = true := by decide +kernel
  obtain ⟨z, hz, hz2⟩ : ∃ z, ND.zip (fun a b : ℝ => a ^ b) (PArr.new (⟨⟨[2], p⟩, [x], false⟩ : Named String ℝ) unitless).data.data
      (PArr.new (⟨⟨[2], q⟩, [y], false⟩ : Named String ℝ) unitless).data.data = .ok z ∧ z.shape = [2] := ⟨_, rfl, rfl⟩
  refine ⟨.array ⟨PArr.new ⟨z, [x], false⟩ unitless, [(x, v)]⟩, ?_, rfl⟩
  unfold exponential
  refine (if_pos hu).trans ?_
  refine (if_pos hu).trans ?_
  simp only [zipData, hz]
  unfold newArray arrayFactory
  have hd : dimensions (Dict.keys [(x, v)]) = [x] := rfl
  rw [hd, if_pos (by show 1 = z.shape.length; rw [hz2]; rfl)]

end Eprem.Physical
