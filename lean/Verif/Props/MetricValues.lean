import Verif.Spec.MetricValues
import Verif.Props.Metric

/-! # The values of conversions (C68) -/

namespace Eprem.Metric

open Eprem

/-! ## Mechanical units -/

set_option maxHeartbeats 100000000 in
/-- **C68**, mechanical units with any prefixes.  However the conversion is found, its factor is exactly the quotient of
the sizes that the definitions of the units give them. -/
theorem c68_mechanical (nodes : List Name) (u v : Name) (e e' : Entry) (a b f : ℚ)
    (hu : namedUnits.getItem u = .ok e) (hv : namedUnits.getItem v = .ok e')
    (ha : Dict.get? siSizes e.base.symbol = some a) (hb : Dict.get? siSizes e'.base.symbol = some b)
    (hf : convertAsStrings (realEnv nodes) u v = some f) :
    f = e.prefix_.factor * a / (e'.prefix_.factor * b) := by
  have key : ∀ {n e}, namedUnits.getItem n = .ok e → named n = some e := by
    intro n e h
    rw [c22_lookup] at h
    split at h
    next e' he => cases h; exact he
    next => cases h
  have same : ∀ (x : Entry) a, Dict.get? siSizes x.base.symbol = some a → baseSize x.base = a := by
    intro x a h
    have hall : ∀ p ∈ siSizes, Dict.get? baseSizes p.1 = some p.2 := by decide +kernel
    have := hall (x.base.symbol, a) ((Dict.get?_eq_some (d := siSizes) (by show (siSizes.map Prod.fst).Nodup; decide +kernel)).1 h)
    unfold baseSize
    rw [this]; rfl
  rw [strings_sound (real_sizes nodes) conversions_nodup hf]
  unfold size
  rw [key hu, key hv]
  simp only [same _ _ ha, same _ _ hb]

/-- a megajoule is 10^13 ergs -/
example : namedUnits.getItem c! "MJ" = .ok ⟨⟨c! "M", c! "mega", 10 ^ 6⟩, ⟨c! "J", c! "joule", c! "energy"⟩⟩ ∧
    namedUnits.getItem c! "erg" = .ok ⟨basePrefix, ⟨c! "erg", c! "erg", c! "energy"⟩⟩ ∧
    Dict.get? siSizes c! "J" = some 1 ∧ Dict.get? siSizes c! "erg" = some (1 / 10 ^ 7) ∧
    convertAsStrings (realEnv [c! "J", c! "erg"]) c! "MJ" c! "erg" = some (10 ^ 13) := by
  have h1 : named c! "MJ" = some ⟨⟨c! "M", c! "mega", 10 ^ 6⟩, ⟨c! "J", c! "joule", c! "energy"⟩⟩ := by decide +kernel
  have h2 : named c! "erg" = some ⟨basePrefix, ⟨c! "erg", c! "erg", c! "energy"⟩⟩ := by decide +kernel
  rw [c22_lookup, c22_lookup, h1, h2]
  exact ⟨rfl, rfl, by decide +kernel, by decide +kernel, by decide +kernel⟩

/-! ## The listed conversions -/

/-- The conversions whose listed factors are wrong. -/
def wrongFactors : List (Name × Name) := [(c! "C", c! "statC"), (c! "A", c! "statA"), (c! "V", c! "statV"),
  (c! "S", c! "cm / s"), (c! "ohm", c! "s / cm"), (c! "H", c! "s^2 / cm"), (c! "H / m", c! "1")]

/-- The value of a conversion by definition. -/
def Reference (u v : Name) (x : ℝ) : Prop :=
  (∃ g, ((u, v), g) ∈ gaussian ∧ x = g.factor) ∨ ((u, v), x) ∈ defined

theorem near_of {w v : ℝ} (h1 : v * (499 / 500) ≤ w) (h2 : w ≤ v * (501 / 500)) : Near w v := by
  unfold Near
  rw [abs_le]; constructor <;> linarith

theorem piFloat_near : ∃ d : ℝ, (piFloat : ℝ) = Real.pi * d ∧ 1 - 1 / 10 ^ 6 ≤ d ∧ d ≤ 1 + 1 / 10 ^ 6 := by
  have h1 := Real.pi_gt_d20
  have h2 := Real.pi_lt_d20
  have hp := Real.pi_pos
  refine ⟨piFloat / Real.pi, by field_simp, ?_, ?_⟩
  · rw [le_div_iff₀ hp]; unfold piFloat; push_cast; norm_num; linarith
  · rw [div_le_iff₀ hp]; unfold piFloat; push_cast; norm_num; linarith

theorem of_gaussian {p : (Name × Name) × ℚ} {g : Gaussian} (i : Nat) (hi : gaussian[i]? = some (p.1, g))
    (h : Near (p.2 : ℝ) g.factor) : ∃ x, Reference p.1.1 p.1.2 x ∧ Near (p.2 : ℝ) x :=
  ⟨_, .inl ⟨g, List.mem_of_getElem? hi, rfl⟩, h⟩

theorem of_defined {p : (Name × Name) × ℚ} {x : ℝ} (i : Nat) (hi : defined[i]? = some (p.1, x))
    (h : Near (p.2 : ℝ) x) : ∃ x, Reference p.1.1 p.1.2 x ∧ Near (p.2 : ℝ) x :=
  ⟨_, .inr (List.mem_of_getElem? hi), h⟩

theorem near_scaled {w v : ℝ} {d : ℝ} (k : ℝ) (hv : 0 < v) (hw : w = v * (k * d)) (h1 : 499 / 500 ≤ k * d)
    (h2 : k * d ≤ 501 / 500) : Near w v := by
  rw [hw]
  exact near_of (mul_le_mul_of_nonneg_left h1 hv.le) (mul_le_mul_of_nonneg_left h2 hv.le)

set_option maxHeartbeats 100000000 in
theorem listed_rows : ∀ p ∈ conversionTable, p.1 ∉ wrongFactors → ∃ x, Reference p.1.1 p.1.2 x ∧ Near (p.2 : ℝ) x := by
  obtain ⟨d, hd, hd1, hd2⟩ := piFloat_near
  have hp := Real.pi_pos
  simp only [conversionTable, List.forall_mem_cons]
  refine ⟨
    fun _ => of_defined (p := ((c! "Rs", c! "m"), 696000000)) 5 rfl ?_,
    fun _ => of_gaussian (p := ((c! "F", c! "cm"), lightSpeed ^ 2 / 10 ^ 9)) 11 rfl ?_,
    fun h => absurd (by decide +kernel) h,
    fun _ => of_defined (p := ((c! "e", c! "C"), 16022 / 10 ^ 23)) 6 rfl ?_,
    fun h => absurd (by decide +kernel) h,
    fun h => absurd (by decide +kernel) h,
    fun _ => of_gaussian (p := ((c! "Gy", c! "erg / g"), 10 ^ 4)) 4 rfl ?_,
    fun _ => of_gaussian (p := ((c! "J", c! "erg"), 10 ^ 7)) 1 rfl ?_,
    fun _ => of_defined (p := ((c! "eV", c! "J"), 16022 / 10 ^ 23)) 7 rfl ?_,
    fun _ => of_gaussian (p := ((c! "N", c! "dyn"), 10 ^ 5)) 0 rfl ?_,
    fun h => absurd (by decide +kernel) h,
    fun h => absurd (by decide +kernel) h,
    fun _ => of_defined (p := ((c! "au", c! "m"), 149597870700)) 4 rfl ?_,
    fun _ => of_gaussian (p := ((c! "Wb", c! "Mx"), 10 ^ 8)) 13 rfl ?_,
    fun _ => of_gaussian (p := ((c! "T", c! "G"), 10 ^ 4)) 14 rfl ?_,
    fun _ => of_gaussian (p := ((c! "A / m", c! "Oe"), 4 * piFloat / 10 ^ 3)) 16 rfl ?_,
    fun _ => of_defined (p := ((c! "nuc", c! "kg"), 16605 / 10 ^ 31)) 8 rfl ?_,
    fun _ => of_defined (p := ((c! "amu", c! "kg"), 16605 / 10 ^ 31)) 9 rfl ?_,
    fun h => absurd (by decide +kernel) h,
    fun _ => of_gaussian (p := ((c! "F / m", c! "1"), 36 * piFloat * 10 ^ 9)) 18 rfl ?_,
    fun _ => of_defined (p := ((c! "rad", c! "deg"), 180 / piFloat)) 3 rfl ?_,
    fun h => absurd (by decide +kernel) h,
    fun _ => of_gaussian (p := ((c! "W", c! "erg / s"), 10 ^ 7)) 2 rfl ?_,
    fun _ => of_gaussian (p := ((c! "Pa", c! "dyn / cm^2"), 10)) 3 rfl ?_,
    fun _ => of_defined (p := ((c! "Bq", c! "Ci"), 1 / 37000000000)) 10 rfl ?_,
    fun _ => of_gaussian (p := ((c! "A / Wb", c! "1 / cm"), 4 * piFloat / 10 ^ 9)) 19 rfl ?_,
    fun _ => of_defined (p := ((c! "s", c! "min"), 1 / 60)) 0 rfl ?_,
    fun _ => of_defined (p := ((c! "s", c! "h"), 1 / 3600)) 1 rfl ?_,
    fun _ => of_defined (p := ((c! "s", c! "d"), 1 / 86400)) 2 rfl ?_,
    fun _ => of_gaussian (p := ((c! "Wb / m", c! "G * cm"), 10 ^ 6)) 15 rfl ?_,
    fun _ => of_gaussian (p := ((c! "kg / (m * s)", c! "P"), 10)) 5 rfl ?_,
    fun _ h => absurd h (List.not_mem_nil)⟩
  · refine near_of ?_ ?_ <;> norm_num
  · refine near_of ?_ ?_ <;> simp only [Gaussian.factor, lightCgs, lightSpeed] <;> norm_num
  · refine near_of ?_ ?_ <;> norm_num
  · refine near_of ?_ ?_ <;> simp only [Gaussian.factor, lightCgs, lightSpeed] <;> norm_num
  · refine near_of ?_ ?_ <;> simp only [Gaussian.factor, lightCgs, lightSpeed] <;> norm_num
  · refine near_of ?_ ?_ <;> norm_num
  · refine near_of ?_ ?_ <;> simp only [Gaussian.factor, lightCgs, lightSpeed] <;> norm_num
  · refine near_of ?_ ?_ <;> norm_num
  · refine near_of ?_ ?_ <;> simp only [Gaussian.factor, lightCgs, lightSpeed] <;> norm_num
  · refine near_of ?_ ?_ <;> simp only [Gaussian.factor, lightCgs, lightSpeed] <;> norm_num
  · refine near_scaled (d := d) 1 ?_ ?_ ?_ ?_
    · simp only [Gaussian.factor, lightCgs]; positivity
    · simp only [Gaussian.factor, lightCgs]; push_cast; rw [hd]; norm_num; try field_simp
      all_goals try norm_num
    · try (norm_num at hd1 hd2 ⊢; linarith)
    · try (norm_num at hd1 hd2 ⊢; linarith)
  · refine near_of ?_ ?_ <;> norm_num
  · refine near_of ?_ ?_ <;> norm_num
  · refine near_scaled (d := d) (36 * 10 ^ 20 / (4 * 29979245800 ^ 2)) ?_ ?_ ?_ ?_
    · simp only [Gaussian.factor, lightCgs]; positivity
    · simp only [Gaussian.factor, lightCgs]; push_cast; rw [hd]; norm_num; try field_simp
      all_goals try norm_num
    · try (norm_num at hd1 hd2 ⊢; linarith)
    · try (norm_num at hd1 hd2 ⊢; linarith)
  · refine near_scaled (d := 1 / d) 1 ?_ ?_ ?_ ?_
    · skip; positivity
    · skip; push_cast; rw [hd]; norm_num; try field_simp
      all_goals try norm_num
    · rw [one_mul, le_div_iff₀ (by norm_num at hd1; linarith)]; norm_num at hd2 ⊢; linarith
    · rw [one_mul, div_le_iff₀ (by norm_num at hd1; linarith)]; norm_num at hd1 ⊢; linarith
  · refine near_of ?_ ?_ <;> simp only [Gaussian.factor, lightCgs, lightSpeed] <;> norm_num
  · refine near_of ?_ ?_ <;> simp only [Gaussian.factor, lightCgs, lightSpeed] <;> norm_num
  · refine near_of ?_ ?_ <;> norm_num
  · refine near_scaled (d := d) 1 ?_ ?_ ?_ ?_
    · simp only [Gaussian.factor, lightCgs]; positivity
    · simp only [Gaussian.factor, lightCgs]; push_cast; rw [hd]; norm_num; try field_simp
      all_goals try norm_num
    · try (norm_num at hd1 hd2 ⊢; linarith)
    · try (norm_num at hd1 hd2 ⊢; linarith)
  · refine near_of ?_ ?_ <;> norm_num
  · refine near_of ?_ ?_ <;> norm_num
  · refine near_of ?_ ?_ <;> norm_num
  · refine near_of ?_ ?_ <;> simp only [Gaussian.factor, lightCgs, lightSpeed] <;> norm_num
  · refine near_of ?_ ?_ <;> simp only [Gaussian.factor, lightCgs, lightSpeed] <;> norm_num

/-- **C68**, the listed conversions.  Every listed factor, except seven (`c68_wrong`), is the value of the conversion by
the definitions of its units, up to one part in five hundred (the package rounds physical constants). -/
theorem c68_listed_partial (u v : Name) (w : ℚ) (h : ((u, v), w) ∈ conversionTable) (hw : (u, v) ∉ wrongFactors) :
    ∃ x, Reference u v x ∧ Near (w : ℝ) x := listed_rows _ h hw

example : ((c! "J", c! "erg"), 10 ^ 7) ∈ conversionTable ∧ (c! "J", c! "erg") ∉ wrongFactors := by decide +kernel

/-- **C68** does not hold for seven listed conversions.  Where the speed of light in centimeters per second was used
instead of meters per second, a coulomb and an ampere are a hundred times too large, a volt a hundred times too small,
a siemens ten thousand times too large, an ohm and a henry ten thousand times too small; and the conversion of a henry
per meter is too large by the factor `π^2`. -/
theorem c68_wrong : ∀ p ∈ [((c! "C", c! "statC"), (100 : ℝ)), ((c! "A", c! "statA"), 100), ((c! "V", c! "statV"), 1 / 100),
      ((c! "S", c! "cm / s"), 10000), ((c! "ohm", c! "s / cm"), 1 / 10000), ((c! "H", c! "s^2 / cm"), 1 / 10000)],
    (∃ w g, (p.1, w) ∈ conversionTable ∧ (p.1, g) ∈ gaussian ∧ (w : ℝ) = p.2 * g.factor) := by
  simp only [List.forall_mem_cons]
  refine ⟨
    ⟨_, _, List.mem_of_getElem? (i := 2) rfl, List.mem_of_getElem? (i := 6) rfl, ?_⟩,
    ⟨_, _, List.mem_of_getElem? (i := 5) rfl, List.mem_of_getElem? (i := 7) rfl, ?_⟩,
    ⟨_, _, List.mem_of_getElem? (i := 21) rfl, List.mem_of_getElem? (i := 8) rfl, ?_⟩,
    ⟨_, _, List.mem_of_getElem? (i := 4) rfl, List.mem_of_getElem? (i := 10) rfl, ?_⟩,
    ⟨_, _, List.mem_of_getElem? (i := 10) rfl, List.mem_of_getElem? (i := 9) rfl, ?_⟩,
    ⟨_, _, List.mem_of_getElem? (i := 11) rfl, List.mem_of_getElem? (i := 12) rfl, ?_⟩,
    fun _ h => absurd h (List.not_mem_nil)⟩ <;> simp only [Gaussian.factor, lightCgs, lightSpeed] <;> norm_num

/-- **C68** does not hold for a henry per meter: `1e7 / 4*PI` is `π^2` times the value (almost ten). -/
theorem c68_permeability : ∃ w g, ((c! "H / m", c! "1"), w) ∈ conversionTable ∧ ((c! "H / m", c! "1"), g) ∈ gaussian ∧
    9 * g.factor < (w : ℝ) := by
  obtain ⟨d, hd, hd1, hd2⟩ := piFloat_near
  have h3 := Real.pi_gt_d2
  refine ⟨_, _, List.mem_of_getElem? (i := 18) rfl, List.mem_of_getElem? (i := 17) rfl, ?_⟩
  simp only [Gaussian.factor, lightCgs]
  push_cast
  rw [hd]
  norm_num
  field_simp
  norm_num at hd1 ⊢
  have h9 : (98 / 10 : ℝ) ≤ Real.pi ^ 2 := by norm_num at h3; nlinarith
  have := mul_le_mul h9 hd1 (by norm_num) (by positivity)
  nlinarith

end Eprem.Metric
