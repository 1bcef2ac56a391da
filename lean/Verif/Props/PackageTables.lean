import Verif.Props.Defaults

/-!
# The package's own tables of parameters and constants (C43, C44, C75–C77)
-/

namespace Eprem.Config

open Eprem Eprem.Symbolic Eprem.Metric

/-! ## Constants -/

/-- The value of a constant of the package. -/
noncomputable def constant (k : Str) : ℝ :=
  match computeConstant reals packageConstants packageTypes.get? 4 k with
  | .ok x => x
  | .error _ => 0

theorem convert_real {t : Ty} {s : Str} {q : Rat} (h : convert rationals t s = .num q) : convert reals t s = .num (q : ℝ) := by
  unfold convert at h ⊢
  cases t with
  | str => cases h
  | int =>
    simp only at h ⊢
    cases hp : pyInt s with
    | none => rw [hp] at h; cases h
    | some n => rw [hp] at h; cases h; simp
  | float =>
    simp only at h ⊢
    cases hp : readFloat s with
    | none => simp only [rationals, hp] at h; cases h
    | some n =>
      simp only [rationals, hp] at h
      cases h
      simp [reals, hp]
  | list =>
    simp only at h
    cases hs : stringlist rationals s with
    | none => rw [hs] at h; cases h
    | some l => rw [hs] at h; cases h

/-- A constant given by a number. -/
def numberOf (k : Str) : Option Rat :=
  match packageConstants.get? k with
  | none => none
  | some s => match packageTypes.get? k with
    | none => none
    | some t => if hasOperator s then none else match convert rationals t s with
      | .num q => some q
      | _ => none

theorem constant_number {k : Str} {q : Rat} (h : numberOf k = some q) (n : Nat) :
    computeConstant reals packageConstants packageTypes.get? (n + 1) k = .ok (q : ℝ) := by
  unfold numberOf at h
  cases h1 : packageConstants.get? k with
  | none => rw [h1] at h; cases h
  | some s =>
    rw [h1] at h
    simp only at h
    cases h2 : packageTypes.get? k with
    | none => rw [h2] at h; cases h
    | some t =>
      rw [h2] at h
      simp only at h
      cases h3 : hasOperator s with
      | true => rw [h3, if_pos rfl] at h; cases h
      | false =>
        rw [h3, if_neg (by simp)] at h
        cases h4 : convert rationals t s with
        | num q' =>
          rw [h4] at h
          cases h
          simp only [computeConstant, h1, h2, h3, convert_real h4]
          rfl
        | none => rw [h4] at h; cases h
        | text _ => rw [h4] at h; cases h
        | list _ => rw [h4] at h; cases h
        | single _ => rw [h4] at h; cases h

theorem constant_value {k : Str} {q : Rat} (h : numberOf k = some q) : constant k = q := by
  unfold constant
  rw [constant_number h]

/-- The terms of a constant given by an expression. -/
def termsOf (k : Str) : Option (List Term) :=
  match packageConstants.get? k with
  | none => none
  | some s => match packageTypes.get? k with
    | none => none
    | some _ => if hasOperator s then match exprOfString false s with
        | .ok ts => some ts
        | .error _ => none
      else none

theorem constant_terms {k : Str} {ts : List Term} (h : termsOf k = some ts) (n : Nat) :
    computeConstant reals packageConstants packageTypes.get? (n + 1) k =
      constantProduct reals (fun k => (packageConstants.get? k).isSome)
        (computeConstant reals packageConstants packageTypes.get? n) ts := by
  unfold termsOf at h
  cases h1 : packageConstants.get? k with
  | none => rw [h1] at h; cases h
  | some s =>
    rw [h1] at h
    simp only at h
    cases h2 : packageTypes.get? k with
    | none => rw [h2] at h; cases h
    | some t =>
      rw [h2] at h
      simp only at h
      cases h3 : hasOperator s with
      | false => rw [h3, if_neg (by simp)] at h; cases h
      | true =>
        rw [h3, if_pos rfl] at h
        cases h4 : exprOfString false s with
        | error e => rw [h4] at h; cases h
        | ok ts' =>
          rw [h4] at h
          cases h
          simp only [computeConstant, h1, h2, h3, h4]
          rfl

theorem realPowers : RealPowers reals := fun _ _ => rfl

theorem constant_product {k : Str} {ts : List Term} (h : termsOf k = some ts) {n : Nat} (hn : n + 1 ≤ 4)
    (hts : ∀ t ∈ ts, t.base ≠ Symbolic.one → (packageConstants.get? t.base).isSome = true ∧
      computeConstant reals packageConstants packageTypes.get? n t.base = .ok (constant t.base)) :
    computeConstant reals packageConstants packageTypes.get? (n + 1) k = .ok (value constant ts) ∧
      constant k = value constant ts := by
  have h1 : computeConstant reals packageConstants packageTypes.get? (n + 1) k = .ok (value constant ts) := by
    rw [constant_terms h]
    exact constantProduct_value realPowers (by decide +kernel) hts
  refine ⟨h1, ?_⟩
  conv_lhs => unfold constant
  rw [computeConstant_mono h1 4 hn]

theorem number_ok {k : Str} (h : (numberOf k).isSome = true) (n : Nat) : (packageConstants.get? k).isSome = true ∧
    computeConstant reals packageConstants packageTypes.get? (n + 1) k = .ok (constant k) := by
  obtain ⟨q, hq⟩ := Option.isSome_iff_exists.1 h
  refine ⟨?_, by rw [constant_number hq, constant_value hq]⟩
  unfold numberOf at hq
  cases h1 : packageConstants.get? k with
  | none => rw [h1] at hq; cases hq
  | some s => rfl

theorem constant_TAU : computeConstant reals packageConstants packageTypes.get? 2 (c! "TAU") = .ok (constant (c! "TAU")) ∧
    constant (c! "TAU") = value constant [⟨1, c! "AU", 1⟩, ⟨1, c! "C", -1⟩] := by
  have h := constant_product (k := c! "TAU") (ts := [⟨1, c! "AU", 1⟩, ⟨1, c! "C", -1⟩]) (n := 1)
    (by decide +kernel) (by omega) (by
      intro t ht hb
      simp only [List.mem_cons, List.not_mem_nil, or_false] at ht
      rcases ht with rfl | rfl
      · exact number_ok (by decide +kernel) 0
      · exact number_ok (by decide +kernel) 0)
  exact ⟨by rw [h.1, h.2], h.2⟩

theorem constant_DEG2RAD : computeConstant reals packageConstants packageTypes.get? 2 (c! "DEG2RAD") = .ok (constant (c! "DEG2RAD")) ∧
    constant (c! "DEG2RAD") = value constant [⟨1/180, Symbolic.one, 1⟩, ⟨1, c! "PI", 1⟩] := by
  have h := constant_product (k := c! "DEG2RAD") (ts := [⟨1/180, Symbolic.one, 1⟩, ⟨1, c! "PI", 1⟩]) (n := 1)
    (by decide +kernel) (by omega) (by
      intro t ht hb
      simp only [List.mem_cons, List.not_mem_nil, or_false] at ht
      rcases ht with rfl | rfl
      · exact absurd rfl hb
      · exact number_ok (by decide +kernel) 0)
  exact ⟨by rw [h.1, h.2], h.2⟩

theorem constant_RAD2DEG : computeConstant reals packageConstants packageTypes.get? 2 (c! "RAD2DEG") = .ok (constant (c! "RAD2DEG")) ∧
    constant (c! "RAD2DEG") = value constant [⟨180, Symbolic.one, 1⟩, ⟨1, c! "PI", -1⟩] := by
  have h := constant_product (k := c! "RAD2DEG") (ts := [⟨180, Symbolic.one, 1⟩, ⟨1, c! "PI", -1⟩]) (n := 1)
    (by decide +kernel) (by omega) (by
      intro t ht hb
      simp only [List.mem_cons, List.not_mem_nil, or_false] at ht
      rcases ht with rfl | rfl
      · exact absurd rfl hb
      · exact number_ok (by decide +kernel) 0)
  exact ⟨by rw [h.1, h.2], h.2⟩

theorem constant_RSAU : computeConstant reals packageConstants packageTypes.get? 2 (c! "RSAU") = .ok (constant (c! "RSAU")) ∧
    constant (c! "RSAU") = value constant [⟨1, c! "RSUN", 1⟩, ⟨1, c! "AU", -1⟩] := by
  have h := constant_product (k := c! "RSAU") (ts := [⟨1, c! "RSUN", 1⟩, ⟨1, c! "AU", -1⟩]) (n := 1)
    (by decide +kernel) (by omega) (by
      intro t ht hb
      simp only [List.mem_cons, List.not_mem_nil, or_false] at ht
      rcases ht with rfl | rfl
      · exact number_ok (by decide +kernel) 0
      · exact number_ok (by decide +kernel) 0)
  exact ⟨by rw [h.1, h.2], h.2⟩

theorem constant_FCONVERT : computeConstant reals packageConstants packageTypes.get? 2 (c! "FCONVERT") = .ok (constant (c! "FCONVERT")) ∧
    constant (c! "FCONVERT") = value constant [⟨1000000000000000019884624838656, Symbolic.one, 1⟩, ⟨1, c! "C", -4⟩] := by
  have h := constant_product (k := c! "FCONVERT") (ts := [⟨1000000000000000019884624838656, Symbolic.one, 1⟩, ⟨1, c! "C", -4⟩]) (n := 1)
    (by decide +kernel) (by omega) (by
      intro t ht hb
      simp only [List.mem_cons, List.not_mem_nil, or_false] at ht
      rcases ht with rfl | rfl
      · exact absurd rfl hb
      · exact number_ok (by decide +kernel) 0)
  exact ⟨by rw [h.1, h.2], h.2⟩

theorem constant_MHD_B_NORM : computeConstant reals packageConstants packageTypes.get? 2 (c! "MHD_B_NORM") = .ok (constant (c! "MHD_B_NORM")) ∧
    constant (c! "MHD_B_NORM") = value constant [⟨1, c! "C", 1⟩, ⟨1, c! "MHD_DENSITY_NORM", 1/2⟩, ⟨1, c! "MP", 1/2⟩] := by
  have h := constant_product (k := c! "MHD_B_NORM") (ts := [⟨1, c! "C", 1⟩, ⟨1, c! "MHD_DENSITY_NORM", 1/2⟩, ⟨1, c! "MP", 1/2⟩]) (n := 1)
    (by decide +kernel) (by omega) (by
      intro t ht hb
      simp only [List.mem_cons, List.not_mem_nil, or_false] at ht
      rcases ht with rfl | rfl | rfl
      · exact number_ok (by decide +kernel) 0
      · exact number_ok (by decide +kernel) 0
      · exact number_ok (by decide +kernel) 0)
  exact ⟨by rw [h.1, h.2], h.2⟩

theorem constant_MZERO : computeConstant reals packageConstants packageTypes.get? 2 (c! "MZERO") = .ok (constant (c! "MZERO")) ∧
    constant (c! "MZERO") = value constant [⟨1, c! "C", 2⟩, ⟨1, c! "MP", 1⟩, ⟨1, c! "GEV", -1⟩] := by
  have h := constant_product (k := c! "MZERO") (ts := [⟨1, c! "C", 2⟩, ⟨1, c! "MP", 1⟩, ⟨1, c! "GEV", -1⟩]) (n := 1)
    (by decide +kernel) (by omega) (by
      intro t ht hb
      simp only [List.mem_cons, List.not_mem_nil, or_false] at ht
      rcases ht with rfl | rfl | rfl
      · exact number_ok (by decide +kernel) 0
      · exact number_ok (by decide +kernel) 0
      · exact number_ok (by decide +kernel) 0)
  exact ⟨by rw [h.1, h.2], h.2⟩

theorem constant_DAY : computeConstant reals packageConstants packageTypes.get? 3 (c! "DAY") = .ok (constant (c! "DAY")) ∧
    constant (c! "DAY") = value constant [⟨1/86400, Symbolic.one, 1⟩, ⟨1, c! "TAU", 1⟩] := by
  have h := constant_product (k := c! "DAY") (ts := [⟨1/86400, Symbolic.one, 1⟩, ⟨1, c! "TAU", 1⟩]) (n := 2)
    (by decide +kernel) (by omega) (by
      intro t ht hb
      simp only [List.mem_cons, List.not_mem_nil, or_false] at ht
      rcases ht with rfl | rfl
      · exact absurd rfl hb
      · exact ⟨by decide +kernel, constant_TAU.1⟩)
  exact ⟨by rw [h.1, h.2], h.2⟩

theorem constant_OM : computeConstant reals packageConstants packageTypes.get? 3 (c! "OM") = .ok (constant (c! "OM")) ∧
    constant (c! "OM") = value constant [⟨1, c! "AU", 1⟩, ⟨1, c! "MHD_B_NORM", 1⟩, ⟨1, c! "Q", 1⟩, ⟨1, c! "MP", -1⟩, ⟨1, c! "C", -2⟩] := by
  have h := constant_product (k := c! "OM") (ts := [⟨1, c! "AU", 1⟩, ⟨1, c! "MHD_B_NORM", 1⟩, ⟨1, c! "Q", 1⟩, ⟨1, c! "MP", -1⟩, ⟨1, c! "C", -2⟩]) (n := 2)
    (by decide +kernel) (by omega) (by
      intro t ht hb
      simp only [List.mem_cons, List.not_mem_nil, or_false] at ht
      rcases ht with rfl | rfl | rfl | rfl | rfl
      · exact number_ok (by decide +kernel) 1
      · exact ⟨by decide +kernel, constant_MHD_B_NORM.1⟩
      · exact number_ok (by decide +kernel) 1
      · exact number_ok (by decide +kernel) 1
      · exact number_ok (by decide +kernel) 1)
  exact ⟨by rw [h.1, h.2], h.2⟩

/-- **C76**, the package: the constants given by numbers have these values. -/
theorem c76_package_numbers :
    constant (c! "AU") = 1.495978707e13 ∧
    constant (c! "C") = 2.99792458e10 ∧
    constant (c! "EV") = 1.6022e-12 ∧
    constant (c! "F") = 0 ∧
    constant (c! "GEV") = 1.6022e-3 ∧
    constant (c! "HALF_PI") = 1.5707963267948966 ∧
    constant (c! "LARGEFLOAT") = 1.0e33 ∧
    constant (c! "LARGEINT") = 2147483647 ∧
    constant (c! "MAX_STRING_SIZE") = 240 ∧
    constant (c! "MEV") = 1.6022e-6 ∧
    constant (c! "MHD_COUPLED") = 1 ∧
    constant (c! "MHD_DEFAULT") = 0 ∧
    constant (c! "MHD_DENSITY_NORM") = 1.0 ∧
    constant (c! "MP") = 1.6726e-24 ∧
    constant (c! "PI") = 3.141592653589793 ∧
    constant (c! "Q") = 4.80320425e-10 ∧
    constant (c! "RSUN") = 6.96e10 ∧
    constant (c! "SMALLFLOAT") = 1.0e-33 ∧
    constant (c! "T") = 1 ∧
    constant (c! "THRESH") = 0.025 ∧
    constant (c! "TWO_PI") = 6.283185307179586 ∧
    constant (c! "VOLT") = 0.33333e-2 := by
  refine ⟨?_, ?_, ?_, ?_, ?_, ?_, ?_, ?_, ?_, ?_, ?_, ?_, ?_, ?_, ?_, ?_, ?_, ?_, ?_, ?_, ?_, ?_⟩
  · rw [constant_value (q := 14959787070000) (by decide +kernel)]; norm_num
  · rw [constant_value (q := 29979245800) (by decide +kernel)]; norm_num
  · rw [constant_value (q := 8011 / 5000000000000000) (by decide +kernel)]; norm_num
  · rw [constant_value (q := 0) (by decide +kernel)]; norm_num
  · rw [constant_value (q := 8011 / 5000000) (by decide +kernel)]; norm_num
  · rw [constant_value (q := 7853981633974483 / 5000000000000000) (by decide +kernel)]; norm_num
  · rw [constant_value (q := 1000000000000000000000000000000000) (by decide +kernel)]; norm_num
  · rw [constant_value (q := 2147483647) (by decide +kernel)]; norm_num
  · rw [constant_value (q := 240) (by decide +kernel)]; norm_num
  · rw [constant_value (q := 8011 / 5000000000) (by decide +kernel)]; norm_num
  · rw [constant_value (q := 1) (by decide +kernel)]; norm_num
  · rw [constant_value (q := 0) (by decide +kernel)]; norm_num
  · rw [constant_value (q := 1) (by decide +kernel)]; norm_num
  · rw [constant_value (q := 8363 / 5000000000000000000000000000) (by decide +kernel)]; norm_num
  · rw [constant_value (q := 3141592653589793 / 1000000000000000) (by decide +kernel)]; norm_num
  · rw [constant_value (q := 19212817 / 40000000000000000) (by decide +kernel)]; norm_num
  · rw [constant_value (q := 69600000000) (by decide +kernel)]; norm_num
  · rw [constant_value (q := 1 / 1000000000000000000000000000000000) (by decide +kernel)]; norm_num
  · rw [constant_value (q := 1) (by decide +kernel)]; norm_num
  · rw [constant_value (q := 1 / 40) (by decide +kernel)]; norm_num
  · rw [constant_value (q := 3141592653589793 / 500000000000000) (by decide +kernel)]; norm_num
  · rw [constant_value (q := 33333 / 10000000) (by decide +kernel)]; norm_num

/-- **C76**, the package: all other constants have the values of the expressions that define them.  The numeral `1.0e30` is
rounded to a double. -/
theorem c76_package_constants :
    constant (c! "TAU") = constant (c! "AU") / constant (c! "C") ∧
    constant (c! "DAY") = constant (c! "TAU") / (24 * 60 * 60) ∧
    constant (c! "DEG2RAD") = constant (c! "PI") / 180 ∧
    constant (c! "RAD2DEG") = 180 / constant (c! "PI") ∧
    constant (c! "RSAU") = constant (c! "RSUN") / constant (c! "AU") ∧
    constant (c! "FCONVERT") = (fl 1.0e30 : Rat) / (constant (c! "C") * constant (c! "C") * constant (c! "C") * constant (c! "C")) ∧
    constant (c! "MHD_B_NORM") = √(constant (c! "MP") * constant (c! "MHD_DENSITY_NORM")) * constant (c! "C") ∧
    constant (c! "MZERO") = constant (c! "MP") * constant (c! "C") * constant (c! "C") / constant (c! "GEV") ∧
    constant (c! "OM") = constant (c! "MHD_B_NORM") * constant (c! "Q") * constant (c! "AU") /
      (constant (c! "MP") * constant (c! "C") * constant (c! "C")) := by
  have hfl : fl 1.0e30 = 1000000000000000019884624838656 := by decide +kernel
  have hC : (0 : ℝ) ≤ constant (c! "C") := by rw [constant_value (q := 29979245800) (by decide +kernel)]; norm_num
  have hMP : (0 : ℝ) ≤ constant (c! "MP") := by rw [constant_value (q := 8363 / 5000000000000000000000000000) (by decide +kernel)]; norm_num
  have hone : ∀ c e : Rat, Term.val constant ⟨c, Symbolic.one, e⟩ = c := fun c e => by simp [Term.val]
  have hsym : ∀ (b : Str) (e : Rat), b ≠ Symbolic.one → Term.val constant ⟨1, b, e⟩ = constant b ^ (e : ℝ) :=
    fun b e hb => by simp [Term.val, hb]
  have hp1 : ∀ x : ℝ, x ^ (((1 : Rat)) : ℝ) = x := fun x => by simp
  have hn1 : ∀ x : ℝ, x ^ (((-1 : Rat)) : ℝ) = x⁻¹ := fun x => by
    rw [Rat.cast_neg, Rat.cast_one, Real.rpow_neg_one]
  have hp2 : ∀ x : ℝ, x ^ (((2 : Rat)) : ℝ) = x * x := fun x => by
    rw [Rat.cast_ofNat, Real.rpow_two, pow_two]
  have hn2 : ∀ x : ℝ, 0 ≤ x → x ^ (((-2 : Rat)) : ℝ) = (x * x)⁻¹ := fun x hx => by
    rw [Rat.cast_neg, Real.rpow_neg hx, Rat.cast_ofNat, Real.rpow_two, pow_two]
  have hn4 : ∀ x : ℝ, 0 ≤ x → x ^ (((-4 : Rat)) : ℝ) = (x * x * x * x)⁻¹ := fun x hx => by
    rw [Rat.cast_neg, Real.rpow_neg hx, Rat.cast_ofNat, ← Nat.cast_ofNat (R := ℝ), Real.rpow_natCast]; ring
  have hh : ∀ x : ℝ, x ^ (((1 / 2 : Rat)) : ℝ) = √x := fun x => by
    rw [Real.sqrt_eq_rpow]; norm_num
  refine ⟨?_, ?_, ?_, ?_, ?_, ?_, ?_, ?_, ?_⟩
  · rw [constant_TAU.2]; simp only [value, List.map_cons, List.map_nil, List.prod_cons, List.prod_nil]
    rw [hsym _ _ (by decide), hsym _ _ (by decide), hp1, hn1]; ring
  · rw [constant_DAY.2]; simp only [value, List.map_cons, List.map_nil, List.prod_cons, List.prod_nil]
    rw [hone, hsym _ _ (by decide), hp1]; push_cast; ring
  · rw [constant_DEG2RAD.2]; simp only [value, List.map_cons, List.map_nil, List.prod_cons, List.prod_nil]
    rw [hone, hsym _ _ (by decide), hp1]; push_cast; ring
  · rw [constant_RAD2DEG.2]; simp only [value, List.map_cons, List.map_nil, List.prod_cons, List.prod_nil]
    rw [hone, hsym _ _ (by decide), hn1]; push_cast; ring
  · rw [constant_RSAU.2]; simp only [value, List.map_cons, List.map_nil, List.prod_cons, List.prod_nil]
    rw [hsym _ _ (by decide), hsym _ _ (by decide), hp1, hn1]; ring
  · rw [constant_FCONVERT.2, hfl]; simp only [value, List.map_cons, List.map_nil, List.prod_cons, List.prod_nil]
    rw [hone, hsym _ _ (by decide), hn4 _ hC]; push_cast; ring
  · rw [constant_MHD_B_NORM.2]; simp only [value, List.map_cons, List.map_nil, List.prod_cons, List.prod_nil]
    rw [hsym _ _ (by decide), hsym _ _ (by decide), hsym _ _ (by decide), hp1, hh, hh, Real.sqrt_mul hMP]; ring
  · rw [constant_MZERO.2]; simp only [value, List.map_cons, List.map_nil, List.prod_cons, List.prod_nil]
    rw [hsym _ _ (by decide), hsym _ _ (by decide), hsym _ _ (by decide), hp1, hn1, hp2]; ring
  · rw [constant_OM.2]; simp only [value, List.map_cons, List.map_nil, List.prod_cons, List.prod_nil]
    rw [hsym _ _ (by decide), hsym _ _ (by decide), hsym _ _ (by decide), hsym _ _ (by decide), hsym _ _ (by decide), hp1, hp1, hp1,
      hn1, hn2 _ hC]; ring

/-- Every constant of the package can be computed. -/
theorem c76_package_total : ∀ k ∈ packageConstants.keys, ConstantIs reals packageConstants packageTypes.get? k (constant k) := by
  have key : ∀ k ∈ packageConstants.keys, (numberOf k).isSome = true ∨ k ∈ ([c! "TAU", c! "DAY", c! "DEG2RAD", c! "RAD2DEG",
      c! "RSAU", c! "FCONVERT", c! "MHD_B_NORM", c! "MZERO", c! "OM"] : List Str) := by decide +kernel
  intro k hk
  rcases key k hk with h | h
  · exact ⟨1, computeConstant_mono (number_ok h 0).2⟩
  · simp only [List.mem_cons, List.not_mem_nil, or_false] at h
    rcases h with rfl | rfl | rfl | rfl | rfl | rfl | rfl | rfl | rfl
    · exact ⟨2, computeConstant_mono constant_TAU.1⟩
    · exact ⟨3, computeConstant_mono constant_DAY.1⟩
    · exact ⟨2, computeConstant_mono constant_DEG2RAD.1⟩
    · exact ⟨2, computeConstant_mono constant_RAD2DEG.1⟩
    · exact ⟨2, computeConstant_mono constant_RSAU.1⟩
    · exact ⟨2, computeConstant_mono constant_FCONVERT.1⟩
    · exact ⟨2, computeConstant_mono constant_MHD_B_NORM.1⟩
    · exact ⟨2, computeConstant_mono constant_MZERO.1⟩
    · exact ⟨3, computeConstant_mono constant_OM.1⟩

/-! ## Default values -/

/-- Is the value of the type? -/
def hasType (t : Ty) (v : Val Rat) : Bool :=
  match t, v with
  | .int, .num x => x.den = 1
  | .float, .num _ => true
  | .str, .text _ => true
  | .list, .list _ => true
  | _, _ => false

theorem hasType_ok {t : Ty} {v : Val Rat} (h : hasType t v = true) : HasType t v := by
  cases t <;> cases v <;> simp only [hasType, Bool.false_eq_true, decide_eq_true_eq] at h
  · next x =>
    refine ⟨x.num, ?_⟩
    rw [← Rat.num_div_den x, h]; simp
  · exact ⟨_, rfl⟩
  · exact ⟨_, rfl⟩
  · exact ⟨_, rfl⟩

set_option maxHeartbeats 100000000 in
/-- **C77**, the package: the default value of every parameter can be computed, and has the type of the parameter.  The only
exception is the number of nodes per stream, which is not known before run time. -/
theorem c77_package : ∀ k t d, packageReference.get? k = some (t, d) → ∃ v, Evaluates packageEnv k v ∧
    (HasType t v ∨ k = c! "numNodesPerStream" ∧ v = .none) := by
  have key : packageReference.all (fun p => match evaluate packageEnv 4 p.1 with
      | .ok v => hasType p.2.1 v || (decide (p.1 = c! "numNodesPerStream") && decide (v = .none))
      | .error _ => false) = true := by decide +kernel
  intro k t d h
  have := List.all_eq_true.1 key _ (Dict.mem_of_get? h)
  simp only at this
  cases he : evaluate packageEnv 4 k with
  | error e => rw [he] at this; cases this
  | ok v =>
    rw [he] at this
    refine ⟨v, Evaluates.of he, ?_⟩
    simp only [Bool.or_eq_true, Bool.and_eq_true, decide_eq_true_eq] at this
    exact this.imp hasType_ok id

/-! ## The interface -/

theorem updateAll_wf {R : Type} {d : Dict Str (Val R)} (h : d.WF) (l : List (Str × Val R)) : (updateAll d l).WF := by
  induction l generalizing d with
  | nil => exact h
  | cons p l ih => exact ih (h.set p.1 p.2)

theorem initValues_wf {R : Type} [Field R] [DecidableEq R] {E : Env R} {n : Nat} {loc : List (Str × Val R)}
    {cfg : Option (Dict Str Str)} {d : Dict Str (Val R)} (h : initValues E n loc cfg = .ok d) : d.WF := by
  unfold initValues at h
  split at h
  · cases h
  next defaults hdef =>
    have hw : (updateAll (updateAll [] loc) defaults).WF := updateAll_wf (updateAll_wf Dict.WF.nil _) _
    cases cfg with
    | none => cases h; exact hw
    | some c => cases h; exact updateAll_wf hw _

theorem package_wf : packageEnv.reference.WF := by
  show packageReference.keys.Nodup
  decide +kernel

theorem package_local : (packageLocal (R := Rat)).map Prod.fst = [c! "minimum_energy"] := rfl

/-- **C43**, the package: the interface can be created, whatever the configuration file says. -/
theorem c43_package_total (cfg : Option (Dict Str Str)) : ∃ n d, initValues packageEnv n packageLocal cfg = .ok d := by
  have key : ∀ k ∈ packageReference.keys, ∃ n v, ∀ m, n ≤ m → getDefault packageEnv m k = .ok v := by
    intro k hk
    obtain ⟨⟨t, d⟩, h⟩ := Dict.get?_isSome.2 hk
    obtain ⟨v, hv, -⟩ := c77_package k t d h
    obtain ⟨n, hn⟩ := Evaluates.default hv hk
    exact ⟨n, v, hn⟩
  obtain ⟨n, hn⟩ : ∃ n, ∀ k ∈ packageReference.keys, ∃ v, getDefault packageEnv n k = .ok v := by
    generalize packageReference.keys = l at key
    have : ∃ n, ∀ k ∈ l, ∃ v, ∀ m, n ≤ m → getDefault packageEnv m k = .ok v := by
      induction l with
      | nil => exact ⟨0, by simp⟩
      | cons a l ih =>
        obtain ⟨n, hn⟩ := ih (fun b hb => key b (by simp [hb]))
        obtain ⟨k, v, hk⟩ := key a (by simp)
        refine ⟨max n k, fun b hb => ?_⟩
        rcases List.mem_cons.1 hb with rfl | hb
        · exact ⟨v, fun m hm => hk m (by omega)⟩
        · obtain ⟨w, hw⟩ := hn b hb
          exact ⟨w, fun m hm => hw m (by omega)⟩
    obtain ⟨n, hn⟩ := this
    exact ⟨n, fun k hk => ⟨_, (hn k hk).choose_spec n le_rfl⟩⟩
  exact ⟨n, c43_total.2 hn⟩

set_option maxHeartbeats 100000000 in
theorem package_separate : ∀ g ∈ packageNames, ∀ k ∈ g, k ∈ packageReference.keys ++ [c! "minimum_energy"] → g.head? = some k := by
  have : packageNames.all (fun g => g.all (fun k => !(packageReference.keys ++ [c! "minimum_energy"]).contains k ||
      g.head? == some k)) = true := by decide +kernel
  intro g hg k hk hm
  have h := List.all_eq_true.1 (List.all_eq_true.1 this g hg) k hk
  rw [Bool.or_eq_true] at h
  rcases h with h | h
  · rw [List.contains_iff_mem.2 hm] at h
    cases h
  · exact eq_of_beq h

set_option maxHeartbeats 100000000 in
theorem package_disjoint : packageAliases.Pairwise Disjoint := by
  have h : packageNames.flatten.Nodup := by decide +kernel
  rw [List.nodup_flatten] at h
  unfold packageAliases
  rw [List.pairwise_map]
  refine h.2.imp ?_
  intro a b hab
  rw [Finset.disjoint_left]
  intro x hx hy
  exact hab (List.mem_toFinset.1 hx) (List.mem_toFinset.1 hy)

/-- **C43**, the package: every parameter is found under its name and under each of its aliases, with its value and unit;
angles are in degrees if `useDegrees` is set. -/
theorem c43_package_lookup {n : Nat} {cfg : Option (Dict Str Str)} {d : Dict Str (Val Rat)}
    (h : initValues packageEnv n packageLocal cfg = .ok d) : ∃ u, d.get? useDegrees = some u ∧
    ∀ k v, d.get? k = some v → ∀ a, (a = k ∨ ∃ g ∈ packageNames, k ∈ g ∧ a ∈ g) →
      getParameter (interface d packageUnits.get? packageAliases) a =
        .ok (if packageUnits.get? k = some rad ∧ IsSet u then some deg else packageUnits.get? k, v) := by
  obtain ⟨h1, h2, h3⟩ := c43_values package_wf (by rw [package_local]; simp) h
  have hkeys : ∀ k ∈ d.keys, k ∈ packageReference.keys ++ [c! "minimum_energy"] := by
    intro k hk
    rw [List.mem_append]
    by_contra hcon
    rw [not_or] at hcon
    have h4 := h3 k (Dict.get?_eq_none.2 hcon.1)
    rw [show Dict.get? (packageLocal (R := Rat)) k = none from Dict.get?_eq_none.2 hcon.2] at h4
    exact Dict.get?_eq_none.1 h4 hk
  obtain ⟨u, hu⟩ : ∃ u, d.get? useDegrees = some u := by
    have hr : packageEnv.reference.get? useDegrees = some (.int, c! "0") := by
      show packageReference.get? useDegrees = _
      decide +kernel
    cases cfg with
    | none => obtain ⟨v, -, hv⟩ := h2 _ _ _ hr (by simp); exact ⟨v, hv⟩
    | some c =>
      cases hc : c.get? useDegrees with
      | none =>
        obtain ⟨v, -, hv⟩ := h2 _ _ _ hr (by rintro c' hc'; cases hc'; exact hc)
        exact ⟨v, hv⟩
      | some s => exact ⟨_, h1 _ _ _ c s hr rfl hc⟩
  refine ⟨u, hu, fun k v hk a ha => ?_⟩
  refine c43_lookup (initValues_wf h) packageUnits.get? packageAliases package_disjoint ?_ hu hk a ?_
  · intro k hk k' hk' g hg hkg hkg'
    obtain ⟨l, hl, rfl⟩ := List.mem_map.1 hg
    have e1 := package_separate l hl k (List.mem_toFinset.1 hkg) (hkeys k hk)
    have e2 := package_separate l hl k' (List.mem_toFinset.1 hkg') (hkeys k' hk')
    exact Option.some.inj (e1.symm.trans e2)
  · refine ha.imp id ?_
    rintro ⟨g, hg, hkg, hag⟩
    exact ⟨g.toFinset, List.mem_map.2 ⟨g, hg, rfl⟩, List.mem_toFinset.2 hkg, List.mem_toFinset.2 hag⟩

/-! ## Examples -/

/-- A configuration file that starts the simulation later. -/
def laterConfig : Dict Str Str := [(c! "simStartTime", c! "10.0"), (c! "unknown", c! "1")]

example : parseConfig ['#'] (c! "# times\nsimStartTime = 10.0 # days\n\nunknown=1\n") = .ok laterConfig := by decide +kernel

set_option maxHeartbeats 100000000 in
/-- The times of a simulation that starts at day 10: all others remain at the values for a start at day 0, and the
simulation stops before it starts. -/
theorem c75_not_package : ∃ n d, initValues packageEnv n packageLocal (some laterConfig) = .ok d ∧
    d.get? (c! "simStartTime") = some (.num 10) ∧ packageReference.get? (c! "epCalcStartTime") = some (.float, c! "config.simStartTime") ∧
    d.get? (c! "epCalcStartTime") = some (.num 0) ∧
    packageReference.get? (c! "simStopTime") = some (.float, c! "config.simStartTime + config.tDel") ∧
    d.get? (c! "simStopTime") = some (.num 0.01041666666667) := by
  have h : (match initValues packageEnv 4 packageLocal (some laterConfig) with
      | .ok d => decide (d.get? (c! "simStartTime") = some (.num 10) ∧ packageReference.get? (c! "epCalcStartTime") = some (.float, c! "config.simStartTime") ∧
    d.get? (c! "epCalcStartTime") = some (.num 0) ∧
    packageReference.get? (c! "simStopTime") = some (.float, c! "config.simStartTime + config.tDel") ∧
    d.get? (c! "simStopTime") = some (.num 0.01041666666667))
      | .error _ => false) = true := by decide +kernel
  cases hd : initValues packageEnv 4 packageLocal (some laterConfig) with
  | error e => rw [hd] at h; cases h
  | ok d => rw [hd] at h; exact ⟨4, d, hd, of_decide_eq_true h⟩

/-- Arithmetic in default values: some parameters. -/
def demoEnv : Env Rat where
  numbers := rationals
  reference := [(c! "a", .float, c! "2.0"), (c! "b", .float, c! "3.0"), (c! "m", .float, c! "-2.0"),
    (c! "three", .float, c! "config.a + config.b + config.a"), (c! "zero", .float, c! "config.a + config.m"),
    (c! "less", .float, c! "config.a - config.b"), (c! "plain", .float, c! "config.a + 0")]
  basetypes := fun _ => none

theorem demo_a : Evaluates demoEnv (c! "config.a") (.num 2) := Evaluates.of (n := 3) (by decide +kernel)
theorem demo_b : Evaluates demoEnv (c! "config.b") (.num 3) := Evaluates.of (n := 3) (by decide +kernel)
theorem demo_m : Evaluates demoEnv (c! "config.m") (.num (-2)) := Evaluates.of (n := 3) (by decide +kernel)

example : Evaluates packageEnv (c! "simStopTime") (.num (0 + 0.01041666666667)) :=
  c44_sum_partial (s := c! "config.simStartTime ") (t := c! " config.tDel")
    ⟨by decide +kernel, by decide, by decide, .float, by decide +kernel, by decide +kernel⟩
    ⟨by decide +kernel, by decide, by decide, by decide +kernel, by decide +kernel⟩
    (by decide) (by decide) (Evaluates.of (n := 3) (by decide +kernel)) (Evaluates.of (n := 3) (by decide +kernel)) (by decide +kernel)

example : Evaluates demoEnv (c! "less") (.num (2 - 3)) :=
  c44_difference_partial (s := c! "config.a ") (t := c! " config.b")
    ⟨by decide +kernel, by decide, by decide, .float, by decide +kernel, by decide +kernel⟩
    ⟨by decide +kernel, by decide, by decide, by decide +kernel, by decide +kernel⟩
    (by decide) (by decide) demo_a demo_b (by decide +kernel)

example : Evaluates demoEnv (c! "three") (.num (2 + 3)) :=
  c44_not_three (s := c! "config.a ") (t := c! " config.b ") (u := c! " config.a")
    ⟨by decide +kernel, by decide, by decide, .float, by decide +kernel, by decide +kernel⟩
    ⟨by decide +kernel, by decide, by decide, by decide +kernel, by decide +kernel⟩
    (by decide) (by decide) (by decide) demo_a demo_b demo_a (by decide +kernel)

example : ∃ n, ∀ m, n ≤ m → getDefault demoEnv m (c! "zero") = .error .type :=
  c44_not_zero (s := c! "config.a ") (t := c! " config.m")
    ⟨by decide +kernel, by decide, by decide, .float, by decide +kernel, by decide +kernel⟩
    ⟨by decide +kernel, by decide, by decide, by decide +kernel, by decide +kernel⟩
    (by decide) (by decide) (by decide) (by decide +kernel) demo_a demo_m

example (n : Nat) : evaluate demoEnv (n + 1) (c! "0") = .error .type :=
  c44_not_zero_term ⟨by decide +kernel, by decide, by decide, by decide +kernel, by decide +kernel⟩ (by decide) (by decide)
    (by decide) n

example : Evaluates packageEnv (c! "config.rScale") (.num (69600000000 / 14959787070000)) :=
  c44_member (a := c! "rScale") (by decide) ⟨by decide +kernel, by decide, by decide, by decide +kernel, by decide +kernel⟩
    (Evaluates.of (n := 3) (by decide +kernel))

example : Evaluates packageEnv (c! "[config.rScale]") (.list [69600000000 / 14959787070000]) :=
  c44_list (a := c! "rScale") (by decide) ⟨by decide +kernel, by decide, by decide, by decide +kernel, by decide +kernel⟩
    (Evaluates.of (n := 3) (by decide +kernel))

/-! ### Products -/

/-- What default values are computed from in the package, with real numbers. -/
noncomputable def realEnv : Env ℝ where
  numbers := reals
  reference := packageReference
  basetypes := fun k => if k ∈ packageConstants.keys then some (constant k) else none

theorem realEnv_none {k : Str} (h : k ∉ packageConstants.keys) : realEnv.basetypes k = none := by simp [realEnv, h]

/-- `idealShockSharpness / idealShockScaleLength` -/
def shockScale : Expr :=
  .cons (.var none (c! "idealShockSharpness") [] none) (.div 1 1) (.one (.var none (c! "idealShockScaleLength") [] none))

theorem cast_none {s : Str} (h1 : pyInt s = none) (h2 : readFloat s = none) : cast reals s = none := by
  simp [cast, h1, reals, h2]

open Classical in
theorem truthy_none {s : Str} (h1 : pyInt s = none) (h2 : readFloat s = none) : truthyCast reals s = none := by
  simp [truthyCast, cast_none h1 h2]

open Classical in
theorem given_real {p d : Str} {q : Rat} (h1 : pyInt p = none) (h2 : readFloat p = none) (h3 : p ≠ nProcs) (h4 : p ≠ third)
    (h5 : packageReference.get? p = some (.float, d)) (h6 : readFloat d = some q) : Evaluates realEnv p (.num (q : ℝ)) := by
  have hc : convert reals .float d = .num (q : ℝ) := convert_real (by simp [convert, rationals, h6])
  have := Evaluates.given (E := realEnv) (p := p) (t := .float) (d := d) (truthy_none h1 h2) h3 h4 h5
    (by show isType .float (convert reals .float d) = true; rw [hc]; rfl)
  rwa [show realEnv.numbers = reals from rfl, hc] at this

theorem shockScale_ok : shockScale.Ok 1 ∧ shockScale.Pos := by
  have a : ∀ c ∈ (c! "idealShockSharpness"), isLetter c = true := by decide
  have b : ∀ c ∈ (c! "idealShockScaleLength"), isLetter c = true := by decide
  refine ⟨?_, ?_⟩
  · refine ⟨⟨by decide, a, by decide, trivial, trivial, ?_, ?_⟩, ⟨by decide, b, by decide, trivial, trivial, ?_, ?_⟩, by decide⟩ <;>
      simp [litOr1, PowOk, LooksLikeExp]
  · simp [shockScale, Expr.Pos, Atom.Pos, litOr1]

open Classical in
example : ∃ ρ : Str → ℝ, Evaluates realEnv (c! "idealShockScale") (.num (shockScale.denote ρ id)) ∧
    shockScale.denote ρ id = 1.0 / 0.0046491 := by
  refine ⟨fun a => if a = c! "idealShockSharpness" then 1 else 0.0046491, c77_product (d := c! "config.idealShockSharpness / config.idealShockScaleLength")
    realPowers shockScale ?_ ?_ shockScale_ok.1 shockScale_ok.2 ?_ ?_ ?_ ?_ ?_, ?_⟩
  · refine ⟨truthy_none (by decide +kernel) (by decide +kernel), by decide, by decide, .float, by
      show packageReference.get? _ = _; decide +kernel, ?_⟩
    have : readFloat (c! "config.idealShockSharpness / config.idealShockScaleLength") = none := by decide +kernel
    show isType .float (convert reals .float _) = false
    simp [convert, reals, this, isType]
  · refine ⟨truthy_none (by decide +kernel) (by decide +kernel), by decide, by decide, by
      show packageReference.get? _ = _; decide +kernel, ?_⟩
    have : (c! "config.idealShockSharpness / config.idealShockScaleLength") ∉ packageConstants.keys := by decide +kernel
    exact realEnv_none this
  · have : shockScale.text = c! "idealShockSharpness / idealShockScaleLength" := by decide
    rw [this]
    exact .config (.char _ <| .char _ <| .char _ <| .char _ <| .char _ <| .char _ <| .char _ <| .char _ <| .char _ <| .char _ <|
      .char _ <| .char _ <| .char _ <| .char _ <| .char _ <| .char _ <| .char _ <| .char _ <| .char _ <| .char _ <| .char _ <| .char _ <|
      .config <| .char _ <| .char _ <| .char _ <| .char _ <| .char _ <| .char _ <| .char _ <| .char _ <| .char _ <| .char _ <| .char _ <|
      .char _ <| .char _ <| .char _ <| .char _ <| .char _ <| .char _ <| .char _ <| .char _ <| .char _ <| .char _ <| .nil)
  · decide
  · decide
  · intro b
    simp only
    split <;> norm_num
  · intro a ha
    simp only [shockScale, Expr.names, Atom.names, List.append_nil, List.cons_append, List.nil_append, List.mem_cons, List.not_mem_nil,
      or_false] at ha
    rcases ha with rfl | rfl
    · have := given_real (p := c! "idealShockSharpness") (q := 1) (by decide +kernel) (by decide +kernel) (by decide) (by decide)
        (by decide +kernel : packageReference.get? _ = some (.float, c! "1.0")) (by decide +kernel)
      simpa using this
    · have := given_real (p := c! "idealShockScaleLength") (q := 0.0046491) (by decide +kernel) (by decide +kernel) (by decide)
        (by decide) (by decide +kernel : packageReference.get? _ = some (.float, c! "0.0046491")) (by decide +kernel)
      have h2 : ((0.0046491 : Rat) : ℝ) = 0.0046491 := by norm_num
      rw [h2] at this
      simpa using this
  · simp [shockScale, Expr.denote, Atom.denote, Sep.act, litOr1]
    norm_num

/-- A table with a constant given by an expression. -/
def demoConstants : Dict Str Str := [(c! "A", c! "2.0"), (c! "K", c! "3 * A")]

/-- `3 * A` -/
def threeA : Expr := .cons (.const (.int false ['3']) none) (.mul 1 1) (.one (.var none ['A'] [] none))

theorem threeA_ok : threeA.Ok 1 ∧ threeA.Pos := by
  have f3 : fl 3 = 3 := by decide +kernel
  constructor
  · simp [threeA, Expr.Ok, Atom.Ok, OptOk, Lit.Ok, Digits, isDigit, isLetter, Lit.value, litOr1, natVal, digitVal,
      signed, PowOk, powVal, Lit.signedExp, LooksLikeExp, f3]
  · simp [threeA, Expr.Pos, Atom.Pos, Lit.value, litOr1, natVal, digitVal, signed]

example : ConstantIs reals demoConstants (fun _ => some .float) (c! "K") (threeA.denote (fun _ => 2) id) := by
  refine c76_expression realPowers threeA (by decide) rfl threeA_ok.1 threeA_ok.2 (by decide) (by decide) (fun _ => by norm_num) ?_
  intro a ha
  simp only [threeA, Expr.names, Atom.names, List.nil_append, List.mem_singleton] at ha
  subst ha
  refine c76_number (s := c! "2.0") (by decide) rfl (by decide) ?_
  have : readFloat (c! "2.0") = some 2 := by decide +kernel
  simp [reals, this]

end Eprem.Config
