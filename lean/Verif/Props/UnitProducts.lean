import Verif.Lemmas.UnitProducts
import Verif.Props.MetricNames

/-!
# Products, quotients and powers of units (C71)
-/

namespace Eprem.Metric

open Eprem Eprem.Symbolic

theorem isUnit_iff {d : ℕ} {u : List Term} : IsUnit d u ↔ UnitTerms d u := by
  constructor
  · intro h
    refine ⟨h.nonempty, fun t ht => ⟨h.coeff t ht, h.exp t ht, h.number t ht, ?_⟩⟩
    obtain ⟨e, h1, h2, h3⟩ := h.symbol t ht
    have hl := c22_lookup t.base
    rw [h1] at hl
    cases hn : named t.base with
    | none => rw [hn] at hl; cases hl
    | some e' =>
      rw [hn] at hl
      simp only [Except.ok.injEq] at hl
      subst hl
      refine ⟨e, ⟨hn, h2, ?_⟩, h3⟩
      unfold baseIsValid
      rcases h.word t ht with hw | hw
      · simp [hw]
      · simp only [Bool.or_eq_true, Bool.and_eq_true, decide_eq_true_eq, List.all_eq_true]
        exact Or.inr hw
  · intro h
    refine ⟨h.nonempty, fun t ht => (h.terms t ht).coeff, fun t ht => (h.terms t ht).exp,
      fun t ht => (h.terms t ht).number, ?_, ?_⟩
    · intro t ht
      obtain ⟨e, he, _⟩ := (h.terms t ht).symbol
      have := he.2.2
      unfold baseIsValid at this
      simpa only [Bool.or_eq_true, Bool.and_eq_true, decide_eq_true_eq, List.all_eq_true] using this
    · intro t ht
      obtain ⟨e, he, hl⟩ := (h.terms t ht).symbol
      have hx := c22_lookup t.base
      rw [he.1] at hx
      exact ⟨e, hx, he.2.1, hl⟩

theorem unitTerms_of {d : ℕ} {r : List Term} (h : Frac d r) (hs : ∀ t ∈ r, Usable t.base) : IsUnit d r := by
  rw [isUnit_iff]
  refine ⟨h.nonempty, fun t ht => ⟨h.coeff t ht, h.exp t ht, ?_, hs t ht⟩⟩
  intro hb
  rcases h.base t ht with hv | hv
  · exfalso
    rw [hb] at hv
    obtain ⟨ls, ds, h2, h3, h4, _, _⟩ := hv
    cases ls with
    | nil => exact absurd rfl h3
    | cons x ls =>
      have : x = '1' := by simp [one] at h2; exact h2.1.symm
      have := h4 x (by simp)
      simp_all [isLetter]
  · exact hv.2

theorem four_multiple {d : ℕ} (hd : d ∣ 4) {q : ℚ} (h : ∃ z : ℤ, q = z / d) : ∃ z : ℤ, q = z / 4 := by
  obtain ⟨k, hk⟩ := hd
  obtain ⟨z, rfl⟩ := h
  have hd0 : (d : ℚ) ≠ 0 := by
    intro h0
    have : d = 0 := by exact_mod_cast h0
    subst this; omega
  refine ⟨z * k, ?_⟩
  have : (4 : ℚ) = d * k := by exact_mod_cast hk
  rw [this]
  have hk0 : (k : ℚ) ≠ 0 := by
    intro h0; rw [h0] at this; norm_num at this
  push_cast
  field_simp

theorem fl_quarter (z : ℤ) (h : |z| < 2 ^ 53) : fl ((z : ℚ) / 4) = z / 4 :=
  fl_rep ⟨z, -2, by norm_num [div_eq_mul_inv], h⟩

theorem small_quarter {q : ℚ} {z : ℤ} (hz : q = z / 4) (h : |q| < 2 ^ 50) : |z * 2| < 2 ^ 53 := by
  have h1 : (z : ℚ) = q * 4 := by rw [hz]; ring
  have h2 : |(z : ℚ) * 2| < 2 ^ 53 := by
    rw [h1, abs_mul, abs_mul]
    norm_num
    linarith
  exact_mod_cast h2

theorem exact_exp {d : ℕ} (hd : d ∣ 4) {u : List Term} (hu : IsUnit d u) (hs : SmallExponents u) {t : Term} (ht : t ∈ u) :
    fl t.exp = t.exp ∧ fl (t.exp * 2) = t.exp * 2 := by
  obtain ⟨z, hz⟩ := four_multiple hd (hu.exp t ht).1
  have hb := small_quarter hz (hs t ht)
  constructor
  · rw [hz]; apply fl_quarter
    rw [abs_mul] at hb
    have := abs_nonneg z
    norm_num at hb ⊢
    linarith
  · rw [hz]
    have := fl_quarter (z * 2) hb
    push_cast at this
    rw [show (z : ℚ) / 4 * 2 = z * 2 / 4 by ring]; exact this

theorem unit_eq_perm {d : ℕ} (hd : d ∣ 4) {a b : List Term} (ha : IsUnit d a) (hb : IsUnit d b) (sa : SmallExponents a)
    (sb : SmallExponents b) (h : exprEq a b = true) : a.Perm b := by
  apply exprEq_perm h
  intro t ht u hu he
  simp only [termEq, decide_eq_true_eq, (exact_exp hd ha sa ht).1, (exact_exp hd hb sb hu).1, ha.coeff t ht,
    hb.coeff u hu] at he
  have h1 := ha.coeff t ht
  have h2 := hb.coeff u hu
  cases t; cases u; simp_all

theorem IsUnit.mono {d k : ℕ} (hk : 0 < k) {u : List Term} (h : IsUnit d u) : IsUnit (k * d) u := by
  refine ⟨h.nonempty, h.coeff, fun t ht => ⟨?_, (h.exp t ht).2⟩, h.number, h.word, h.symbol⟩
  obtain ⟨z, hz⟩ := (h.exp t ht).1
  refine ⟨k * z, ?_⟩
  have : (k : ℚ) ≠ 0 := by exact_mod_cast hk.ne'
  rw [hz]; push_cast
  rw [mul_div_mul_left _ _ this]

theorem pos_of_dvd {d : ℕ} (hd : d ∣ 4) : 0 < d ∧ d ≤ 4 := ⟨Nat.pos_of_dvd_of_pos hd (by norm_num), Nat.le_of_dvd (by norm_num) hd⟩

/-- **C71**, product.  The product of two units is a unit, and for every coherent assignment of sizes it has the product
of their sizes, in whichever order the systems of units are tried.  Missing: the lux, for which the product fails
(`c71_lux`). -/
theorem c71_mul_partial (order : List System) (ho : order = [.mks, .cgs] ∨ order = [.cgs, .mks]) (d : ℕ) (hd : d ∣ 4)
    (a b : List Term) (ha : IsUnit d a) (hb : IsUnit d b) (sa : SmallExponents a) (sb : SmallExponents b) :
    ∃ r, unitMul order a b = .ok r ∧ IsUnit (2 * d) r ∧ ∀ ρ, CoherentSizes ρ → value ρ r = value ρ a * value ρ b := by
  have ho' : order ∈ Orders := by simpa [Orders] using ho
  obtain ⟨hd0, hd4⟩ := pos_of_dvd hd
  have hfa := (isUnit_iff.1 ha).frac
  unfold unitMul
  split
  next he =>
    have hp := unit_eq_perm hd ha hb sa sb he
    have hpe : ∀ t ∈ a, PowExact 2 t := by
      intro t ht
      obtain ⟨h1, h2⟩ := exact_exp hd ha sa ht
      exact ⟨h1, by rw [ha.coeff t ht]; exact fl_one, by exact_mod_cast h2, by rw [ha.coeff t ht, one_zpow]; exact fl_one⟩
    have hw := hfa.wf.ipow (n := 2) (by norm_num)
    have hne : a.map (Term.ipow 2) ≠ [] := by simpa using ha.nonempty
    obtain ⟨r, _, _, _, hr, hc, hx⟩ := reduce_ok hne hw
    have hF : Frac d r := reduce_frac hd0 hne
      (by intro t ht
          obtain ⟨u, hu, rfl⟩ := List.mem_map.1 ht
          simp [Term.ipow, ha.coeff u hu])
      (by intro t ht
          obtain ⟨u, hu, rfl⟩ := List.mem_map.1 ht
          obtain ⟨⟨z, hz⟩, h0⟩ := ha.exp u hu
          exact ⟨⟨z * 2, by simp only [Term.ipow]; rw [hz]; push_cast; ring⟩, mul_ne_zero h0 (by norm_num)⟩)
      (by intro t ht
          obtain ⟨u, hu, rfl⟩ := List.mem_map.1 ht
          exact (hfa.base u hu).imp id And.left) hr
    have hs : ∀ t ∈ r, Usable t.base := by
      intro t ht
      by_cases h1 : t.base = one
      · rw [h1]; exact usable_one
      · have := (reduce_spec hne hw hr).2.2.2.2.2.1 t ht h1
        simp only [List.map_map, List.mem_map] at this
        obtain ⟨u, hu, hub⟩ := this
        rw [← hub]
        exact ((isUnit_iff.1 ha).terms u hu).symbol
    have hpow := exprPow_eq (n := 2) (by norm_num) ha.nonempty hfa.wf hpe hr (hF.exact hd0 (by omega))
    refine ⟨r, ?_, (unitTerms_of hF hs).mono (by norm_num), ?_⟩
    · have h2 : ((2 : ℤ) : ℚ) = 2 := by norm_num
      rw [h2] at hpow
      rw [hpow]
      simp only [ofSym]
      exact unitOfExpr_ok hF hs
    · intro ρ hρ
      have hv : value ρ b = value ρ a := by unfold value; exact (hp.symm.map _).prod_eq
      rw [hv, ← pow_two]
      have := value_ipow ρ hρ.pos 2 a
      rw [value_congr ρ hρ.pos _ _ hc hx, this]
      norm_cast
  next he =>
    obtain ⟨r, h1, h2, h3, h4⟩ := applyOperator_ok ho' hd0 hd4 (isUnit_iff.1 ha) (isUnit_iff.1 hb)
      (f := exprMul) (g := (· * ·)) (fun hx hy => frac_mul (by omega) (by omega) hx hy)
    exact ⟨r, h1, unitTerms_of h2 h3, h4⟩

theorem one_isUnit : IsUnit 1 [⟨1, one, 1⟩] := by
  rw [isUnit_iff]
  refine ⟨by simp, ?_⟩
  intro t ht
  rw [List.mem_singleton] at ht
  subst ht
  exact ⟨rfl, ⟨⟨1, by norm_num⟩, one_ne_zero⟩, fun _ => rfl, usable_one⟩

/-- **C71**, quotient.  The quotient of two units is a unit, and for every coherent assignment of sizes it has the
quotient of their sizes.  Missing: the lux, as for the product. -/
theorem c71_div_partial (order : List System) (ho : order = [.mks, .cgs] ∨ order = [.cgs, .mks]) (d : ℕ) (hd : d ∣ 4)
    (a b : List Term) (ha : IsUnit d a) (hb : IsUnit d b) (sa : SmallExponents a) (sb : SmallExponents b) :
    ∃ r, unitDiv order a b = .ok r ∧ IsUnit (2 * d) r ∧ ∀ ρ, CoherentSizes ρ → value ρ r = value ρ a / value ρ b := by
  have ho' : order ∈ Orders := by simpa [Orders] using ho
  obtain ⟨hd0, hd4⟩ := pos_of_dvd hd
  unfold unitDiv
  split
  next he =>
    have hp := unit_eq_perm hd ha hb sa sb he
    refine ⟨_, rfl, ?_, ?_⟩
    · have h1 := one_isUnit.mono (k := 2 * d) (by omega)
      rw [mul_one] at h1
      exact h1
    · intro ρ hρ
      have hv : value ρ b = value ρ a := by unfold value; exact (hp.symm.map _).prod_eq
      rw [hv, div_self (value_pos hρ.pos ha.coeff).ne']
      exact value_unit ρ
  next he =>
    obtain ⟨r, h1, h2, h3, h4⟩ := applyOperator_ok ho' hd0 hd4 (isUnit_iff.1 ha) (isUnit_iff.1 hb)
      (f := exprDiv) (g := (· / ·)) (fun hx hy => frac_div (by omega) (by omega) hx hy)
    exact ⟨r, h1, unitTerms_of h2 h3, h4⟩

/-- **C71**, reciprocal.  Missing: the lux, as for the product. -/
theorem c71_inv_partial (order : List System) (ho : order = [.mks, .cgs] ∨ order = [.cgs, .mks]) (d : ℕ) (hd : d ∣ 4)
    (a : List Term) (ha : IsUnit d a) :
    ∃ r, unitInv order a = .ok r ∧ IsUnit (2 * d) r ∧ ∀ ρ, CoherentSizes ρ → value ρ r = 1 / value ρ a := by
  have ho' : order ∈ Orders := by simpa [Orders] using ho
  obtain ⟨hd0, hd4⟩ := pos_of_dvd hd
  have h1u := one_isUnit.mono (k := d) hd0
  rw [mul_one] at h1u
  obtain ⟨r, h1, h2, h3, h4⟩ := applyOperator_ok ho' hd0 hd4 (isUnit_iff.1 h1u) (isUnit_iff.1 ha)
    (f := exprDiv) (g := (· / ·)) (fun hx hy => frac_div (by omega) (by omega) hx hy)
  refine ⟨r, h1, unitTerms_of h2 h3, ?_⟩
  intro ρ hρ
  rw [h4 ρ hρ, value_unit]

/-- **C71**, power.  A unit raised to a power that is not zero, exact or a double, is a unit whose size is that power of
its size, provided that the exponents of the result are multiples of an eighth that a double can hold.  Missing: other
exponents, and the power zero (`c71_pow_zero`). -/
theorem c71_pow_partial (float : Bool) (d : ℕ) (hd : d ∣ 4) (a : List Term) (ha : IsUnit d a) (sa : SmallExponents a)
    (p : ℚ) (hp : p ≠ 0) (he : ∀ t ∈ a, ∃ z : ℤ, t.exp * p = z / 8 ∧ |z| < 2 ^ 53) :
    ∃ r, unitPow float a p = .ok r ∧ IsUnit 8 r ∧ ∀ ρ, CoherentSizes ρ → value ρ r = value ρ a ^ (p : ℝ) := by
  have hfa := (isUnit_iff.1 ha).frac
  have hterm : ∀ t ∈ a, (if float then t.fpow p else t.pow p) = .ok ⟨1, t.base, t.exp * p⟩ := by
    intro t ht
    have hb := (hfa.wf t ht).2.1
    have h0 := (ha.exp t ht).2
    have hc := ha.coeff t ht
    split
    · obtain ⟨z, hz, hzb⟩ := he t ht
      have hfl : fl (t.exp * p) = t.exp * p := by
        rw [hz]; exact fl_rep ⟨z, -3, by norm_num [div_eq_mul_inv], hzb⟩
      unfold Term.fpow
      simp only [(exact_exp hd ha sa ht).1, hfl, hc, fl_one]
      split
      · simp [one_zpow, fl_one, mkTerm, orOne, orOneStr, hb, h0, hp]
      · simp [mkTerm, orOne, orOneStr, hb, h0, hp]
    · exact term_pow_one hc hb h0 hp
  have hmap := mapTerms_eq (g := fun t => ⟨1, t.base, t.exp * p⟩) a hterm
  have hF : Frac 8 ((a.map (fun t => (⟨1, t.base, t.exp * p⟩ : Term))).map normalTerm) := by
    refine ⟨by simpa using ha.nonempty, ?_, ?_, ?_⟩
    all_goals
      intro t ht
      obtain ⟨u, hu, rfl⟩ := List.mem_map.1 ht
      obtain ⟨x, hx, rfl⟩ := List.mem_map.1 hu
      unfold normalTerm
      simp only
    · split <;> rfl
    · split
      · exact ⟨⟨8, by norm_num⟩, one_ne_zero⟩
      · obtain ⟨z, hz, _⟩ := he x hx
        exact ⟨⟨z, by rw [hz]; norm_num⟩, mul_ne_zero (ha.exp x hx).2 hp⟩
    · split
      · exact Or.inr ⟨rfl, rfl⟩
      next hb => exact Or.inl ((hfa.base x hx).resolve_right (fun h => hb h.1))
  obtain ⟨r, _, _, _, hr, hc, hx⟩ := reduce_ok hF.nonempty hF.wf
  have hR : Frac 8 r := reduce_frac (by norm_num) hF.nonempty hF.coeff hF.exp
    (fun t ht => (hF.base t ht).imp id And.left) hr
  have hs : ∀ t ∈ r, Usable t.base := by
    intro t ht
    by_cases h1 : t.base = one
    · rw [h1]; exact usable_one
    · have := (reduce_spec hF.nonempty hF.wf hr).2.2.2.2.2.1 t ht h1
      simp only [List.map_map, List.mem_map] at this
      obtain ⟨u, hu, hub⟩ := this
      simp only [Function.comp, normalTerm] at hub
      split at hub
      · exact absurd hub.symm h1
      · rw [← hub]; exact ((isUnit_iff.1 ha).terms u hu).symbol
  refine ⟨r, ?_, unitTerms_of hR hs, ?_⟩
  · unfold unitPow
    rw [hmap]
    simp only [ofSym]
    rw [← exprOfTerms_norm, exprOfTerms_printable _ hF.nonempty (hF.exact (by norm_num) (by norm_num)), hr]
    exact unitOfExpr_ok hR hs
  · intro ρ hρ
    rw [value_congr ρ hρ.pos _ _ hc hx, value_norm, value_pow hρ.pos _ _ ha.coeff]

/-- **C71** fails for the power zero: a power of a unit to the exponent zero is the unit itself and not the unit `1`. -/
theorem c71_pow_zero : unitPow false [⟨1, c! "m", 1⟩] 0 = .ok [⟨1, c! "m", 1⟩] ∧
    unitPow true [⟨1, c! "m", 1⟩] 0 = .ok [⟨1, c! "m", 1⟩] := by decide +kernel

/-- **C71** fails for the lux: no product with a lux, prefixed or not, can be computed. -/
theorem c71_lux : ∀ order ∈ [[System.mks, System.cgs], [System.cgs, System.mks]], ∀ u ∈ [c! "lx", c! "klx"],
    unitMul order [⟨1, u, 1⟩] [⟨1, c! "m", 1⟩] = .error .recursion ∧
    unitDiv order [⟨1, c! "m", 1⟩] [⟨1, u, 1⟩] = .error .recursion := by decide +kernel

/-! ### the hypotheses can be met -/

theorem isUnit_of {d : ℕ} {u : List Term} (h : u ≠ []) (h' : u.all (fun t => decide (t.coeff = 1 ∧ (d * t.exp).den = 1 ∧
    t.exp ≠ 0 ∧ (t.base = one → t.exp = 1) ∧ baseIsValid t.base = true ∧
    (named t.base).map (fun e => (e.symbol, decide (e.base.symbol = c! "lx"))) = some (t.base, false))) = true)
    (hd : 0 < d) : IsUnit d u := by
  rw [isUnit_iff]
  refine ⟨h, fun t ht => ?_⟩
  have := of_decide_eq_true (List.all_eq_true.1 h' t ht)
  obtain ⟨h1, h2, h3, h4, h5, h6⟩ := this
  refine ⟨h1, ⟨⟨(d * t.exp).num, ?_⟩, h3⟩, h4, ?_⟩
  · have := Rat.num_div_den (d * t.exp)
    rw [h2] at this
    have hd0 : (d : ℚ) ≠ 0 := by exact_mod_cast hd.ne'
    have h7 : ((d * t.exp).num : ℚ) = d * t.exp := by simpa using this
    rw [h7, mul_div_cancel_left₀ _ hd0]
  · cases hn : named t.base with
    | none => rw [hn] at h6; cases h6
    | some e =>
      rw [hn] at h6
      simp only [Option.map_some, Option.some.injEq, Prod.mk.injEq, decide_eq_false_iff_not] at h6
      exact ⟨e, ⟨hn, h6.1, h5⟩, h6.2⟩

example : IsUnit 1 [⟨1, c! "J", 2⟩, ⟨1, c! "km", -1⟩] ∧ SmallExponents [⟨1, c! "J", 2⟩, ⟨1, c! "km", -1⟩] :=
  ⟨isUnit_of (by simp) (by decide +kernel) (by norm_num), by unfold SmallExponents; norm_num⟩

example : IsUnit 2 [⟨1, c! "statC", 1/2⟩, ⟨1, c! "s", -1⟩] :=
  isUnit_of (by simp) (by decide +kernel) (by norm_num)

example : unitMul [.mks, .cgs] [⟨1, c! "J", 2⟩, ⟨1, c! "km", -1⟩] [⟨1, c! "Pa", -1⟩] =
    .ok [⟨1, c! "m", 5⟩, ⟨1, c! "kg", 1⟩, ⟨1, c! "km", -1⟩, ⟨1, c! "s", -2⟩] := by decide +kernel

example : ∀ t ∈ [(⟨1, c! "J", 2⟩ : Term), ⟨1, c! "km", -1⟩], ∃ z : ℤ, t.exp * (1/2) = z / 8 ∧ |z| < 2 ^ 53 := by
  intro t ht
  simp only [List.mem_cons, List.not_mem_nil, or_false] at ht
  rcases ht with rfl | rfl
  · exact ⟨8, by norm_num, by norm_num⟩
  · exact ⟨-4, by norm_num, by norm_num⟩

/-- the sizes of the units in the SI, with the metre of size 1 and so on, give a coherent assignment -/
example : ∃ ρ : Name → ℝ, CoherentSizes ρ ∧ ρ (c! "J") = 1 := by
  refine ⟨fun _ => 1, ⟨fun _ => one_pos, ?_⟩, rfl⟩
  intro p _
  simp

end Eprem.Metric
