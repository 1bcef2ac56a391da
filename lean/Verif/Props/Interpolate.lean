import Verif.Model.Interpolate
import Verif.Props.Container

/-!
# Interpolation (C56-C58)
-/

namespace Eprem.Interpolate

open Eprem Eprem.Numeric

/-! ## C56: the power law at the lower bound of an integral -/

/-- `v` is the value at `p` of a power law through `(x0, y0)` and `(x1, y1)`. -/
def OnPowerLaw (x0 y0 x1 y1 p v : ℝ) : Prop :=
  ∃ A β : ℝ, y0 = A * x0 ^ β ∧ y1 = A * x1 ^ β ∧ v = A * p ^ β

/-- There is only one power law through two points. -/
theorem onPowerLaw_unique {x0 y0 x1 y1 p v w : ℝ} (h0 : 0 < x0) (h1 : x0 < x1) (hp : 0 < p) (hy : 0 < y0)
    (hv : OnPowerLaw x0 y0 x1 y1 p v) (hw : OnPowerLaw x0 y0 x1 y1 p w) : v = w := by
  obtain ⟨A, β, a0, a1, av⟩ := hv
  obtain ⟨B, γ, b0, b1, bv⟩ := hw
  have hx1 : 0 < x1 := h0.trans h1
  have pb := Real.rpow_pos_of_pos h0 β
  have pg := Real.rpow_pos_of_pos h0 γ
  have hA : A = y0 / x0 ^ β := by rw [a0]; field_simp
  have hB : B = y0 / x0 ^ γ := by rw [b0]; field_simp
  have hr : (x1 / x0) ^ β = (x1 / x0) ^ γ := by
    rw [Real.div_rpow hx1.le h0.le, Real.div_rpow hx1.le h0.le]
    have e1 : y1 = y0 * (x1 ^ β / x0 ^ β) := by rw [a1, hA]; ring
    have e2 : y1 = y0 * (x1 ^ γ / x0 ^ γ) := by rw [b1, hB]; ring
    have := e1.symm.trans e2
    exact mul_left_cancel₀ hy.ne' this
  have hone : 1 < x1 / x0 := (one_lt_div h0).2 h1
  have hbg : β = γ := by
    have h := congrArg Real.log hr
    rw [Real.log_rpow (by positivity), Real.log_rpow (by positivity)] at h
    exact mul_right_cancel₀ (Real.log_pos hone).ne' h
  subst hbg
  rw [av, bv, hA, hB]

/-- What the code computes is on the power law, and between the neighbours. -/
theorem interp_value {x0 y0 x1 y1 p : ℝ} (h0 : 0 < x0) (h1 : x0 < x1) (hp0 : x0 ≤ p) (hp1 : p < x1) (hy0 : 0 < y0)
    (hy1 : 0 < y1) :
    let v := y0 * (p / x0) ^ (Real.log (y1 / y0) / Real.log (x1 / x0))
    OnPowerLaw x0 y0 x1 y1 p v ∧ min y0 y1 ≤ v ∧ v ≤ max y0 y1 ∧ (p = x0 → v = y0) := by
  intro v
  have hx1 : 0 < x1 := h0.trans h1
  have hp : 0 < p := h0.trans_le hp0
  have hone : 1 < x1 / x0 := (one_lt_div h0).2 h1
  have hl : 0 < Real.log (x1 / x0) := Real.log_pos hone
  set β := Real.log (y1 / y0) / Real.log (x1 / x0) with hβ
  have hfull : (x1 / x0) ^ β = y1 / y0 := by
    rw [Real.rpow_def_of_pos (by positivity), hβ, mul_div_cancel₀ _ hl.ne', Real.exp_log (by positivity)]
  have pb := Real.rpow_pos_of_pos h0 β
  refine ⟨⟨y0 / x0 ^ β, β, by field_simp, ?_, ?_⟩, ?_⟩
  · rw [Real.div_rpow hx1.le h0.le] at hfull
    field_simp at hfull ⊢
    linarith
  · show y0 * (p / x0) ^ β = _
    rw [Real.div_rpow hp.le h0.le]
    field_simp
  have hq1 : 1 ≤ p / x0 := (one_le_div h0).2 hp0
  have hq2 : p / x0 ≤ x1 / x0 := (div_le_div_iff_of_pos_right h0).2 hp1.le
  have hv0 : v = y0 * (p / x0) ^ β := rfl
  have hy1' : y1 = y0 * (x1 / x0) ^ β := by rw [hfull]; field_simp
  have hend : p = x0 → v = y0 := by
    intro e
    rw [hv0, e, div_self h0.ne', Real.one_rpow, mul_one]
  rcases le_total 0 β with hb | hb
  · have k1 : 1 ≤ (p / x0) ^ β := Real.one_le_rpow hq1 hb
    have k2 : (p / x0) ^ β ≤ (x1 / x0) ^ β := Real.rpow_le_rpow (by positivity) hq2 hb
    refine ⟨(min_le_left _ _).trans ?_, le_trans ?_ (le_max_right _ _), hend⟩
    · rw [hv0]; nlinarith
    · rw [hv0, hy1']; exact mul_le_mul_of_nonneg_left k2 hy0.le
  · have k1 : (p / x0) ^ β ≤ 1 := Real.rpow_le_one_of_one_le_of_nonpos hq1 hb
    have k2 : (x1 / x0) ^ β ≤ (p / x0) ^ β := Real.rpow_le_rpow_of_nonpos (by positivity) hq2 hb
    refine ⟨(min_le_right _ _).trans ?_, le_trans ?_ (le_max_left _ _), hend⟩
    · rw [hv0, hy1']; exact mul_le_mul_of_nonneg_left k2 hy0.le
    · rw [hv0]; nlinarith

/-- The code finds the interval of the bound. -/
theorem nearest_interval {xs : List ℝ} {p : ℝ} (hs : xs.Pairwise (· < ·)) {i : Nat} {x0 : ℝ} (h0 : xs[i]? = some x0)
    (hp0 : x0 ≤ p) (hp1 : ∀ x1, xs[i + 1]? = some x1 → p < x1) : Container.nearest xs p .upper = .ok ((i : ℤ), x0) := by
  have hne : xs ≠ [] := by rintro rfl; simp at h0
  obtain ⟨j, v, h1, h2, h3, h4⟩ := (Container.c11_nearest_upper xs p hne (hs.imp (fun h => h.le))).1 x0
    (List.mem_of_getElem? h0) hp0
  have hv := h4 x0 (List.mem_of_getElem? h0) hp0
  obtain ⟨hi, e0⟩ := List.getElem?_eq_some_iff.1 h0
  obtain ⟨hj, e1⟩ := List.getElem?_eq_some_iff.1 h2
  have hij : j = i := by
    rcases Nat.lt_trichotomy j i with h | h | h
    · have := List.pairwise_iff_getElem.1 hs j i hj hi h
      rw [e0, e1] at this
      linarith
    · exact h
    · have h5 : i + 1 < xs.length := by omega
      have h6 := hp1 xs[i + 1] (List.getElem?_eq_getElem h5)
      have h7 : xs[i + 1] ≤ v := by
        rcases Nat.lt_or_ge (i + 1) j with h8 | h8
        · have := List.pairwise_iff_getElem.1 hs (i + 1) j h5 hj h8
          rw [e1] at this
          exact this.le
        · have : j = i + 1 := by omega
          subst this
          exact e1.le
      linarith
  subst hij
  rw [e0] at e1
  rw [h1, e1]

theorem min_sorted {xs : List ℝ} (hs : xs.Pairwise (· < ·)) {x : ℝ} (h : xs[0]? = some x) : xs.min? = some x := by
  cases xs with
  | nil => simp at h
  | cons a l =>
    simp only [List.getElem?_cons_zero, Option.some.injEq] at h
    subst h
    rw [List.min?_eq_some_iff]
    refine ⟨List.mem_cons_self .., fun b hb => ?_⟩
    rcases List.mem_cons.1 hb with rfl | hb
    · exact le_refl _
    · exact ((List.pairwise_cons.1 hs).1 b hb).le

/-- **C56**.  A spectrum for positive, increasing energies, and a bound in the interval between two of them, the upper one
excluded: the result starts at the bound.  There, the value is the one of the power law through the values at the ends of the
interval, which lies between these, and is the tabulated value if the bound is a tabulated energy.  The rest is
unchanged. -/
theorem c56_power_law (rows : List (List ℝ)) (xs : List ℝ) (p : ℝ) (hs : xs.Pairwise (· < ·)) (hx : ∀ x ∈ xs, 0 < x)
    (hlen : ∀ y ∈ rows, y.length = xs.length) (hy : ∀ y ∈ rows, ∀ v ∈ y, 0 < v) (i : Nat) (x0 x1 : ℝ)
    (h0 : xs[i]? = some x0) (h1 : xs[i + 1]? = some x1) (hp0 : x0 ≤ p) (hp1 : p < x1) :
    ∃ rows', checkInterp rows xs p = .ok (rows', p :: xs.drop (i + 1)) ∧
      List.Forall₂ (fun y y' => ∃ v y0 y1, y' = v :: y.drop (i + 1) ∧ y[i]? = some y0 ∧ y[i + 1]? = some y1 ∧
        OnPowerLaw x0 y0 x1 y1 p v ∧ min y0 y1 ≤ v ∧ v ≤ max y0 y1 ∧ (p = x0 → y' = y.drop i)) rows rows' := by
  have hx0 : 0 < x0 := hx _ (List.mem_of_getElem? h0)
  obtain ⟨m, hm, hmp⟩ : ∃ m, xs.min? = some m ∧ m ≤ p := by
    have hlt : 0 < xs.length := by
      obtain ⟨hi, _⟩ := List.getElem?_eq_some_iff.1 h0
      omega
    refine ⟨xs[0], min_sorted hs (List.getElem?_eq_getElem hlt), ?_⟩
    obtain ⟨hi, e0⟩ := List.getElem?_eq_some_iff.1 h0
    rcases Nat.eq_zero_or_pos i with h | h
    · subst h; rw [e0]; exact hp0
    · have := List.pairwise_iff_getElem.1 hs 0 i hlt hi h
      rw [e0] at this
      linarith
  have hn := nearest_interval hs h0 hp0 (fun x hx' => by rw [h1] at hx'; cases hx'; exact hp1)
  have hany : rows.any (fun y => decide (y.length ≠ xs.length)) = false := by
    rw [List.any_eq_false]
    intro y hy'
    simp [hlen y hy']
  have hg1 : Container.pyGet? xs ((i : ℤ) + 1) = some x1 := by
    have : ((i : ℤ) + 1) = ((i + 1 : ℕ) : ℤ) := by push_cast; rfl
    rw [this, Container.pyGet?_nat, h1]
  refine ⟨rows.map (fun y => ((Container.pyGet? y (i : ℤ)).getD 0 * (p / x0) ^
    (Real.log ((Container.pyGet? y ((i : ℤ) + 1)).getD 0 / (Container.pyGet? y (i : ℤ)).getD 0) / Real.log (x1 / x0))) ::
      y.drop (i + 1)), ?_, ?_⟩
  · unfold checkInterp
    rw [hm]
    simp only
    rw [if_neg (not_lt.2 hmp), hany, hn]
    simp only [hg1]
    simp only [Bool.false_eq_true, if_false]
    rw [if_pos (Int.natCast_nonneg i)]
    rfl
  · rw [List.forall₂_map_right_iff, List.forall₂_same]
    intro y hym
    have hyl := hlen y hym
    obtain ⟨hi, e0⟩ := List.getElem?_eq_some_iff.1 h0
    obtain ⟨hi1, e1⟩ := List.getElem?_eq_some_iff.1 h1
    have k0 : y[i]? = some (y[i]'(by omega)) := List.getElem?_eq_getElem (by omega)
    have k1 : y[i + 1]? = some (y[i + 1]'(by omega)) := List.getElem?_eq_getElem (by omega)
    have c0 : (Container.pyGet? y (i : ℤ)).getD 0 = y[i]'(by omega) := by rw [Container.pyGet?_nat, k0]; rfl
    have c1 : (Container.pyGet? y ((i : ℤ) + 1)).getD 0 = y[i + 1]'(by omega) := by
      have : ((i : ℤ) + 1) = ((i + 1 : ℕ) : ℤ) := by push_cast; rfl
      rw [this, Container.pyGet?_nat, k1]; rfl
    have hxx : x0 < x1 := by
      have := List.pairwise_iff_getElem.1 hs i (i + 1) hi hi1 (by omega)
      rwa [e0, e1] at this
    obtain ⟨q1, q2, q3, q4⟩ := interp_value hx0 hxx hp0 hp1 (hy y hym _ (List.mem_of_getElem? k0))
      (hy y hym _ (List.mem_of_getElem? k1))
    rw [c0, c1]
    refine ⟨_, _, _, rfl, k0, k1, q1, q2, q3, fun e => ?_⟩
    rw [q4 e]
    exact (List.drop_eq_getElem_cons (by omega)).symm

/-- **C56**, a bound below the tabulated energies: the spectrum is unchanged. -/
theorem c56_below (rows : List (List ℝ)) (xs : List ℝ) (p : ℝ) (hne : xs ≠ []) (h : ∀ x ∈ xs, p < x) :
    checkInterp rows xs p = .ok (rows, xs) := by
  unfold checkInterp
  cases hm : xs.min? with
  | none => exact absurd (List.min?_eq_none_iff.1 hm) hne
  | some m => exact if_pos (h m (List.min?_mem hm))

/-- **C56**, a bound at the last tabulated energy or above it is an error. -/
theorem c56_above (rows : List (List ℝ)) (xs : List ℝ) (p x : ℝ) (hs : xs.Pairwise (· < ·)) (hl : xs.getLast? = some x)
    (h : x ≤ p) : checkInterp rows xs p = .error .value := by
  have hne : xs ≠ [] := by rintro rfl; simp at hl
  have hlen : 0 < xs.length := List.length_pos_iff.2 hne
  rw [List.getLast?_eq_getElem?] at hl
  have hn := nearest_interval hs hl h (fun x1 h1 => by
    rw [show xs.length - 1 + 1 = xs.length by omega] at h1
    simp at h1)
  unfold checkInterp
  rw [min_sorted hs (List.getElem?_eq_getElem hlen)]
  simp only
  obtain ⟨hi, e0⟩ := List.getElem?_eq_some_iff.1 hl
  have h0 : xs[0] ≤ x := by
    rcases Nat.eq_zero_or_pos (xs.length - 1) with hz | hz
    · rw [← e0]; simp only [hz]; exact le_refl _
    · have := List.pairwise_iff_getElem.1 hs 0 (xs.length - 1) hlen hi hz
      rw [e0] at this
      exact this.le
  rw [if_neg (not_lt.2 (h0.trans h)), hn]
  have hg : Container.pyGet? xs (((xs.length - 1 : ℕ) : ℤ) + 1) = none := by
    have : (((xs.length - 1 : ℕ) : ℤ) + 1) = ((xs.length : ℕ) : ℤ) := by omega
    rw [this, Container.pyGet?_nat]
    simp
  simp only [hg]
  split <;> rfl

/-- two spectra for four energies, and a bound between the second and the third -/
example : ([1, 2, 4, 8] : List ℝ).Pairwise (· < ·) ∧ (∀ x ∈ ([1, 2, 4, 8] : List ℝ), 0 < x) ∧
    (∀ y ∈ ([[16, 4, 1, 1/4], [5, 4, 3, 2]] : List (List ℝ)), y.length = ([1, 2, 4, 8] : List ℝ).length ∧ ∀ v ∈ y, 0 < v) ∧
    ([1, 2, 4, 8] : List ℝ)[1]? = some 2 ∧ ([1, 2, 4, 8] : List ℝ)[1 + 1]? = some 4 ∧ (2 : ℝ) ≤ 3 ∧ (3 : ℝ) < 4 := by
  refine ⟨by norm_num, by norm_num, by norm_num, rfl, rfl, by norm_num, by norm_num⟩

end Eprem.Interpolate
