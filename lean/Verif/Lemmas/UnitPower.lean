import Verif.Lemmas.UnitAlgebra

/-!
# Integer powers of units (C102)
-/

namespace Eprem.Metric

open Eprem Eprem.Symbolic

theorem weight_power (a : List Term) (n : ℤ) :
    weight ((a.map (fun t => (⟨1, t.base, t.exp * n⟩ : Term))).map normalTerm) = |(n : ℚ)| * weight a := by
  unfold weight
  rw [List.map_map, List.map_map, ← List.sum_map_mul_left]
  congr 1
  refine List.map_congr_left ?_
  intro t _
  simp only [Function.comp, normalTerm]
  split
  next h =>
    have : weightOf t.base = 0 := by unfold weightOf; rw [if_pos h]
    have h1 : weightOf one = 0 := by unfold weightOf; rw [if_pos rfl]
    simp only [this, h1, zero_mul, mul_zero]
  next h => simp only [abs_mul]; ring

/-- integer powers of units -/
theorem unitPow_quarter {a : List Term} (ha : QuarterUnit a) (n : ℤ) (hn : n ≠ 0) :
    ∃ r, unitPow false a n = .ok r ∧ QuarterUnit r ∧ weight r ≤ |(n : ℚ)| * weight a ∧
      ∀ ρ, CoherentSizes ρ → value ρ r = value ρ a ^ n := by
  have hp : (n : ℚ) ≠ 0 := by exact_mod_cast hn
  have hfa := (isUnit_iff.1 ha.unit).frac
  have hterm : ∀ t ∈ a, (if false then t.fpow (n : ℚ) else t.pow n) = .ok ⟨1, t.base, t.exp * n⟩ := by
    intro t ht
    exact term_pow_one (ha.unit.coeff t ht) (hfa.wf t ht).2.1 (ha.unit.exp t ht).2 hp
  have hmap := mapTerms_eq (g := fun t => ⟨1, t.base, t.exp * n⟩) a hterm
  set L := (a.map (fun t => (⟨1, t.base, t.exp * n⟩ : Term))).map normalTerm with hL
  have hF : Frac 4 L := by
    refine ⟨by simpa [hL] using ha.unit.nonempty, ?_, ?_, ?_⟩
    all_goals
      intro t ht
      obtain ⟨u, hu, rfl⟩ := List.mem_map.1 ht
      obtain ⟨x, hx, rfl⟩ := List.mem_map.1 hu
      unfold normalTerm
      simp only
    · split <;> rfl
    · split
      · exact ⟨⟨4, by norm_num⟩, one_ne_zero⟩
      · obtain ⟨⟨z, hz⟩, h0⟩ := ha.unit.exp x hx
        exact ⟨⟨z * n, by rw [hz]; push_cast; ring⟩, mul_ne_zero h0 hp⟩
    · split
      · exact Or.inr ⟨rfl, rfl⟩
      next hb => exact Or.inl ((hfa.base x hx).resolve_right (fun h => hb h.1))
  obtain ⟨r, _, _, _, hr, hc, hx⟩ := reduce_ok hF.nonempty hF.wf
  have hR : Frac 4 r := reduce_frac (by norm_num) hF.nonempty hF.coeff hF.exp
    (fun t ht => (hF.base t ht).imp id And.left) hr
  obtain ⟨s1, _, _, _, s5, s6, _⟩ := reduce_spec hF.nonempty hF.wf hr
  have hs : ∀ t ∈ r, Usable t.base := by
    intro t ht
    by_cases h1 : t.base = one
    · rw [h1]; exact usable_one
    · have := s6 t ht h1
      simp only [hL, List.map_map, List.mem_map] at this
      obtain ⟨u, hu, hub⟩ := this
      simp only [Function.comp, normalTerm] at hub
      split at hub
      · exact absurd hub.symm h1
      · rw [← hub]; exact ((isUnit_iff.1 ha.unit).terms u hu).symbol
  refine ⟨r, ?_, ⟨unitTerms_of hR hs, ?_⟩, ?_, ?_⟩
  · unfold unitPow
    rw [hmap]
    simp only [ofSym]
    rw [← exprOfTerms_norm, exprOfTerms_printable _ hF.nonempty (hF.exact (by norm_num) (by norm_num)), hr]
    exact unitOfExpr_ok hR hs
  · intro t ht hd
    by_cases hb1 : t.base = one
    · rw [(s1.number t ht hb1).1]; exact ⟨2, by norm_num⟩
    · have h5 := s5 t.base hb1
      rw [expOf_of_nodup r s1.nodup t ht] at h5
      have key : ∀ l : List Term, (∀ u ∈ l, u.base = t.base → ∃ z : ℤ, u.exp = z / 2) → ∃ z : ℤ, expOf t.base l = z / 2 := by
        intro l
        induction l with
        | nil => intro _; exact ⟨0, by simp⟩
        | cons u l ih =>
          intro h
          obtain ⟨z, hz⟩ := ih (fun v hv => h v (List.mem_cons_of_mem _ hv))
          rw [expOf_cons, hz]
          by_cases hu : u.base = t.base
          · obtain ⟨w, hw⟩ := h u List.mem_cons_self hu
            exact ⟨w + z, by rw [if_pos hu, hw]; push_cast; ring⟩
          · exact ⟨z, by rw [if_neg hu, zero_add]⟩
      rw [h5]
      refine key L ?_
      intro u hu hub
      obtain ⟨v, hv, rfl⟩ := List.mem_map.1 hu
      obtain ⟨w, hw, rfl⟩ := List.mem_map.1 hv
      unfold normalTerm at hub ⊢
      simp only at hub ⊢
      split
      · exact ⟨2, by norm_num⟩
      next h1 =>
        rw [if_neg h1] at hub
        obtain ⟨z, hz⟩ := ha.derived w hw (by rw [hub]; exact hd)
        exact ⟨z * n, by simp only; rw [hz]; push_cast; ring⟩
  · refine le_trans (weight_reduce hF.nonempty hF.wf hr) (le_of_eq ?_)
    rw [hL, weight_power]
  · intro ρ hρ
    rw [value_congr ρ hρ.pos _ _ hc hx, hL, value_norm, value_pow hρ.pos _ _ ha.unit.coeff]
    have : (((n : ℚ) : ℝ)) = ((n : ℤ) : ℝ) := by norm_cast
    rw [this, Real.rpow_intCast]

end Eprem.Metric
