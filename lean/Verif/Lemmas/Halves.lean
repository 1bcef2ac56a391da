import Verif.Lemmas.Algebra
import Verif.Lemmas.Float

/-! # Arithmetic on products of half-integer powers of names, as in Gaussian dimensions -/

namespace Eprem.Symbolic

/-- products of half-integer powers of valid names, or the number one -/
structure Halves (ts : List Term) : Prop where
  nonempty : ts ≠ []
  coeff : ∀ t ∈ ts, t.coeff = 1
  exp : ∀ t ∈ ts, (∃ z : ℤ, t.exp = z / 2) ∧ t.exp ≠ 0
  base : ∀ t ∈ ts, ValidName t.base ∨ (t.base = one ∧ t.exp = 1)

theorem half_den {q : ℚ} (h : ∃ z : ℤ, q = z / 2) : q.den ≤ 2 := by
  obtain ⟨z, rfl⟩ := h
  have := Rat.den_dvd z 2
  have h2 : ((z / 2 : ℚ).den : ℤ) ∣ 2 := by exact_mod_cast this
  have := Int.le_of_dvd (by norm_num) h2
  exact_mod_cast this

theorem Halves.wf {ts : List Term} (h : Halves ts) : WF ts := by
  intro t ht
  refine ⟨by rw [h.coeff t ht]; exact one_ne_zero, ?_, (h.exp t ht).2⟩
  rcases h.base t ht with hb | hb
  · exact hb.ne_nil
  · rw [hb.1]; simp [one]

theorem Halves.exact {ts : List Term} (h : Halves ts) : Exact ts := by
  intro t ht
  have hc := h.coeff t ht
  have he := h.exp t ht
  exact {
    coeff := by rw [hc]; exact one_ne_zero
    exp := he.2
    base := (h.base t ht).symm
    coeffDen := by rw [hc]; decide
    coeffFloat := by rw [hc]; exact fl_one
    expDen := le_trans (half_den he.1) (by norm_num)
    notExpLike := fun _ => Or.inl hc }

theorem expOf_half {ts : List Term} (b : Str) (h : ∀ t ∈ ts, ∃ z : ℤ, t.exp = z / 2) : ∃ z : ℤ, expOf b ts = z / 2 := by
  induction ts with
  | nil => exact ⟨0, by simp⟩
  | cons t ts ih =>
    obtain ⟨z, hz⟩ := ih (fun u hu => h u (by simp [hu]))
    obtain ⟨w, hw⟩ := h t (by simp)
    rw [expOf_cons, hz]
    split
    · exact ⟨w + z, by rw [hw]; push_cast; ring⟩
    · exact ⟨z, by simp⟩

/-- reduction of coefficient-free half-integer-power terms stays in that class -/
theorem reduce_halves {ts r : List Term} (hne : ts ≠ []) (hc : ∀ t ∈ ts, t.coeff = 1)
    (he : ∀ t ∈ ts, (∃ z : ℤ, t.exp = z / 2) ∧ t.exp ≠ 0) (hb : ∀ t ∈ ts, ValidName t.base ∨ t.base = one)
    (h : reduce ts = .ok r) : Halves r := by
  have hw : WF ts := by
    intro t ht
    refine ⟨by rw [hc t ht]; exact one_ne_zero, ?_, (he t ht).2⟩
    rcases hb t ht with hb | hb
    · exact hb.ne_nil
    · rw [hb]; simp [one]
  obtain ⟨h1, h2, h3, h4, h5, h6, h7⟩ := reduce_spec hne hw h
  have hco := coefOf_one hc
  rw [hco] at h4
  have hcr : ∀ t ∈ r, t.coeff = 1 := by
    intro t ht
    by_cases hbo : t.base = one
    · have hall : ∀ u ∈ r.erase t, u.coeff = 1 := by
        intro u hu
        have hur := List.mem_of_mem_erase hu
        by_cases hu1 : u.base = one
        · exfalso
          have hnd : r.Nodup := List.Nodup.of_map _ h1.nodup
          have hne : u ≠ t := fun e => (List.Nodup.not_mem_erase hnd) (e ▸ hu)
          exact hne (List.inj_on_of_nodup_map h1.nodup hur ht (hu1.trans hbo.symm))
        · exact (h1.symbol u hur hu1).1
      have hp := coefOf_perm (List.perm_cons_erase ht)
      rw [coefOf_cons, coefOf_one hall, mul_one, h4] at hp
      exact hp.symm
    · exact (h1.symbol t ht hbo).1
  refine ⟨h3, hcr, ?_, ?_⟩
  · intro t ht
    by_cases hbo : t.base = one
    · rw [(h1.number t ht hbo).1]; exact ⟨⟨2, by norm_num⟩, one_ne_zero⟩
    · refine ⟨?_, (h1.symbol t ht hbo).2⟩
      have := h5 t.base hbo
      rw [expOf_of_nodup r h1.nodup t ht] at this
      rw [this]
      exact expOf_half _ (fun u hu => (he u hu).1)
  · intro t ht
    by_cases hbo : t.base = one
    · exact Or.inr ⟨hbo, (h1.number t ht hbo).1⟩
    · left
      obtain ⟨u, hu, hub⟩ := List.mem_map.1 (h6 t ht hbo)
      rcases hb u hu with h' | h'
      · rw [← hub]; exact h'
      · exact absurd (hub ▸ h') hbo

theorem halves_mul {a b : List Term} (ha : Halves a) (hb : Halves b) :
    ∃ r, exprMul a b = .ok r ∧ Halves r ∧ ∀ ρ, Positive ρ → value ρ r = value ρ a * value ρ b := by
  have hw := ha.wf.append hb.wf
  have hne : a ++ b ≠ [] := by simp [hb.nonempty]
  obtain ⟨r, _, _, _, hr, hc, he⟩ := reduce_ok hne hw
  have hN : Halves r := reduce_halves hne
    (by intro t ht; rcases List.mem_append.1 ht with h | h; exacts [ha.coeff t h, hb.coeff t h])
    (by intro t ht; rcases List.mem_append.1 ht with h | h; exacts [ha.exp t h, hb.exp t h])
    (by intro t ht; rcases List.mem_append.1 ht with h | h
        exacts [(ha.base t h).imp id And.left, (hb.base t h).imp id And.left]) hr
  refine ⟨r, exprMul_eq hb.nonempty hw hr hN.exact, hN, ?_⟩
  intro ρ hρ
  rw [← value_append]; exact value_congr ρ hρ _ _ hc he

theorem fl_half (z : ℤ) (h : |z| < 2 ^ 53) : fl ((z : ℚ) / 2) = z / 2 :=
  fl_rep ⟨z, -1, by norm_num [zpow_neg_one, div_eq_mul_inv], h⟩

theorem halves_pow {a : List Term} (ha : Halves a) {n : ℤ} (hn : n ≠ 0)
    (hb : ∀ t ∈ a, ∃ z : ℤ, t.exp = z / 2 ∧ |z * n| < 2 ^ 53) :
    ∃ r, exprPow a n = .ok r ∧ Halves r ∧ ∀ ρ, Positive ρ → value ρ r = value ρ a ^ n := by
  have hw := ha.wf.ipow hn
  have hne : a.map (Term.ipow n) ≠ [] := by simpa using ha.nonempty
  obtain ⟨r, _, _, _, hr, hc, he⟩ := reduce_ok hne hw
  have hpe : ∀ t ∈ a, PowExact n t := by
    intro t ht
    obtain ⟨z, hz, hb'⟩ := hb t ht
    refine ⟨?_, by rw [ha.coeff t ht]; exact fl_one, ?_, by rw [ha.coeff t ht, one_zpow]; exact fl_one⟩
    · rw [hz]
      apply fl_half
      rw [abs_mul] at hb'
      have : 1 ≤ |n| := Int.one_le_abs hn
      have h0 := abs_nonneg z
      nlinarith
    · rw [hz]
      have := fl_half (z * n) hb'
      push_cast at this
      rw [show (z : ℚ) / 2 * n = z * n / 2 by ring]; exact this
  have hN : Halves r := reduce_halves hne
    (by intro t ht
        obtain ⟨u, hu, rfl⟩ := List.mem_map.1 ht
        simp [Term.ipow, ha.coeff u hu])
    (by intro t ht
        obtain ⟨u, hu, rfl⟩ := List.mem_map.1 ht
        have hn' : (n : Rat) ≠ 0 := by exact_mod_cast hn
        refine ⟨?_, mul_ne_zero (ha.exp u hu).2 hn'⟩
        obtain ⟨z, hz, _⟩ := hb u hu
        exact ⟨z * n, by simp only [Term.ipow]; rw [hz]; push_cast; ring⟩)
    (by intro t ht
        obtain ⟨u, hu, rfl⟩ := List.mem_map.1 ht
        exact (ha.base u hu).imp id And.left) hr
  refine ⟨r, exprPow_eq hn ha.nonempty ha.wf hpe hr hN.exact, hN, ?_⟩
  intro ρ hρ
  rw [← value_ipow ρ hρ]; exact value_congr ρ hρ _ _ hc he

end Eprem.Symbolic
