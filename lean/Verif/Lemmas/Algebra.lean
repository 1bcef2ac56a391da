import Verif.Lemmas.Print
import Verif.Spec.Algebra

namespace Eprem.Symbolic

theorem WF.append {a b : List Term} (ha : WF a) (hb : WF b) : WF (a ++ b) := by
  intro t ht
  rcases List.mem_append.1 ht with h | h
  · exact ha t h
  · exact hb t h

theorem WF.bases {a : List Term} (ha : WF a) : ∀ t ∈ a, t.base ≠ [] := fun t ht => (ha t ht).2.1

/-- everything about the result of `reduce` -/
theorem reduce_spec {ts r : List Term} (hne : ts ≠ []) (hw : WF ts) (h : reduce ts = .ok r) :
    Canonical r ∧ WF r ∧ r ≠ [] ∧ coefOf r = coefOf ts ∧ (∀ b, b ≠ one → expOf b r = expOf b ts) ∧
    (∀ t ∈ r, t.base ≠ one → t.base ∈ ts.map Term.base) ∧ reduce r = .ok r := by
  obtain ⟨r', vs, hp, hr', hr, hc, he⟩ := reduce_ok hne hw
  rw [hr, Except.ok.injEq] at h
  subst h
  have hc0 := coefOf_ne_zero hw
  have hcan : Canonical r' := hr' ▸ assemble_canonical hp hc0
  have hwf := assemble_wf hp hw.bases hc0
  rw [← hr'] at hwf
  refine ⟨hcan, hwf.1, hwf.2, hc, he, ?_, hcan.reduce_self hwf.1.bases⟩
  intro t ht hb
  by_contra hcon
  have h1 := expOf_of_not_mem ts t.base hcon
  rw [← he _ hb, expOf_of_nodup r' hcan.nodup t ht] at h1
  exact (hcan.symbol t ht hb).2 h1

theorem exprOfTerms_reduced {ts r : List Term} (hne : ts ≠ []) (hw : WF ts) (h : reduce ts = .ok r) (hx : Exact r) :
    exprOfTerms r = .ok r := by
  obtain ⟨_, _, h3, _, _, _, h7⟩ := reduce_spec hne hw h
  rw [exprOfTerms_printable r h3 hx, h7]

theorem exprMul_eq {a b r : List Term} (hb : b ≠ []) (hw : WF (a ++ b))
    (h : reduce (a ++ b) = .ok r) (hx : Exact r) : exprMul a b = .ok r := by
  unfold exprMul
  simp only [hb, if_false, bind, Except.bind, pure, Except.pure]
  rw [h]
  exact exprOfTerms_reduced (by simp [hb]) hw h hx

/-- reciprocal of a term -/
def Term.inv (t : Term) : Term := ⟨t.coeff⁻¹, t.base, -t.exp⟩

theorem term_pow_neg_one {t : Term} (h : t.coeff ≠ 0 ∧ t.base ≠ [] ∧ t.exp ≠ 0) : t.pow (-1) = .ok t.inv := by
  unfold Term.pow fracPow
  have h1 : ((-1 : Rat)).den = 1 := rfl
  have h2 : ((-1 : Rat)).num = -1 := rfl
  simp only [h1, h2, if_true, h.1, false_and, if_false, bind, Except.bind, pure, Except.pure]
  simp [mkTerm, orOne, orOneStr, h.1, h.2.1, h.2.2, Term.inv]

theorem mapTerms_eq {f : Term → Except Err Term} {g : Term → Term} (b : List Term) (h : ∀ t ∈ b, f t = .ok (g t)) :
    mapTerms f b = .ok (b.map g) := by
  induction b with
  | nil => rfl
  | cons t b ih =>
    unfold mapTerms
    rw [h t (by simp), ih (fun u hu => h u (by simp [hu]))]
    rfl

theorem WF.inv {b : List Term} (h : WF b) : WF (b.map Term.inv) := by
  intro t ht
  obtain ⟨u, hu, rfl⟩ := List.mem_map.1 ht
  obtain ⟨h1, h2, h3⟩ := h u hu
  exact ⟨inv_ne_zero h1, h2, neg_ne_zero.2 h3⟩

theorem coefOf_inv (b : List Term) : coefOf (b.map Term.inv) = (coefOf b)⁻¹ := by
  induction b with
  | nil => simp
  | cons t b ih => simp [ih, Term.inv, mul_comm]

theorem expOf_inv (x : Str) (b : List Term) : expOf x (b.map Term.inv) = -expOf x b := by
  induction b with
  | nil => simp
  | cons t b ih =>
    rw [List.map_cons, expOf_cons, expOf_cons, ih]
    by_cases h : t.base = x <;> simp only [Term.inv, h, if_true, if_false] <;> ring

theorem exprDiv_eq {a b r : List Term} (hb : b ≠ []) (ha : WF a) (hwb : WF b)
    (h : reduce (a ++ b.map Term.inv) = .ok r) (hx : Exact r) : exprDiv a b = .ok r := by
  unfold exprDiv
  rw [mapTerms_eq (g := Term.inv) b (fun t ht => term_pow_neg_one (hwb t ht))]
  simp only [hb, if_false, bind, Except.bind, pure, Except.pure]
  rw [h]
  exact exprOfTerms_reduced (by simp [hb]) (ha.append hwb.inv) h hx

/-- integer power of a term -/
def Term.ipow (n : Int) (t : Term) : Term := ⟨t.coeff ^ n, t.base, t.exp * n⟩

theorem term_fpow {t : Term} {n : Int} (hn : n ≠ 0) (h : t.coeff ≠ 0 ∧ t.base ≠ [] ∧ t.exp ≠ 0) (hx : PowExact n t) :
    t.fpow n = .ok (t.ipow n) := by
  unfold Term.fpow
  have h1 : ((n : Rat)).den = 1 := rfl
  have h2 : ((n : Rat)).num = n := rfl
  have hn' : (n : Rat) ≠ 0 := by exact_mod_cast hn
  simp only [h1, h2, if_true, hx.exp, hx.coeff, hx.expMul, hx.coeffPow, h.1, false_and, if_false]
  simp [mkTerm, orOne, orOneStr, h.1, h.2.1, h.2.2, Term.ipow, hn, zpow_eq_zero_iff]

theorem WF.ipow {b : List Term} (h : WF b) {n : Int} (hn : n ≠ 0) : WF (b.map (Term.ipow n)) := by
  intro t ht
  obtain ⟨u, hu, rfl⟩ := List.mem_map.1 ht
  obtain ⟨h1, h2, h3⟩ := h u hu
  have hn' : (n : Rat) ≠ 0 := by exact_mod_cast hn
  exact ⟨zpow_ne_zero _ h1, h2, mul_ne_zero h3 hn'⟩

theorem coefOf_ipow (n : Int) (b : List Term) : coefOf (b.map (Term.ipow n)) = (coefOf b) ^ n := by
  induction b with
  | nil => simp
  | cons t b ih => simp [ih, Term.ipow, mul_zpow]

theorem expOf_ipow (n : Int) (x : Str) (b : List Term) : expOf x (b.map (Term.ipow n)) = expOf x b * n := by
  induction b with
  | nil => simp
  | cons t b ih =>
    rw [List.map_cons, expOf_cons, expOf_cons, ih]
    by_cases h : t.base = x <;> simp only [Term.ipow, h, if_true, if_false] <;> ring

theorem exprPow_eq {a r : List Term} {n : Int} (hn : n ≠ 0) (hne : a ≠ []) (ha : WF a) (hp : ∀ t ∈ a, PowExact n t)
    (h : reduce (a.map (Term.ipow n)) = .ok r) (hx : Exact r) : exprPow a n = .ok r := by
  unfold exprPow
  rw [mapTerms_eq (g := Term.ipow n) a (fun t ht => term_fpow hn (ha t ht) (hp t ht))]
  have hn' : (n : Rat) ≠ 0 := by exact_mod_cast hn
  simp only [hn', if_false, bind, Except.bind, pure, Except.pure]
  rw [h]
  exact exprOfTerms_reduced (by simpa using hne) (ha.ipow hn) h hx

/-! ### value determines the canonical form -/

theorem logPart_one (ts : List Term) : value (fun _ => 1) ts = (coefOf ts : ℝ) := by
  induction ts with
  | nil => simp [value]
  | cons t ts ih =>
    simp only [value, List.map_cons, List.prod_cons, coefOf_cons, Rat.cast_mul] at *
    rw [ih]; simp [Term.val]

theorem value_probe (b : Str) (hb : b ≠ one) (ts : List Term) :
    value (fun x => if x = b then Real.exp 1 else 1) ts = (coefOf ts : ℝ) * Real.exp (expOf b ts : ℝ) := by
  induction ts with
  | nil => simp [value]
  | cons t ts ih =>
    simp only [value, List.map_cons, List.prod_cons, coefOf_cons, Rat.cast_mul] at *
    rw [ih, expOf_cons]
    push_cast
    rw [Real.exp_add]
    simp only [Term.val]
    by_cases h : t.base = b
    · have h1 : t.base ≠ one := h ▸ hb
      simp only [h, if_true, hb, if_false, ← Real.exp_mul, one_mul]
      ring
    · simp only [h, if_false, Real.one_rpow, ite_self]
      simp; ring

theorem canonical_unique {a b : List Term} (ha : Canonical a) (hb : Canonical b) (wa : WF a) (wb : WF b)
    (h : ∀ ρ, Positive ρ → value ρ a = value ρ b) : a = b := by
  have hc : coefOf a = coefOf b := by
    have := h (fun _ => 1) (fun _ => one_pos)
    rw [logPart_one, logPart_one] at this
    exact_mod_cast this
  have he : ∀ x, x ≠ one → expOf x a = expOf x b := by
    intro x hx
    have := h (fun y => if y = x then Real.exp 1 else 1) (by
      intro y; simp only; split
      · exact Real.exp_pos _
      · exact one_pos)
    rw [value_probe x hx, value_probe x hx, hc] at this
    have h0 : (coefOf b : ℝ) ≠ 0 := by exact_mod_cast coefOf_ne_zero wb
    have := mul_left_cancel₀ h0 this
    exact_mod_cast Real.exp_injective this
  have := reduce_congr ha.nonempty hb.nonempty wa.bases wb.bases hc he
  rw [ha.reduce_self wa.bases, hb.reduce_self wb.bases] at this
  simpa using this

/-! ### names without coefficients -/

theorem ValidName.ne_nil {b : Str} (h : ValidName b) : b ≠ [] := by
  obtain ⟨ls, ds, h1, h2, _⟩ := h
  rw [h1]; simp [h2]

theorem NamesOnly.wf {ts : List Term} (h : NamesOnly ts) : WF ts := by
  intro t ht
  refine ⟨by rw [h.coeff t ht]; exact one_ne_zero, ?_, (h.exp t ht).2⟩
  rcases h.base t ht with hb | hb
  · exact hb.ne_nil
  · rw [hb.1]; simp [one]

theorem NamesOnly.exact {ts : List Term} (h : NamesOnly ts) : Exact ts := by
  intro t ht
  have hc := h.coeff t ht
  have he := h.exp t ht
  exact {
    coeff := by rw [hc]; exact one_ne_zero
    exp := he.2
    base := (h.base t ht).symm
    coeffDen := by rw [hc]; decide
    coeffFloat := by rw [hc]; exact fl_one
    expDen := by rw [he.1]; decide
    notExpLike := fun _ => Or.inl hc }

theorem coefOf_one {ts : List Term} (h : ∀ t ∈ ts, t.coeff = 1) : coefOf ts = 1 := by
  induction ts with
  | nil => rfl
  | cons t ts ih => simp [h t (by simp), ih (fun u hu => h u (by simp [hu]))]

theorem expOf_int {ts : List Term} (b : Str) (h : ∀ t ∈ ts, t.exp.den = 1) : (expOf b ts).den = 1 := by
  have : ∃ z : Int, expOf b ts = z := by
    induction ts with
    | nil => exact ⟨0, by simp⟩
    | cons t ts ih =>
      obtain ⟨z, hz⟩ := ih (fun u hu => h u (by simp [hu]))
      rw [expOf_cons, hz]
      split
      · refine ⟨t.exp.num + z, ?_⟩
        have := Rat.num_div_den t.exp
        rw [h t (by simp)] at this
        push_cast
        rw [← this]; simp
      · exact ⟨z, by simp⟩
  obtain ⟨z, hz⟩ := this
  rw [hz]; rfl

/-- reduction of coefficient-free integer-power terms stays in that class -/
theorem reduce_names {ts r : List Term} (hne : ts ≠ []) (hc : ∀ t ∈ ts, t.coeff = 1)
    (he : ∀ t ∈ ts, t.exp.den = 1 ∧ t.exp ≠ 0) (hb : ∀ t ∈ ts, ValidName t.base ∨ t.base = one)
    (h : reduce ts = .ok r) : NamesOnly r := by
  have hw : WF ts := by
    intro t ht
    refine ⟨by rw [hc t ht]; exact one_ne_zero, ?_, (he t ht).2⟩
    rcases hb t ht with hb | hb
    · exact hb.ne_nil
    · rw [hb]; simp [one]
  obtain ⟨h1, h2, h3, h4, h5, h6, h7⟩ := reduce_spec hne hw h
  have hco := coefOf_one hc
  rw [hco] at h4
  have hcr : ∀ t ∈ r, t.coeff = 1 := by
    intro t ht
    by_cases hbo : t.base = one
    · -- the product of all coefficients is the constant
      have hall : ∀ u ∈ r.erase t, u.coeff = 1 := by
        intro u hu
        have hur := List.mem_of_mem_erase hu
        by_cases hu1 : u.base = one
        · exfalso
          have hnd : r.Nodup := List.Nodup.of_map _ h1.nodup
          have hne : u ≠ t := fun e => (List.Nodup.not_mem_erase hnd) (e ▸ hu)
          exact hne (List.inj_on_of_nodup_map h1.nodup hur ht (hu1.trans hbo.symm))
        · exact (h1.symbol u hur hu1).1
      have hp := coefOf_perm (List.perm_cons_erase ht)
      rw [coefOf_cons, coefOf_one hall, mul_one, h4] at hp
      exact hp.symm
    · exact (h1.symbol t ht hbo).1
  refine ⟨h3, hcr, ?_, ?_⟩
  · intro t ht
    by_cases hbo : t.base = one
    · rw [(h1.number t ht hbo).1]; exact ⟨rfl, one_ne_zero⟩
    · refine ⟨?_, (h1.symbol t ht hbo).2⟩
      have := h5 t.base hbo
      rw [expOf_of_nodup r h1.nodup t ht] at this
      rw [this]
      exact expOf_int _ (fun u hu => (he u hu).1)
  · intro t ht
    by_cases hbo : t.base = one
    · exact Or.inr ⟨hbo, (h1.number t ht hbo).1⟩
    · left
      obtain ⟨u, hu, hub⟩ := List.mem_map.1 (h6 t ht hbo)
      rcases hb u hu with h' | h'
      · rw [← hub]; exact h'
      · exact absurd (hub ▸ h') hbo

theorem value_inv (ρ : Str → ℝ) (hρ : Positive ρ) (b : List Term) : value ρ (b.map Term.inv) = (value ρ b)⁻¹ := by
  induction b with
  | nil => simp [value]
  | cons t b ih =>
    simp only [value, List.map_cons, List.prod_cons] at *
    rw [ih, mul_inv]
    congr 1
    by_cases h : t.base = one <;> simp only [Term.val, Term.inv, h, if_true, if_false]
    · simp
    · push_cast; rw [Real.rpow_neg (hρ _).le, mul_inv]

theorem value_ipow (ρ : Str → ℝ) (hρ : Positive ρ) (n : Int) (b : List Term) :
    value ρ (b.map (Term.ipow n)) = (value ρ b) ^ n := by
  induction b with
  | nil => simp [value]
  | cons t b ih =>
    simp only [value, List.map_cons, List.prod_cons] at *
    rw [ih, mul_zpow]
    congr 1
    by_cases h : t.base = one <;> simp only [Term.val, Term.ipow, h, if_true, if_false]
    · simp
    · push_cast; rw [mul_zpow, Real.rpow_mul (hρ _).le, Real.rpow_intCast]

/-! ### equality -/

theorem sortKey_perm (l : List Term) : (sortBy keyLe l).Perm l := sortBy_perm _ _

theorem zip_all_eq {a b : List Term} (hl : a.length = b.length)
    (h : (a.zip b).all (fun p => termEq p.1 p.2) = true)
    (hx : ∀ t ∈ a, ∀ u ∈ b, termEq t u = true → t = u) : a = b := by
  induction a generalizing b with
  | nil => cases b <;> simp_all
  | cons t a ih =>
    cases b with
    | nil => simp at hl
    | cons u b =>
      simp only [List.zip_cons_cons, List.all_cons, Bool.and_eq_true] at h
      rw [hx t (by simp) u (by simp) h.1, ih (by simpa using hl) h.2 (fun t' ht u' hu => hx t' (by simp [ht]) u' (by simp [hu]))]

theorem exprEq_refl (a : List Term) : exprEq a a = true := by
  unfold exprEq
  simp only [decide_eq_true_eq, true_and]
  generalize sortBy keyLe a = l
  induction l with
  | nil => simp
  | cons t l ih => simp only [List.zip_cons_cons, List.all_cons, Bool.and_eq_true]; exact ⟨by simp [termEq], ih⟩

theorem exprEq_perm {a b : List Term} (h : exprEq a b = true)
    (hx : ∀ t ∈ a, ∀ u ∈ b, termEq t u = true → t = u) : a.Perm b := by
  unfold exprEq at h
  simp only [decide_eq_true_eq] at h
  have := zip_all_eq (a := sortBy keyLe a) (b := sortBy keyLe b)
    (by rw [(sortKey_perm a).length_eq, (sortKey_perm b).length_eq]; exact h.1) h.2
    (fun t ht u hu => hx t ((sortKey_perm a).mem_iff.1 ht) u ((sortKey_perm b).mem_iff.1 hu))
  exact (sortKey_perm a).symm.trans (this ▸ sortKey_perm b)

end Eprem.Symbolic
