import Verif.Lemmas.UnitEquivalence
import Verif.Spec.UnitAlgebra

/-! # Lemmas for products of any number of units -/

namespace Eprem.Metric

open Eprem Eprem.Symbolic

theorem weightOf_one : weightOf one = 0 := by simp [weightOf]

theorem weightOf_ge {b : Name} (hb : b ≠ one) : 1 ≤ weightOf b := by
  unfold weightOf
  rw [if_neg hb]
  cases h : derivedUnits.find? (fun p => decide (p.1 = b)) with
  | none => exact le_rfl
  | some p =>
    have : ∀ p ∈ derivedUnits, 1 ≤ (p.2.map (fun q => |q.2|)).sum := by decide +kernel
    exact this p (List.mem_of_find?_eq_some h)

theorem weightOf_nonneg (b : Name) : 0 ≤ weightOf b := by
  by_cases hb : b = one
  · rw [hb, weightOf_one]
  · exact le_trans zero_le_one (weightOf_ge hb)

theorem weightOf_base {b : Name} (hb : b ≠ one) (h : derivedUnits.find? (fun p => decide (p.1 = b)) = none) :
    weightOf b = 1 := by
  unfold weightOf
  rw [if_neg hb, h]

theorem weight_nonneg (u : List Term) : 0 ≤ weight u := by
  unfold weight
  apply List.sum_nonneg
  intro x hx
  obtain ⟨t, _, rfl⟩ := List.mem_map.1 hx
  exact mul_nonneg (weightOf_nonneg _) (abs_nonneg _)

theorem weight_append (a b : List Term) : weight (a ++ b) = weight a + weight b := by
  unfold weight; rw [List.map_append, List.sum_append]

theorem weight_perm {a b : List Term} (h : a.Perm b) : weight a = weight b := by
  unfold weight; exact (h.map _).sum_eq

theorem weight_inv (a : List Term) : weight (a.map Term.inv) = weight a := by
  unfold weight
  rw [List.map_map]
  congr 1
  refine List.map_congr_left ?_
  intro t _
  simp [Term.inv]

theorem weight_ipow (a : List Term) : weight (a.map (Term.ipow 2)) = 2 * weight a := by
  unfold weight
  rw [List.map_map, ← List.sum_map_mul_left]
  congr 1
  refine List.map_congr_left ?_
  intro t _
  simp [Term.ipow, abs_mul]
  ring

/-- the exponents of different symbols -/
theorem weight_bases : ∀ (ts : List Term) (L : List Name), L.Nodup →
    (L.map (fun b => weightOf b * |expOf b ts|)).sum ≤ weight ts
  | [], L, _ => by
    have : (L.map (fun b => weightOf b * |expOf b []|)).sum = 0 := by
      apply List.sum_eq_zero
      intro x hx
      obtain ⟨b, _, rfl⟩ := List.mem_map.1 hx
      simp
    rw [this]; exact weight_nonneg _
  | t :: ts, L, hL => by
    have ih := weight_bases ts L hL
    have e : weight (t :: ts) = weightOf t.base * |t.exp| + weight ts := by simp [weight]
    rw [e]
    have h1 : (L.map (fun b => weightOf b * |expOf b (t :: ts)|)).sum ≤
        (L.map (fun b => (if b = t.base then weightOf t.base * |t.exp| else 0) + weightOf b * |expOf b ts|)).sum := by
      apply List.sum_le_sum
      intro b _
      rw [expOf_cons]
      have h2 : |(if t.base = b then t.exp else 0) + expOf b ts| ≤ (if t.base = b then |t.exp| else 0) + |expOf b ts| := by
        refine le_trans (abs_add_le _ _) (add_le_add ?_ le_rfl)
        split <;> simp
      have h3 := mul_le_mul_of_nonneg_left h2 (weightOf_nonneg b)
      rw [mul_add] at h3
      refine le_trans h3 (add_le_add ?_ le_rfl)
      by_cases hb : t.base = b
      · rw [if_pos hb, if_pos hb.symm, hb]
      · rw [if_neg hb, if_neg (fun h => hb h.symm), mul_zero]
    refine le_trans h1 ?_
    rw [List.sum_map_add]
    refine add_le_add ?_ ih
    clear ih h1 e
    have hw : 0 ≤ weightOf t.base * |t.exp| := mul_nonneg (weightOf_nonneg _) (abs_nonneg _)
    generalize weightOf t.base * |t.exp| = w at hw ⊢
    induction L with
    | nil => simpa using hw
    | cons b L ih =>
      obtain ⟨hb, hL⟩ := List.nodup_cons.1 hL
      rw [List.map_cons, List.sum_cons]
      by_cases h : b = t.base
      · rw [if_pos h]
        have : (L.map (fun b => if b = t.base then w else 0)).sum = 0 := by
          apply List.sum_eq_zero
          intro x hx
          obtain ⟨c, hc, rfl⟩ := List.mem_map.1 hx
          rw [if_neg]
          intro hct
          exact hb (h ▸ hct ▸ hc)
        rw [this, add_zero]
      · rw [if_neg h, zero_add]; exact ih hL

theorem weight_reduce {ts r : List Term} (hne : ts ≠ []) (hw : WF ts) (h : reduce ts = .ok r) : weight r ≤ weight ts := by
  obtain ⟨s1, _, _, _, s5, _, _⟩ := reduce_spec hne hw h
  refine le_trans (le_of_eq ?_) (weight_bases ts (r.map Term.base) s1.nodup)
  unfold weight
  rw [List.map_map]
  congr 1
  refine List.map_congr_left ?_
  intro t ht
  simp only [Function.comp]
  by_cases hb : t.base = one
  · rw [hb, weightOf_one, zero_mul, zero_mul]
  · rw [← s5 t.base hb, expOf_of_nodup r s1.nodup t ht]

theorem weight_expandTerm (t : Term) : weight (expandTerm t) = weightOf t.base * |t.exp| := by
  unfold expandTerm
  cases h : derivedUnits.find? (fun p => decide (p.1 = t.base)) with
  | none => simp [weight]
  | some p =>
    have hp := List.mem_of_find?_eq_some h
    have hb : p.1 = t.base := by simpa using List.find?_some h
    have h1 : t.base ≠ one := hb ▸ (derived_length p hp).2
    have hw : weightOf t.base = (p.2.map (fun q => |q.2|)).sum := by
      unfold weightOf; rw [if_neg h1, h]
    rw [hw]
    unfold weight
    simp only
    rw [List.map_map, ← List.sum_map_mul_right]
    congr 1
    refine List.map_congr_left ?_
    intro q hq
    obtain ⟨f1, f2, _⟩ := derived_flat p hp q hq
    simp only [Function.comp]
    rw [weightOf_base f2 f1, one_mul, abs_mul]

theorem weight_expand : ∀ u : List Term, weight (expandUnit u) = weight u
  | [] => rfl
  | t :: u => by
    have ih := weight_expand u
    have e : expandUnit (t :: u) = expandTerm t ++ expandUnit u := by unfold expandUnit; rw [List.flatMap_cons]
    rw [e, weight_append, ih, weight_expandTerm]
    simp [weight]

theorem small_of_weight {u : List Term} (hn : ∀ t ∈ u, t.base = one → t.exp = 1) (h : weight u < 2 ^ 50) :
    SmallExponents u := by
  intro t ht
  by_cases hb : t.base = one
  · rw [hn t ht hb]; norm_num
  · have h1 : weightOf t.base * |t.exp| ≤ weight u := by
      unfold weight
      refine List.single_le_sum ?_ _ (List.mem_map_of_mem ht)
      intro x hx
      obtain ⟨y, _, rfl⟩ := List.mem_map.1 hx
      exact mul_nonneg (weightOf_nonneg _) (abs_nonneg _)
    have h2 : |t.exp| ≤ weightOf t.base * |t.exp| := by
      have := mul_le_mul_of_nonneg_right (weightOf_ge hb) (abs_nonneg t.exp)
      simpa using this
    exact lt_of_le_of_lt (le_trans h2 h1) h

theorem not_derived_of_find {b : Name} (h : derivedUnits.find? (fun p => decide (p.1 = b)) = none) :
    b ∉ derivedUnits.map Prod.fst := by
  intro hm
  obtain ⟨p, hp, rfl⟩ := List.mem_map.1 hm
  have := List.find?_eq_none.1 h p hp
  simp at this

theorem derived_halves : ∀ p ∈ derivedUnits, ∀ q ∈ p.2, ∃ z : ℤ, q.2 = z / 2 := by
  have h : ∀ p ∈ derivedUnits, ∀ q ∈ p.2, q.2 = ((2 * q.2).num : ℚ) / 2 := by decide +kernel
  exact fun p hp q hq => ⟨_, h p hp q hq⟩

theorem expand_quarter {u : List Term} (hu : QuarterUnit u) : ∀ x ∈ expandUnit u, (∃ z : ℤ, x.exp = z / (4 : ℕ)) ∧ x.exp ≠ 0 := by
  intro x hx
  have hU := isUnit_iff.1 hu.unit
  refine ⟨?_, (expandUnit_mem hU hx).2.2.2.1⟩
  obtain ⟨t, ht, hxt⟩ := List.mem_flatMap.1 hx
  unfold expandTerm at hxt
  cases h : derivedUnits.find? (fun p => decide (p.1 = t.base)) with
  | none =>
    rw [h, List.mem_singleton] at hxt
    subst hxt
    exact (hu.unit.exp x ht).1
  | some p =>
    rw [h] at hxt
    obtain ⟨q, hq, rfl⟩ := List.mem_map.1 hxt
    have hp := List.mem_of_find?_eq_some h
    have hb : p.1 = t.base := by simpa using List.find?_some h
    obtain ⟨z, hz⟩ := hu.derived t ht (hb ▸ List.mem_map_of_mem hp)
    obtain ⟨w, hw⟩ := derived_halves p hp q hq
    refine ⟨w * z, ?_⟩
    simp only
    rw [hw, hz]; push_cast; ring

/-- the decomposition of a unit -/
theorem decompose_quarter {o : List System} (ho : o ∈ Orders) {u : List Term} (hu : QuarterUnit u) :
    ∃ r, decomposeUnit' o u = .ok r ∧ exprOfTerms r = .ok r ∧ Frac 4 r ∧ (∀ t ∈ r, Usable t.base) ∧
      (∀ t ∈ r, t.base ∉ derivedUnits.map Prod.fst) ∧ weight r ≤ weight u ∧
      ∀ ρ, CoherentSizes ρ → value ρ r = value ρ u := by
  have hU := isUnit_iff.1 hu.unit
  obtain ⟨r, h1, h2, h3, h4, h5⟩ := decomposeUnit_ok ho (by norm_num) (by norm_num) hU.nonempty hU.terms
  have hr := decompose_reduce ho hU
  rw [h1] at hr
  have hne := expandUnit_ne hU
  have hw : WF (expandUnit u) := by
    intro t ht
    obtain ⟨c1, _, c3, c4, _⟩ := expandUnit_mem hU ht
    exact ⟨by rw [c1]; exact one_ne_zero, c3, c4⟩
  have hrr : reduce (expandUnit u) = .ok r := by
    cases hq : reduce (expandUnit u) with
    | error e => rw [hq] at hr; cases hr
    | ok q => rw [hq] at hr; simp only [ofSym, Except.ok.injEq] at hr; rw [hr]
  obtain ⟨s1, _, _, _, s5, s6, _⟩ := reduce_spec hne hw hrr
  have hone : one ∉ derivedUnits.map Prod.fst := by decide +kernel
  have hF : Frac 4 r := by
    refine ⟨h3.nonempty, h3.coeff, ?_, h3.base⟩
    intro t ht
    refine ⟨?_, (h3.exp t ht).2⟩
    by_cases hb : t.base = one
    · rw [(s1.number t ht hb).1]; exact ⟨4, by norm_num⟩
    · have := s5 t.base hb
      rw [expOf_of_nodup r s1.nodup t ht] at this
      rw [this]
      exact expOf_frac _ (fun x hx => (expand_quarter hu x hx).1)
  refine ⟨r, h1, h2, hF, h4, ?_, ?_, h5⟩
  · intro t ht
    by_cases hb : t.base = one
    · rw [hb]; exact hone
    · obtain ⟨x, hx, hxb⟩ := List.mem_map.1 (s6 t ht hb)
      rw [← hxb]
      exact not_derived_of_find (expandUnit_mem hU hx).2.2.2.2
  · rw [← weight_expand u]
    exact weight_reduce hne hw hrr

theorem quarter_small {u : List Term} (hu : QuarterUnit u) (h : weight u < 2 ^ 50) : SmallExponents u :=
  small_of_weight hu.unit.number h

theorem exprMul_weight {a b r : List Term} (ha : Frac 4 a) (hb : Frac 4 b) (h : exprMul a b = .ok r) :
    weight r ≤ weight a + weight b := by
  have hw := ha.wf.append hb.wf
  have hne : a ++ b ≠ [] := by simp [hb.nonempty]
  obtain ⟨q, _, _, _, hr, _, _⟩ := reduce_ok hne hw
  have hN : Frac 4 q := reduce_frac (by norm_num) hne
    (by intro t ht; rcases List.mem_append.1 ht with h | h; exacts [ha.coeff t h, hb.coeff t h])
    (by intro t ht; rcases List.mem_append.1 ht with h | h; exacts [ha.exp t h, hb.exp t h])
    (by intro t ht; rcases List.mem_append.1 ht with h | h
        exacts [(ha.base t h).imp id And.left, (hb.base t h).imp id And.left]) hr
  have := exprMul_eq hb.nonempty hw hr (hN.exact (by norm_num) (by norm_num))
  rw [this, Except.ok.injEq] at h
  subst h
  rw [← weight_append]
  exact weight_reduce hne hw hr

theorem exprDiv_weight {a b r : List Term} (ha : Frac 4 a) (hb : Frac 4 b) (h : exprDiv a b = .ok r) :
    weight r ≤ weight a + weight b := by
  have hw := ha.wf.append hb.wf.inv
  have hne : a ++ b.map Term.inv ≠ [] := by simp [hb.nonempty]
  obtain ⟨q, _, _, _, hr, _, _⟩ := reduce_ok hne hw
  have hN : Frac 4 q := reduce_frac (by norm_num) hne
    (by intro t ht; rcases List.mem_append.1 ht with h | h
        · exact ha.coeff t h
        · obtain ⟨u, hu, rfl⟩ := List.mem_map.1 h
          simp [Term.inv, hb.coeff u hu])
    (by intro t ht; rcases List.mem_append.1 ht with h | h
        · exact ha.exp t h
        · obtain ⟨u, hu, rfl⟩ := List.mem_map.1 h
          obtain ⟨⟨z, hz⟩, h0⟩ := hb.exp u hu
          exact ⟨⟨-z, by simp only [Term.inv]; rw [hz]; push_cast; ring⟩, neg_ne_zero.2 h0⟩)
    (by intro t ht; rcases List.mem_append.1 ht with h | h
        · exact (ha.base t h).imp id And.left
        · obtain ⟨u, hu, rfl⟩ := List.mem_map.1 h
          exact (hb.base u hu).imp id And.left) hr
  have := exprDiv_eq hb.nonempty ha.wf hb.wf hr (hN.exact (by norm_num) (by norm_num))
  rw [this, Except.ok.injEq] at h
  subst h
  rw [← weight_inv b, ← weight_append]
  exact weight_reduce hne hw hr

/-- an operator on the decomposed units -/
theorem applyOperator_quarter {o : List System} (ho : o ∈ Orders) {a b : List Term} (ha : QuarterUnit a)
    (hb : QuarterUnit b) {f : List Term → List Term → Except Symbolic.Err (List Term)} {g : ℝ → ℝ → ℝ}
    (hf : ∀ {x y : List Term}, Frac 4 x → Frac 4 y → ∃ r, f x y = .ok r ∧ Frac 4 r ∧
      (∀ t ∈ r, t.base = one ∨ t.base ∈ (x ++ y).map Term.base) ∧
      ∀ ρ, Positive ρ → value ρ r = g (value ρ x) (value ρ y))
    (hw : ∀ {x y r : List Term}, Frac 4 x → Frac 4 y → f x y = .ok r → weight r ≤ weight x + weight y) :
    ∃ r, applyOperator o f a b = .ok r ∧ QuarterUnit r ∧ weight r ≤ weight a + weight b ∧
      ∀ ρ, CoherentSizes ρ → value ρ r = g (value ρ a) (value ρ b) := by
  obtain ⟨x, x1, x2, x3, x4, x5, x6, x7⟩ := decompose_quarter ho ha
  obtain ⟨y, y1, y2, y3, y4, y5, y6, y7⟩ := decompose_quarter ho hb
  obtain ⟨r, r1, r2, r3, r4⟩ := hf x3 y3
  have hone : one ∉ derivedUnits.map Prod.fst := by decide +kernel
  have hs : ∀ t ∈ r, Usable t.base ∧ t.base ∉ derivedUnits.map Prod.fst := by
    intro t ht
    rcases r3 t ht with h | h
    · rw [h]; exact ⟨usable_one, hone⟩
    · obtain ⟨u, hu, hub⟩ := List.mem_map.1 h
      rw [← hub]
      rcases List.mem_append.1 hu with h | h
      · exact ⟨x4 u h, x5 u h⟩
      · exact ⟨y4 u h, y5 u h⟩
  refine ⟨r, ?_, ⟨unitTerms_of r2 (fun t ht => (hs t ht).1), fun t ht hd => absurd hd (hs t ht).2⟩, ?_, ?_⟩
  · unfold applyOperator
    simp only [x1, x2, y1, y2, ofSym, r1]
    exact unitOfExpr_ok r2 (fun t ht => (hs t ht).1)
  · refine le_trans (hw x3 y3 r1) (add_le_add x6 y6)
  · intro ρ hρ
    rw [r4 ρ hρ.pos, x7 ρ hρ, y7 ρ hρ]

theorem quarter_eq_perm {a b : List Term} (ha : QuarterUnit a) (hb : QuarterUnit b) (h : weight a + weight b < 2 ^ 50)
    (he : exprEq a b = true) : a.Perm b := by
  have pa := weight_nonneg a
  have pb := weight_nonneg b
  exact unit_eq_perm (by norm_num) ha.unit hb.unit (quarter_small ha (by linarith)) (quarter_small hb (by linarith)) he

/-- products of any number of units -/
theorem unitMul_quarter {o : List System} (ho : o ∈ Orders) {a b : List Term} (ha : QuarterUnit a) (hb : QuarterUnit b)
    (h : weight a + weight b < 2 ^ 50) : ∃ r, unitMul o a b = .ok r ∧ QuarterUnit r ∧ weight r ≤ weight a + weight b ∧
      ∀ ρ, CoherentSizes ρ → value ρ r = value ρ a * value ρ b := by
  have pa := weight_nonneg a
  have pb := weight_nonneg b
  have sa := quarter_small ha (by linarith)
  unfold unitMul
  split
  next he =>
    have hfa := (isUnit_iff.1 ha.unit).frac
    have hp := quarter_eq_perm ha hb h he
    have hpe : ∀ t ∈ a, PowExact 2 t := by
      intro t ht
      obtain ⟨h1, h2⟩ := exact_exp (by norm_num : 4 ∣ 4) ha.unit sa ht
      exact ⟨h1, by rw [ha.unit.coeff t ht]; exact fl_one, by exact_mod_cast h2,
        by rw [ha.unit.coeff t ht, one_zpow]; exact fl_one⟩
    have hw := hfa.wf.ipow (n := 2) (by norm_num)
    have hne : a.map (Term.ipow 2) ≠ [] := by simpa using ha.unit.nonempty
    obtain ⟨r, _, _, _, hr, hc, hx⟩ := reduce_ok hne hw
    have hF : Frac 4 r := reduce_frac (by norm_num) hne
      (by intro t ht
          obtain ⟨u, hu, rfl⟩ := List.mem_map.1 ht
          simp [Term.ipow, ha.unit.coeff u hu])
      (by intro t ht
          obtain ⟨u, hu, rfl⟩ := List.mem_map.1 ht
          obtain ⟨⟨z, hz⟩, h0⟩ := ha.unit.exp u hu
          exact ⟨⟨z * 2, by simp only [Term.ipow]; rw [hz]; push_cast; ring⟩, mul_ne_zero h0 (by norm_num)⟩)
      (by intro t ht
          obtain ⟨u, hu, rfl⟩ := List.mem_map.1 ht
          exact (hfa.base u hu).imp id And.left) hr
    obtain ⟨s1, _, _, _, s5, s6, _⟩ := reduce_spec hne hw hr
    have hs : ∀ t ∈ r, Usable t.base := by
      intro t ht
      by_cases h1 : t.base = one
      · rw [h1]; exact usable_one
      · have := s6 t ht h1
        simp only [List.map_map, List.mem_map] at this
        obtain ⟨u, hu, hub⟩ := this
        rw [← hub]
        exact ((isUnit_iff.1 ha.unit).terms u hu).symbol
    have hpow := exprPow_eq (n := 2) (by norm_num) ha.unit.nonempty hfa.wf hpe hr (hF.exact (by norm_num) (by norm_num))
    refine ⟨r, ?_, ⟨unitTerms_of hF hs, ?_⟩, ?_, ?_⟩
    · have h2 : ((2 : ℤ) : ℚ) = 2 := by norm_num
      rw [h2] at hpow
      rw [hpow]
      simp only [ofSym]
      exact unitOfExpr_ok hF hs
    · intro t ht _
      by_cases hb1 : t.base = one
      · rw [(s1.number t ht hb1).1]; exact ⟨2, by norm_num⟩
      · have := s5 t.base hb1
        rw [expOf_of_nodup r s1.nodup t ht] at this
        rw [this]
        have h2 := expOf_frac (d := 2) t.base (ts := a.map (Term.ipow 2)) (by
          intro u hu
          obtain ⟨v, hv, rfl⟩ := List.mem_map.1 hu
          obtain ⟨⟨z, hz⟩, _⟩ := ha.unit.exp v hv
          exact ⟨z, by simp only [Term.ipow]; rw [hz]; push_cast; ring⟩)
        exact_mod_cast h2
    · refine le_trans (weight_reduce hne hw hr) ?_
      rw [weight_ipow, ← weight_perm hp]; linarith
    · intro ρ hρ
      have hv : value ρ b = value ρ a := by unfold value; exact (hp.symm.map _).prod_eq
      rw [hv, ← pow_two]
      have := value_ipow ρ hρ.pos 2 a
      rw [value_congr ρ hρ.pos _ _ hc hx, this]
      norm_cast
  next he =>
    exact applyOperator_quarter ho ha hb (f := exprMul) (g := (· * ·)) (fun hx hy => frac_mul (by norm_num) (by norm_num) hx hy)
      (fun hx hy hr => exprMul_weight hx hy hr)

theorem one_quarter : QuarterUnit [⟨1, one, 1⟩] := by
  have h := one_isUnit.mono (k := 4) (by norm_num)
  refine ⟨h, ?_⟩
  intro t ht _
  rw [List.mem_singleton] at ht
  subst ht
  exact ⟨2, by norm_num⟩

/-- quotients of any number of units -/
theorem unitDiv_quarter {o : List System} (ho : o ∈ Orders) {a b : List Term} (ha : QuarterUnit a) (hb : QuarterUnit b)
    (h : weight a + weight b < 2 ^ 50) : ∃ r, unitDiv o a b = .ok r ∧ QuarterUnit r ∧ weight r ≤ weight a + weight b ∧
      ∀ ρ, CoherentSizes ρ → value ρ r = value ρ a / value ρ b := by
  have pa := weight_nonneg a
  have pb := weight_nonneg b
  unfold unitDiv
  split
  next he =>
    have hp := quarter_eq_perm ha hb h he
    refine ⟨_, rfl, one_quarter, ?_, ?_⟩
    · have : weight [mkTerm 1 one 1] = 0 := by
        show weight [⟨1, one, 1⟩] = 0
        simp [weight, weightOf_one]
      rw [this]; linarith
    · intro ρ hρ
      have hv : value ρ b = value ρ a := by unfold value; exact (hp.symm.map _).prod_eq
      rw [hv, div_self (value_pos hρ.pos ha.unit.coeff).ne']
      exact value_unit ρ
  next he =>
    exact applyOperator_quarter ho ha hb (f := exprDiv) (g := (· / ·)) (fun hx hy => frac_div (by norm_num) (by norm_num) hx hy)
      (fun hx hy hr => exprDiv_weight hx hy hr)

end Eprem.Metric
