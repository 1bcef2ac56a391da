import Verif.Model.Reductions
import Verif.Lemmas.Algebra

/-!
# C129: reductions of units as objects
-/

namespace Eprem.Reductions

open Eprem Eprem.Symbolic

variable {R : Type}

/-! ## Specification -/

/-- The reduction is a number times a product of powers of units: the coefficient, and the exponent of each unit. -/
structure Means (r : Red R) (coefficient : ℚ) (exponent : Str → ℚ) : Prop where
  coefficient : coefOf r.expr = coefficient
  exponent : ∀ b, b ≠ one → expOf b r.units = exponent b

/-- A sound object: its scale is not zero, and its expression is a proper expression. -/
structure Proper (r : Red R) : Prop where
  scale : r.scale ≠ 0
  wf : WF r.expr
  nonempty : r.expr ≠ []

/-! ## Lemmas -/

theorem exp_units (r : Red R) {b : Str} (hb : b ≠ one) : expOf b r.units = expOf b r.expr := by
  unfold Red.units
  induction r.expr with
  | nil => rfl
  | cons t l ih =>
    by_cases h : t.base = one
    · rw [List.filter_cons_of_neg (by simp [h]), ih, expOf_cons, if_neg (by rw [h]; exact Ne.symm hb), zero_add]
    · rw [List.filter_cons_of_pos (by simp [h]), expOf_cons, expOf_cons, ih]

theorem reduce_total {ts : List Term} (hne : ts ≠ []) (hw : WF ts) : ∃ r, reduce ts = .ok r ∧ WF r ∧ r ≠ [] ∧ coefOf r = coefOf ts ∧
    ∀ b, b ≠ one → expOf b r = expOf b ts := by
  obtain ⟨r, vs, _, _, h, _, _⟩ := reduce_ok hne hw
  obtain ⟨_, h2, h3, h4, h5, _, _⟩ := reduce_spec hne hw h
  exact ⟨r, h, h2, h3, h4, h5⟩

theorem times_total {c : ℚ} (hc : c ≠ 0) {ts : List Term} (hw : WF ts) : ∃ r, times c ts = .ok r ∧ WF r ∧ r ≠ [] ∧
    coefOf r = c * coefOf ts ∧ ∀ b, b ≠ one → expOf b r = expOf b ts := by
  have hm : mkTerm c one 1 = ⟨c, one, 1⟩ := by simp [mkTerm, orOne, orOneStr, hc, one]
  unfold times
  rw [hm]
  obtain ⟨r, h1, h2, h3, h4, h5⟩ := reduce_total (ts := ⟨c, one, 1⟩ :: ts) (by simp) (fun t ht => by
    rcases List.mem_cons.1 ht with rfl | h
    · exact ⟨hc, by simp [one], one_ne_zero⟩
    · exact hw t h)
  refine ⟨r, h1, h2, h3, by rw [h4, coefOf_cons], fun b hb => ?_⟩
  rw [h5 b hb, expOf_cons, if_neg (Ne.symm hb), zero_add]

theorem create_total {ts : List Term} (hne : ts ≠ []) (hw : WF ts) {c : ℚ} (hc : c ≠ 0) (s : R) : ∃ r, create ts c s = .ok r ∧
    Proper r ∧ r.scale = c ∧ r.system = s ∧ Means r (c * coefOf ts) (fun b => expOf b ts) := by
  obtain ⟨x, h1, h2, h3, h4, h5⟩ := reduce_total hne hw
  obtain ⟨p, g1, g2, g3, g4, g5⟩ := times_total hc h2
  refine ⟨⟨c, p, s⟩, ?_, ⟨hc, g2, g3⟩, rfl, rfl, ⟨by rw [g4, h4], fun b hb => ?_⟩⟩
  · unfold create; rw [h1]; dsimp only; rw [g1]
  · rw [exp_units _ hb]
    exact (g5 b hb).trans (h5 b hb)

theorem scaled_total {r : Red R} (hr : Proper r) {c : ℚ} (hc : c ≠ 0) {ts : List Term} (hw : WF ts) :
    ∃ q, (match times c ts with | .error e => .error e | .ok ts => create ts c r.system) = Except.ok q ∧ Proper q ∧ q.scale = c ∧
      q.system = r.system ∧ Means q (c * (c * coefOf ts)) (fun b => expOf b ts) := by
  obtain ⟨x, h1, h2, h3, h4, h5⟩ := times_total hc hw
  obtain ⟨q, g1, g2, g3, g4, g5⟩ := create_total h3 h2 hc r.system
  exact ⟨q, by rw [h1]; exact g1, g2, g3, g4, ⟨by rw [g5.coefficient, h4], fun b hb => by rw [g5.exponent b hb, h5 b hb]⟩⟩

/-! ## Theorems -/

/-- **C129**, creation.  A reduction of units without coefficients is its scale times these units. -/
theorem c129_create {ts : List Term} (hne : ts ≠ []) (hw : WF ts) (h1 : ∀ t ∈ ts, t.coeff = 1) {c : ℚ} (hc : c ≠ 0) (s : R) :
    ∃ r, create ts c s = .ok r ∧ r.scale = c ∧ r.system = s ∧ Means r r.scale (fun b => expOf b ts) := by
  obtain ⟨r, g1, _, g3, g4, g5⟩ := create_total hne hw hc s
  rw [coefOf_one h1, mul_one] at g5
  exact ⟨r, g1, g3, g4, g3 ▸ g5⟩

/-- **C129**, products with numbers, from a reduction that is its scale times units: scale, system and units are right; the
coefficient of the expression is not the scale, but the square of the new scale times the old one. -/
theorem c129_mul_partial {r : Red R} (hr : Proper r) {e : Str → ℚ} (hm : Means r r.scale e) {x : ℚ} (hx : x ≠ 0) :
    ∃ q, r.mul x = .ok q ∧ Proper q ∧ q.scale = r.scale * x ∧ q.system = r.system ∧ Means q ((r.scale * x) ^ 2 * r.scale) e := by
  obtain ⟨q, g1, g2, g3, g4, g5⟩ := scaled_total hr (mul_ne_zero hr.scale hx) hr.wf
  refine ⟨q, g1, g2, g3, g4, ⟨?_, fun b hb => ?_⟩⟩
  · rw [g5.coefficient, hm.coefficient]; ring
  · rw [g5.exponent b hb, ← exp_units r hb, hm.exponent b hb]

/-- **C129**, quotients by numbers, in the same way. -/
theorem c129_div_partial {r : Red R} (hr : Proper r) {e : Str → ℚ} (hm : Means r r.scale e) {x : ℚ} (hx : x ≠ 0) :
    ∃ q, r.div x = .ok q ∧ Proper q ∧ q.scale = r.scale / x ∧ q.system = r.system ∧ Means q ((r.scale / x) ^ 2 * r.scale) e := by
  obtain ⟨q, g1, g2, g3, g4, g5⟩ := scaled_total hr (div_ne_zero hr.scale hx) hr.wf
  refine ⟨q, g1, g2, g3, g4, ⟨?_, fun b hb => ?_⟩⟩
  · rw [g5.coefficient, hm.coefficient]; ring
  · rw [g5.exponent b hb, ← exp_units r hb, hm.exponent b hb]

theorem pow_total {r : Red R} (hr : Proper r) {n : ℤ} (hn : n ≠ 0) :
    ∃ q, r.pow n = .ok q ∧ Proper q ∧ q.scale = r.scale ^ n ∧ q.system = r.system ∧
      Means q ((r.scale ^ n) ^ 2 * coefOf r.expr ^ n) (fun b => expOf b r.units * n) := by
  obtain ⟨x, h1, h2, h3, h4, h5⟩ := reduce_total (ts := r.expr.map (Term.ipow n)) (by simpa using hr.nonempty) (hr.wf.ipow hn)
  obtain ⟨q, g1, g2, g3, g4, g5⟩ := scaled_total hr (zpow_ne_zero n hr.scale) h2
  refine ⟨q, ?_, g2, g3, g4, ⟨?_, fun b hb => ?_⟩⟩
  · unfold Red.pow powExpr
    rw [if_neg hn, show (fun t : Term => (⟨t.coeff ^ n, t.base, t.exp * n⟩ : Term)) = Term.ipow n from rfl, h1]
    exact g1
  · rw [g5.coefficient, h4, coefOf_ipow]; ring
  · rw [g5.exponent b hb, h5 b hb, expOf_ipow, exp_units r hb]

/-- **C129**, integer powers: scale, system and units are right; the coefficient is the cube of the scale. -/
theorem c129_pow_partial {r : Red R} (hr : Proper r) {e : Str → ℚ} (hm : Means r r.scale e) {n : ℤ} (hn : n ≠ 0) :
    ∃ q, r.pow n = .ok q ∧ Proper q ∧ q.scale = r.scale ^ n ∧ q.system = r.system ∧
      Means q ((r.scale ^ n) ^ 3) (fun b => e b * n) := by
  obtain ⟨q, g1, g2, g3, g4, g5⟩ := pow_total hr hn
  refine ⟨q, g1, g2, g3, g4, ⟨?_, fun b hb => ?_⟩⟩
  · rw [g5.coefficient, hm.coefficient]; ring
  · rw [g5.exponent b hb, hm.exponent b hb]

/-- **C129**, violated: the product with a number is its scale times its units only in a special case. -/
theorem c129_mul_coefficient {r : Red R} (hr : Proper r) {e : Str → ℚ} (hm : Means r r.scale e) {x : ℚ} (hx : x ≠ 0) (q : Red R)
    (hq : r.mul x = .ok q) : coefOf q.expr = q.scale ↔ r.scale ^ 2 * x = 1 := by
  obtain ⟨q', g1, _, g3, _, g5⟩ := c129_mul_partial hr hm hx
  rw [hq] at g1
  cases g1
  rw [g5.coefficient, g3]
  have h := mul_ne_zero hr.scale hx
  constructor
  · intro hh
    have : (r.scale * x) * (r.scale ^ 2 * x) = (r.scale * x) * 1 := by rw [mul_one]; linear_combination hh
    exact mul_left_cancel₀ h this
  · intro hh
    linear_combination (r.scale * x) * hh

theorem multiply_total : ∀ (ps : List (Red R)) {r : Red R}, Proper r → (∀ p ∈ ps, p.scale ≠ 0) →
    ∃ q, multiply r ps = .ok q ∧ Proper q ∧ q.scale = r.scale * (ps.map Red.scale).prod ∧ q.system = r.system ∧
      ∀ b, b ≠ one → expOf b q.units = expOf b r.units
  | [], r, hr, _ => ⟨r, rfl, hr, by simp, rfl, fun _ _ => rfl⟩
  | p :: ps, r, hr, h => by
    obtain ⟨q, g1, g2, g3, g4, g5⟩ := scaled_total hr (mul_ne_zero hr.scale (h p (by simp))) hr.wf
    obtain ⟨q', k1, k2, k3, k4, k5⟩ := multiply_total ps g2 fun x hx => h x (by simp [hx])
    refine ⟨q', ?_, k2, ?_, k4.trans g4, fun b hb => ?_⟩
    · unfold multiply
      rw [show r.mul p.scale = .ok q from g1]
      exact k1
    · rw [k3, g3, List.map_cons, List.prod_cons, mul_assoc]
    · rw [k5 b hb, g5.exponent b hb, exp_units r hb]

theorem decompose_total (named : Str → Option (Red R)) (hp : ∀ u r, named u = some r → Proper r) : ∀ (l : List (Str × ℤ)),
    (∀ t ∈ l, t.2 ≠ 0) → ∃ ps, decompose named l = .ok ps ∧ (∀ p ∈ ps, Proper p) ∧
      (ps.map Red.scale).prod = ((l.filterMap (fun t => (named t.1).map (fun r => r.scale ^ t.2))).prod) ∧
      ps.length = (l.filter (fun t => (named t.1).isSome)).length ∧
      ∀ t r, (l.find? (fun t => (named t.1).isSome)) = some t → named t.1 = some r → ∃ p qs, ps = p :: qs ∧
        p.system = r.system ∧ ∀ b, b ≠ one → expOf b p.units = expOf b r.units * t.2
  | [], _ => ⟨[], rfl, nofun, rfl, rfl, nofun⟩
  | (u, n) :: l, hn => by
    obtain ⟨ps, h1, h2, h3, h4, h5⟩ := decompose_total named hp l fun t ht => hn t (by simp [ht])
    cases hu : named u with
    | none =>
      refine ⟨ps, by unfold decompose; rw [hu]; exact h1, h2, ?_, ?_, fun t r ht hr => ?_⟩
      · rw [List.filterMap_cons_none (by rw [hu]; rfl)]; exact h3
      · rw [List.filter_cons_of_neg (by simp [hu])]; exact h4
      · rw [List.find?_cons_of_neg (by simp [hu])] at ht
        exact h5 t r ht hr
    | some r =>
      obtain ⟨p, g1, g2, g3, g4, g5⟩ := pow_total (hp u r hu) (hn (u, n) (by simp))
      refine ⟨p :: ps, ?_, ?_, ?_, ?_, fun t r' ht hr => ?_⟩
      · unfold decompose; rw [hu]; dsimp only; rw [g1]; dsimp only; rw [h1]
      · intro q hq
        rcases List.mem_cons.1 hq with rfl | hq
        · exact g2
        · exact h2 q hq
      · rw [List.filterMap_cons_some (by rw [hu]; rfl), List.map_cons, List.prod_cons, List.prod_cons, h3, g3]
      · rw [List.filter_cons_of_pos (by simp [hu]), List.length_cons, List.length_cons, h4]
      · rw [List.find?_cons_of_pos (by simp [hu])] at ht
        cases ht
        rw [hu] at hr
        cases hr
        exact ⟨p, ps, rfl, g4, fun b hb => g5.exponent b hb⟩

/-- **C129**, `reduction`.  With no unit that can be reduced there is no result.  Otherwise the scale is the product of the powers
of the scales of all units that can be reduced, but, against the claim, the units are those of the first such unit alone. -/
theorem c129_reduction_partial (named : Str → Option (Red R)) (hp : ∀ u r, named u = some r → Proper r) (l : List (Str × ℤ))
    (hn : ∀ t ∈ l, t.2 ≠ 0) :
    ((∀ t ∈ l, named t.1 = none) → reduction named l = .ok none) ∧
    (∀ t r, l.find? (fun t => (named t.1).isSome) = some t → named t.1 = some r → ∃ q, reduction named l = .ok (some q) ∧
      q.scale = (l.filterMap (fun t => (named t.1).map (fun r => r.scale ^ t.2))).prod ∧ q.system = r.system ∧
      ∀ b, b ≠ one → expOf b q.units = expOf b r.units * t.2) := by
  obtain ⟨ps, h1, h2, h3, h4, h5⟩ := decompose_total named hp l hn
  constructor
  · intro h
    have : ps = [] := List.length_eq_zero_iff.1 (by
      rw [h4, List.length_eq_zero_iff, List.filter_eq_nil_iff]
      intro t ht
      simp [h t ht])
    subst this
    unfold reduction
    rw [h1]
  · intro t r ht hr
    obtain ⟨p, qs, rfl, hs, he⟩ := h5 t r ht hr
    obtain ⟨q, g1, _, g3, g4, g5⟩ := multiply_total qs (h2 p (by simp)) fun x hx => (h2 x (by simp [hx])).scale
    refine ⟨q, ?_, ?_, g4.trans hs, fun b hb => by rw [g5 b hb, he b hb]⟩
    · unfold reduction
      rw [h1]
      dsimp only
      rw [g1]
    · rw [g3, ← h3, List.map_cons, List.prod_cons]

/-! ## Examples -/

/-- The reduction of the kilometre. -/
def sampleRed : Red Unit := ⟨1000, [⟨1000, one, 1⟩, ⟨1, ['m'], 1⟩], ()⟩

theorem sample_proper : Proper sampleRed := ⟨by decide +kernel, by unfold WF; decide +kernel, by decide +kernel⟩

theorem sample_means : Means sampleRed sampleRed.scale (fun b => if ['m'] = b then 1 else 0) := by
  refine ⟨by decide +kernel, fun b _ => ?_⟩
  show expOf b [⟨1, ['m'], 1⟩] = _
  rw [expOf_cons, expOf_nil, add_zero]

/-- Twice a kilometre is shown as 4 · 10⁹ m, with the right scale. -/
example : (match sampleRed.mul 2 with | .ok r => some (r.scale, r.expr) | .error _ => none) =
    some (2000, [⟨4000000000, one, 1⟩, ⟨1, ['m'], 1⟩]) := by decide +kernel

example : (match create [⟨1, ['m'], 1⟩] 1000 () with | .ok r => some (r.scale, r.expr) | .error _ => none) =
    some (sampleRed.scale, sampleRed.expr) := by decide +kernel

/-- Reductions of the kilometre and of the minute. -/
def sampleNamed (u : Str) : Option (Red Unit) :=
  if u = ['k', 'm'] then some sampleRed else if u = ['m', 'i', 'n'] then some ⟨60, [⟨60, one, 1⟩, ⟨1, ['s'], 1⟩], ()⟩ else none

/-- **C129**, violated: the reduction of `km / min` has lost the seconds. -/
theorem c129_units_lost : (match reduction sampleNamed [(['k', 'm'], 1), (['m', 'i', 'n'], -1)] with
    | .ok (some r) => some (r.scale, r.units) | _ => none) = some (50 / 3, [⟨1, ['m'], 1⟩]) := by decide +kernel

end Eprem.Reductions
