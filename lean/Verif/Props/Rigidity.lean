import Verif.Props.Observable

/-!
# Rigidity (C54)
-/

namespace Eprem.Observable

open Eprem Eprem.Symbolic Eprem.Metric Eprem.Numeric Eprem.Measured Eprem.Physical

variable {κ ν : Type} [DecidableEq κ] {G : Grid κ ν}

/-- The unit of the square of the square of a speed. -/
def speedFourth : System → List Term
  | .mks => [⟨1, c! "m", 4⟩, ⟨1, c! "s", -4⟩]
  | .cgs => [⟨1, c! "cm", 4⟩, ⟨1, c! "s", -4⟩]

/-- The unit of mass divided by speed. -/
def massPerSpeed : System → List Term
  | .mks => [⟨1, c! "kg", 1⟩, ⟨1, c! "s", 1⟩, ⟨1, c! "m", -1⟩]
  | .cgs => [⟨1, c! "g", 1⟩, ⟨1, c! "s", 1⟩, ⟨1, c! "cm", -1⟩]

/-- The unit of momentum. -/
def momentumUnit : System → List Term
  | .mks => [⟨1, c! "kg", 1⟩, ⟨1, c! "m", 1⟩, ⟨1, c! "s", -1⟩]
  | .cgs => [⟨1, c! "cm", 1⟩, ⟨1, c! "g", 1⟩, ⟨1, c! "s", -1⟩]

/-- The unit of momentum divided by charge: one ampere is one coulomb per second, and one statcoulomb is one
`cm^3/2 g^1/2 s^-1`. -/
def rigidityUnit : System → List Term
  | .mks => [⟨1, c! "kg", 1⟩, ⟨1, c! "m", 1⟩, ⟨1, c! "A", -1⟩, ⟨1, c! "s", -2⟩]
  | .cgs => [⟨1, c! "g", 1/2⟩, ⟨1, c! "cm", -1/2⟩]

set_option maxHeartbeats 100000000 in
theorem rigidity_powers : ∀ s ∈ bothSystems,
    unitPow false (unitOf s (c! "velocity")) 4 = .ok (speedFourth s) ∧
    unitPow false (speedSq s) 2 = .ok (speedFourth s) ∧
    unitPow true (speedFourth s) (1/2) = .ok (speedSq s) ∧
    exprEq (speedFourth s) (speedFourth s) = true := by decide +kernel

set_option maxHeartbeats 100000000 in
theorem rigidity_products : ∀ o ∈ orders, ∀ s ∈ bothSystems,
    unitDiv o (unitOf s (c! "energy")) (unitOf s (c! "mass")) = .ok (speedSq s) ∧
    unitDiv o (unitOf s (c! "mass")) (unitOf s (c! "velocity")) = .ok (massPerSpeed s) ∧
    unitMul o (speedSq s) (massPerSpeed s) = .ok (momentumUnit s) ∧
    unitDiv o (momentumUnit s) (unitOf s (c! "charge")) = .ok (rigidityUnit s) := by decide +kernel

theorem fresh_scale {order : List System} {tm : Bool} {f : ℝ → ℝ → ℝ} {a b : Arr κ ν ℝ} {r : Operand κ ν ℝ}
    (h : Physical.multiplicative order tm f (.array a) (.array b) = .ok r) (c : Arr κ ν ℝ) (hc : r = .array c) : c.arr.scale = 1 := by
  subst hc
  unfold Physical.multiplicative at h
  cases h1 : combineUnits order tm (Operand.array a).unit (Operand.array b).unit with
  | error e => simp only [h1] at h; cases h
  | ok w =>
    simp only [h1, multiplyMeasured] at h
    cases h2 : Numeric.multiplicative f a.arr.data b.arr.data with
    | error e => simp only [h2] at h; cases h
    | ok d =>
      simp only [h2] at h
      cases h3 : Axes.merge a.axes b.axes with
      | error e => simp only [h3] at h; cases h
      | ok axes =>
        simp only [h3] at h
        obtain ⟨_, h4⟩ := newArray_inv h
        cases h4
        rfl

theorem merge_swap {species energy : κ} (hne : species ≠ energy) :
    Container.merge [energy] [species] = .ok [energy, species] := by
  simp [Container.merge, hne, hne.symm]

/-- **C54**.  Masses and charges of the species and kinetic energies, the latter either the same for all species or given
for each species, in the units of a metric system, and the speed of light in that system: the rigidity is computed, for each
species and energy, in the unit of momentum per charge, and the rigidity times the charge is a momentum `p ≥ 0` with
`(K + m c²)² = (p c)² + (m c²)²`. -/
theorem c54_rigidity (order : List System) (ho : order ∈ orders) (s : System) (same inside : ν → ν → Bool)
    (hsame : ∀ x, same x x = true) (species energy : κ) (hne : species ≠ energy) (dims : List κ)
    (hdims : dims = [energy] ∨ dims = [species, energy]) (C : ℝ) (M Q K : (κ → Nat) → ℝ) (c mass charge en : Operand κ ν ℝ)
    (hc : IsScalar (unitOf s (c! "velocity")) C c) (hm : OnGrid G [species] (unitOf s (c! "mass")) M mass)
    (hq : OnGrid G [species] (unitOf s (c! "charge")) Q charge) (he : OnGrid G dims (unitOf s (c! "energy")) K en)
    (hC : 0 < C) :
    ∃ r R, rigidity order same inside species energy c mass charge en = .ok r ∧
      OnGrid G [species, energy] (rigidityUnit s) R r ∧
      ∀ p, 0 < M p → Q p ≠ 0 → 0 ≤ K p → 0 ≤ R p * Q p ∧
        (K p + M p * C ^ 2) ^ 2 = (R p * Q p * C) ^ 2 + (M p * C ^ 2) ^ 2 := by
  obtain ⟨_, _, u3, u4, _, q2, _⟩ := flow_powers s (mem_bothSystems s)
  obtain ⟨w1, w2, w3, q4⟩ := rigidity_powers s (mem_bothSystems s)
  obtain ⟨v1, v2, v3, v4⟩ := rigidity_products order ho s (mem_bothSystems s)
  have hnd : [species, energy].Nodup := by simp [hne]
  have hsub : Container.merge [species, energy] [species] = .ok [species, energy] :=
    merge_sublist hnd (by simp)
  have hj : ∃ d3 j, d3.Perm [species, energy] ∧ Physical.multiplicative order false (fun x y => x / y) en mass = .ok j ∧
      OnGrid G d3 (speedSq s) (fun p => K p / M p) j := by
    rcases hdims with rfl | rfl
    · obtain ⟨j, e1, g1⟩ := mul_grid order false (fun x y => x / y) he hm (merge_swap hne) (combine_div v1)
      exact ⟨_, j, List.Perm.swap _ _ _, e1, g1⟩
    · obtain ⟨j, e1, g1⟩ := mul_grid order false (fun x y => x / y) he hm hsub (combine_div v1)
      exact ⟨_, j, List.Perm.refl _, e1, g1⟩
  obtain ⟨d3, j, hperm, e1, g1⟩ := hj
  have hsc : ∀ x, j = .array x → x.arr.scale = 1 := by
    obtain ⟨_, a, rfl, _⟩ := he
    obtain ⟨_, b, rfl, _⟩ := hm
    exact fresh_scale e1
  obtain ⟨jt, e2, g2⟩ := transposed_grid g1 hsc hperm.symm
  obtain ⟨c2, e3, g3⟩ := raised_scalar hc 2 (pow_units u3)
  obtain ⟨t, e4, g4⟩ := add_scalar (same := same) (inside := inside) (fun x y => x + y) g2 g3 q2
  obtain ⟨t2, e5, g5⟩ := raised_grid g4 2 (pow_units w2)
  obtain ⟨c4, e6, g6⟩ := raised_scalar hc 4 (pow_units w1)
  obtain ⟨d, e7, g7⟩ := add_scalar (same := same) (inside := inside) (fun x y => x - y) g5 g6 q4
  obtain ⟨sq, e8, g8⟩ := root_grid g7 (pow_units w3)
  obtain ⟨mc, e9, g9⟩ := mul_scalar order false (fun x y => x / y) hm hc (combine_div v2)
  obtain ⟨p, e10, g10⟩ := mul_grid order true (fun x y => x * y) g8 g9 hsub (combine_mul v3)
  obtain ⟨r, e11, g11⟩ := mul_grid order false (fun x y => x / y) g10 hq hsub (combine_div v4)
  refine ⟨r, _, ?_, g11, fun p hM hQ hK => ?_⟩
  · simp only [rigidity, plus, minus, times, e1, e2, e3, e4, e5, e6, e7, e8, over, e9, e10, e11, bind, Except.bind]
  · have hd : 0 ≤ (K p / M p + C ^ 2) ^ 2 - C ^ 4 := by
      have h1 : 0 ≤ K p / M p := by positivity
      nlinarith [sq_nonneg (C ^ 2), sq_nonneg C]
    have hs2 := Real.sq_sqrt hd
    have hs0 := Real.sqrt_nonneg ((K p / M p + C ^ 2) ^ 2 - C ^ 4)
    show 0 ≤ Real.sqrt ((K p / M p + C ^ 2) ^ 2 - C ^ 4) * (M p / C) / Q p * Q p ∧ _ =
      (Real.sqrt ((K p / M p + C ^ 2) ^ 2 - C ^ 4) * (M p / C) / Q p * Q p * C) ^ 2 + _
    rw [div_mul_cancel₀ _ hQ]
    refine ⟨by positivity, ?_⟩
    have : Real.sqrt ((K p / M p + C ^ 2) ^ 2 - C ^ 4) * (M p / C) * C =
        Real.sqrt ((K p / M p + C ^ 2) ^ 2 - C ^ 4) * M p := by field_simp
    rw [this, mul_pow, hs2]
    field_simp
    ring

/-- three species, four energies -/
def spectrumGrid : Grid String Nat := ⟨fun d => if d = "species" then 3 else 4, fun d => d.length, fun d => by
  by_cases h : d = "species" <;> simp [h]⟩

/-- masses, charges and energies -/
example : ∃ M Q K c mass charge en, IsScalar (κ := String) (ν := Nat) (unitOf .mks (c! "velocity")) 299792458 c ∧
    OnGrid spectrumGrid ["species"] (unitOf .mks (c! "mass")) M mass ∧
    OnGrid spectrumGrid ["species"] (unitOf .mks (c! "charge")) Q charge ∧
    OnGrid spectrumGrid ["species", "energy"] (unitOf .mks (c! "energy")) K en ∧
    ∀ p, 0 < M p ∧ Q p ≠ 0 ∧ 0 ≤ K p := by
  obtain ⟨m, hm⟩ := onGrid_ofFn spectrumGrid ["species"] (by decide) (unitOf .mks (c! "mass")) (fun l => ((l.sum : ℕ) : ℝ) + 1)
  obtain ⟨q, hq⟩ := onGrid_ofFn spectrumGrid ["species"] (by decide) (unitOf .mks (c! "charge")) (fun l => ((l.sum : ℕ) : ℝ) + 1)
  obtain ⟨e, he⟩ := onGrid_ofFn spectrumGrid ["species", "energy"] (by decide) (unitOf .mks (c! "energy"))
    (fun l => ((l.sum : ℕ) : ℝ))
  exact ⟨_, _, _, .object .scalar ⟨⟨[], fun _ => 299792458⟩, unitOf .mks (c! "velocity")⟩, m, q, e, ⟨_, rfl, rfl, rfl, rfl⟩, hm,
    hq, he, fun p => ⟨by positivity, by positivity, by positivity⟩⟩

end Eprem.Observable
