import Verif.Lemmas.Distribution
import Verif.Props.Gradient

/-!
# Moments of the distribution: isotropic distribution, energy density, average energy (C91), flux (C92)
-/

namespace Eprem.Observable

open Eprem Eprem.Symbolic Eprem.Metric Eprem.Numeric Eprem.Measured Eprem.Physical

variable {κ ν : Type} [DecidableEq κ] {G : Grid κ ν}

/-! ## Units -/

/-- The units of length, mass and energy in each metric system. -/
def lengthName : System → Name
  | .mks => c! "m"
  | .cgs => c! "cm"

def massName : System → Name
  | .mks => c! "kg"
  | .cgs => c! "g"

def energyName : System → Name
  | .mks => c! "J"
  | .cgs => c! "erg"

/-- The units of distributions and of energy densities: s³/m⁶ and J/m³, or s³/cm⁶ and erg/cm³. -/
def distributionUnit (s : System) : List Term := [⟨1, c! "s", 3⟩, ⟨1, lengthName s, -6⟩]

def energyDensityUnit (s : System) : List Term := [⟨1, energyName s, 1⟩, ⟨1, lengthName s, -3⟩]

set_option maxHeartbeats 100000000 in
/-- The units of the package are these. -/
theorem distribution_units : ∀ s ∈ bothSystems,
    ((unitsOf s (c! "particle distribution")).toOption.bind (fun n => (freshUnit n).toOption)) = some (distributionUnit s) ∧
    ((unitsOf s (c! "energy / volume")).toOption.bind (fun n => (freshUnit n).toOption)) = some (energyDensityUnit s) := by
  decide +kernel

set_option maxHeartbeats 100000000 in
/-- The units of the intermediate results of the energy density. -/
theorem fourth_units : ∀ o ∈ orders, ∀ s ∈ bothSystems,
    unitPow false (unitOf s (c! "velocity")) 4 = .ok [⟨1, lengthName s, 4⟩, ⟨1, c! "s", -4⟩] ∧
    unitMul o [⟨1, lengthName s, 4⟩, ⟨1, c! "s", -4⟩] (distributionUnit s) = .ok [⟨1, c! "s", -1⟩, ⟨1, lengthName s, -2⟩] ∧
    unitMul o [⟨1, c! "s", -1⟩, ⟨1, lengthName s, -2⟩] (unitOf s (c! "velocity")) =
      .ok [⟨1, lengthName s, -1⟩, ⟨1, c! "s", -2⟩] ∧
    unitMul o (unitOf s (c! "mass")) [⟨1, lengthName s, -1⟩, ⟨1, c! "s", -2⟩] =
      .ok [⟨1, massName s, 1⟩, ⟨1, lengthName s, -1⟩, ⟨1, c! "s", -2⟩] := by decide +kernel

set_option maxHeartbeats 100000000 in
/-- The units of the intermediate results of the average energy. -/
theorem second_units : ∀ o ∈ orders, ∀ s ∈ bothSystems,
    unitPow false (unitOf s (c! "velocity")) 2 = .ok [⟨1, lengthName s, 2⟩, ⟨1, c! "s", -2⟩] ∧
    unitMul o [⟨1, lengthName s, 2⟩, ⟨1, c! "s", -2⟩] (distributionUnit s) = .ok [⟨1, c! "s", 1⟩, ⟨1, lengthName s, -4⟩] ∧
    unitMul o [⟨1, c! "s", 1⟩, ⟨1, lengthName s, -4⟩] (unitOf s (c! "velocity")) = .ok [⟨1, lengthName s, -3⟩] ∧
    unitDiv o (energyDensityUnit s) [⟨1, lengthName s, -3⟩] =
      .ok [⟨1, lengthName s, 2⟩, ⟨1, massName s, 1⟩, ⟨1, c! "s", -2⟩] := by decide +kernel

/-- Two units for the same thing, for which the package has the factor one, in both directions. -/
def sameUnits (o : List System) (u w : List Term) : Bool :=
  integralSteps tableNodes o (showExpr u) (showExpr w) && integralSteps tableNodes o (showExpr w) (showExpr u) &&
  decide ((convert (rats tableNodes o) (showExpr u) (showExpr w)).toOption = some 1) &&
  decide ((convert (rats tableNodes o) (showExpr w) (showExpr u)).toOption = some 1) &&
  decide ((freshUnit (showExpr u)).toOption = some u) && decide ((freshUnit (showExpr w)).toOption = some w) &&
  !exprEq u w

theorem ok_of_toOption {ε α : Type} {x : Except ε α} {a : α} (h : x.toOption = some a) : x = .ok a := by
  cases x with
  | error e => cases h
  | ok b => cases h; rfl

set_option maxHeartbeats 100000000 in
theorem energy_density_factor : ∀ o ∈ orders, ∀ s ∈ bothSystems,
    sameUnits o [⟨1, massName s, 1⟩, ⟨1, lengthName s, -1⟩, ⟨1, c! "s", -2⟩] (energyDensityUnit s) = true := by
  decide +kernel

set_option maxHeartbeats 100000000 in
theorem energy_factor : ∀ o ∈ orders, ∀ s ∈ bothSystems,
    sameUnits o [⟨1, lengthName s, 2⟩, ⟨1, massName s, 1⟩, ⟨1, c! "s", -2⟩] (unitOf s (c! "energy")) = true := by
  decide +kernel

/-- The conversions of the package, whatever the order in which it iterates over its tables. -/
def Package (order : List System) (c : Conv ℝ) : Prop :=
  ∃ nodes : List Name, (∀ n, n ∈ nodes ↔ n ∈ tableNodes) ∧ c = realConv nodes order

theorem convert_one {order : List System} {c : Conv ℝ} (hc : Package order c) {u v : Name}
    (h1 : integralSteps tableNodes order u v = true) (h2 : convert (rats tableNodes order) u v = .ok 1) : convert c u v = .ok 1 := by
  obtain ⟨nodes, hn, rfl⟩ := hc
  rw [convert_congr (c := realConv nodes order) (c' := realConv tableNodes order) rfl rfl (fun u v => c19_order_independent nodes tableNodes hn u v),
    convert_map h1, h2]
  show Except.ok ((1 : ℚ) : ℝ) = _
  norm_num

theorem toUnit_same {order : List System} {c : Conv ℝ} (hc : Package order c) (rs : List (Name × Name)) {dims : List κ}
    {u w : List Term} {g : (κ → Nat) → ℝ} {a : Operand κ ν ℝ} (h : OnGrid G dims u g a) (hs : Unscaled a)
    (hu : sameUnits order u w = true) : ∃ r, toUnit c (afterRequests c [] rs) a w = .ok r ∧ OnGrid G dims w g r := by
  simp only [sameUnits, Bool.and_eq_true, decide_eq_true_eq, Bool.not_eq_true'] at hu
  obtain ⟨⟨⟨⟨⟨⟨i1, i2⟩, h1⟩, h2⟩, h3⟩, h4⟩, h5⟩ := hu
  exact toUnit_grid c rs h hs (convert_one hc i1 (ok_of_toOption h1)) (convert_one hc i2 (ok_of_toOption h2))
    (ok_of_toOption h3) (ok_of_toOption h4) h5

theorem mul_unscaled {order : List System} {tm : Bool} {f : ℝ → ℝ → ℝ} {d1 d2 : List κ} {u v : List Term}
    {g h : (κ → Nat) → ℝ} {a b r : Operand κ ν ℝ} (ha : OnGrid G d1 u g a) (hb : OnGrid G d2 v h b)
    (hr : multiplicative order tm f a b = .ok r) : Unscaled r := by
  obtain ⟨x, rfl⟩ := ha.isArray
  obtain ⟨y, rfl⟩ := hb.isArray
  exact multiplicative_unscaled hr

/-! ## C91: the isotropic distribution -/

/-- **C91**, the isotropic distribution.  It is computed for distributions over any dimensions, on the grid without the pitch
angles, in the same unit: everywhere it is the mean over the pitch angles, so it lies between any bounds of the distribution
there, and it is the distribution where that does not depend on the pitch angle. -/
theorem c91_isotropic (front : List κ) (pitch : κ) (u : List Term) (F : (κ → Nat) → ℝ) (f : Operand κ ν ℝ)
    (hf : OnGrid G (front ++ [pitch]) u F f) :
    ∃ r R, isotropic f = .ok r ∧ OnGrid G front u R r ∧ ∀ p,
      G.size pitch * R p = ∑ i ∈ Finset.range (G.size pitch), F (Function.update p pitch i) ∧
      (∀ lo hi, (∀ i < G.size pitch, lo ≤ F (Function.update p pitch i) ∧ F (Function.update p pitch i) ≤ hi) →
        lo ≤ R p ∧ R p ≤ hi) ∧
      ∀ x, (∀ i < G.size pitch, F (Function.update p pitch i) = x) → R p = x := by
  obtain ⟨r, h1, h2⟩ := meanLast_grid hf
  have hpos : (0 : ℝ) < G.size pitch := by exact_mod_cast G.pos pitch
  refine ⟨r, _, h1, h2, fun p => ⟨?_, ?_⟩⟩
  · rw [mul_div_cancel₀ _ hpos.ne']
  · have key : ∀ lo hi, (∀ i < G.size pitch, lo ≤ F (Function.update p pitch i) ∧ F (Function.update p pitch i) ≤ hi) →
        lo ≤ (∑ i ∈ Finset.range (G.size pitch), F (Function.update p pitch i)) / G.size pitch ∧
        (∑ i ∈ Finset.range (G.size pitch), F (Function.update p pitch i)) / G.size pitch ≤ hi := by
      intro lo hi h
      constructor
      · rw [le_div_iff₀ hpos]
        have := Finset.card_nsmul_le_sum (Finset.range (G.size pitch)) (fun i => F (Function.update p pitch i)) lo
          (fun i hi => (h i (Finset.mem_range.1 hi)).1)
        rw [Finset.card_range, nsmul_eq_mul] at this
        linarith
      · rw [div_le_iff₀ hpos]
        have := Finset.sum_le_card_nsmul (Finset.range (G.size pitch)) (fun i => F (Function.update p pitch i)) hi
          (fun i hi => (h i (Finset.mem_range.1 hi)).2)
        rw [Finset.card_range, nsmul_eq_mul] at this
        linarith
    refine ⟨key, fun x hx => ?_⟩
    obtain ⟨k1, k2⟩ := key x x (fun i hi => ⟨(hx i hi).ge, (hx i hi).le⟩)
    exact le_antisymm k2 k1

/-- distributions over three times and two pitch angles -/
example : ∃ F f, OnGrid exampleGrid (["time"] ++ ["mu"]) (distributionUnit .mks) F f ∧ F (fun _ => 0) ≠ F (fun _ => 1) := by
  obtain ⟨f, hf⟩ := onGrid_ofFn exampleGrid (["time"] ++ ["mu"]) (by decide) (distributionUnit .mks)
    (fun l => ((l.sum : ℕ) : ℝ))
  exact ⟨_, f, hf, by norm_num⟩

/-! ## C91: the energy density -/

theorem energyDensity_grid {order : List System} (ho : order ∈ orders) {c : Conv ℝ} (hc : Package order c)
    (rs : List (Name × Name)) (s : System) {front vs : List κ} {energy species : κ} {V F : (κ → Nat) → ℝ} {M : Nat → ℝ}
    {m v fiso : Operand κ ν ℝ} (hm : OnGrid G [species] (unitOf s (c! "mass")) (fun p => M (p species)) m)
    (hv : OnGrid G (vs ++ [energy]) (unitOf s (c! "velocity")) V v)
    (hf : OnGrid G (front ++ [energy]) (distributionUnit s) F fiso) (hsub : vs.Sublist front) (hsp : species ∈ front)
    (h2 : 2 ≤ G.size energy) :
    ∃ r, energyDensity order c (afterRequests c [] rs) (energyDensityUnit s) m v fiso = .ok r ∧
      OnGrid G front (energyDensityUnit s) (fun p => M (p species) * ∑ i ∈ Finset.range (G.size energy),
        V (Function.update p energy i) ^ 4 * F (Function.update p energy i) *
          gradientAt (G.size energy) (fun i => (i : ℝ)) (fun j => V (Function.update p energy j)) i) r := by
  obtain ⟨v1, v2, v3, v4⟩ := fourth_units order ho s (mem_bothSystems s)
  obtain ⟨a, e1, g1⟩ := moment_grid order 4 hv hf hsub h2 (by exact_mod_cast v1) v2 v3
  obtain ⟨b, e2, g2⟩ := mul_grid order true (fun x y => x * y) hm g1
    (merge_sublist' g1.nodup (List.singleton_sublist.2 hsp)) (combine_mul v4)
  obtain ⟨r, e3, g3⟩ := toUnit_same hc rs g2 (mul_unscaled hm g1 e2) (energy_density_factor order ho s (mem_bothSystems s))
  refine ⟨r, ?_, g3⟩
  simp only [energyDensity, times, e1, e2, bind, Except.bind]
  exact e3

/-- **C91**, the energy density.  From masses of species, speeds of particles, which increase with the energy, and isotropic
distributions on the grid of the dataset, the energy density is computed in the unit of the metric system for it, on the grid
without the energies.  Everywhere it is the mass multiplied by the sum over the energies of `v⁴ f dv`, where `dv` are the slopes
of the speeds from one energy to the next.  It is not negative where the distribution and the mass are not, and zero only
where the distribution is zero. -/
theorem c91_energy_density (order : List System) (ho : order ∈ orders) (c : Conv ℝ) (hc : Package order c)
    (rs : List (Name × Name)) (s : System) (front vs : List κ) (energy species : κ) (V F : (κ → Nat) → ℝ) (M : Nat → ℝ)
    (m v fiso : Operand κ ν ℝ) (hm : OnGrid G [species] (unitOf s (c! "mass")) (fun p => M (p species)) m)
    (hv : OnGrid G (vs ++ [energy]) (unitOf s (c! "velocity")) V v)
    (hf : OnGrid G (front ++ [energy]) (distributionUnit s) F fiso) (hsub : vs.Sublist front) (hsp : species ∈ front)
    (h2 : 2 ≤ G.size energy) (hV : ∀ p, Increasing (G.size energy) (fun i => V (Function.update p energy i)))
    (hV0 : ∀ p, 0 < V p) :
    ∃ (r : Operand κ ν ℝ) (R D : (κ → Nat) → ℝ),
      energyDensity order c (afterRequests c [] rs) (energyDensityUnit s) m v fiso = .ok r ∧
      OnGrid G front (energyDensityUnit s) R r ∧ ∀ p,
        Slopes (G.size energy) (fun i => i) (fun i => V (Function.update p energy i)) (fun i => D (Function.update p energy i)) ∧
        R p = M (p species) * ∑ i ∈ Finset.range (G.size energy),
          V (Function.update p energy i) ^ 4 * F (Function.update p energy i) * D (Function.update p energy i) ∧
        ((∀ i < G.size energy, 0 ≤ F (Function.update p energy i)) → 0 < M (p species) → 0 ≤ R p ∧
          (R p = 0 → ∀ i < G.size energy, F (Function.update p energy i) = 0)) := by
  obtain ⟨r, e1, g1⟩ := energyDensity_grid ho hc rs s hm hv hf hsub hsp h2
  refine ⟨r, _, fun p => gradientAt (G.size energy) (fun i => (i : ℝ)) (fun j => V (Function.update p energy j)) (p energy),
    e1, g1, fun p => ⟨?_, ?_, fun hF hM => ?_⟩⟩
  · simp only [Function.update_self, Function.update_idem]
    exact gradientAt_slopes h2 (fun i j hij _ => by show (i : ℝ) < j; exact_mod_cast hij)
  · simp only [Function.update_self, Function.update_idem]
  · have hD := fun i hi => gradientAt_pos h2 (hV p) (i := i) hi
    have hterm : ∀ i ∈ Finset.range (G.size energy), 0 ≤ V (Function.update p energy i) ^ 4 * F (Function.update p energy i) *
          gradientAt (G.size energy) (fun i => (i : ℝ)) (fun j => V (Function.update p energy j)) i := fun i hi => by
      have hi := Finset.mem_range.1 hi
      exact mul_nonneg (mul_nonneg (by have := hV0 (Function.update p energy i); positivity) (hF i hi)) (hD i hi).le
    refine ⟨mul_nonneg hM.le (Finset.sum_nonneg hterm), fun h0 i hi => ?_⟩
    have h0 := (mul_eq_zero.1 h0).resolve_left hM.ne'
    have := (Finset.sum_eq_zero_iff_of_nonneg hterm).1 h0 i (Finset.mem_range.2 hi)
    rcases mul_eq_zero.1 this with h | h
    · rcases mul_eq_zero.1 h with h | h
      · exact absurd (pow_eq_zero_iff (by norm_num) |>.1 h) (hV0 _).ne'
      · exact h
    · exact absurd h (hD i hi).ne'

/-- **C91**, the energy density is linear in the distribution. -/
theorem c91_linear (order : List System) (ho : order ∈ orders) (c : Conv ℝ) (hc : Package order c)
    (rs : List (Name × Name)) (s : System) (front vs : List κ) (energy species : κ) (V F F' : (κ → Nat) → ℝ) (M : Nat → ℝ)
    (x y : ℝ) (m v f f' f'' : Operand κ ν ℝ) (hm : OnGrid G [species] (unitOf s (c! "mass")) (fun p => M (p species)) m)
    (hv : OnGrid G (vs ++ [energy]) (unitOf s (c! "velocity")) V v)
    (hf : OnGrid G (front ++ [energy]) (distributionUnit s) F f)
    (hf' : OnGrid G (front ++ [energy]) (distributionUnit s) F' f')
    (hf'' : OnGrid G (front ++ [energy]) (distributionUnit s) (fun p => x * F p + y * F' p) f'')
    (hsub : vs.Sublist front) (hsp : species ∈ front) (h2 : 2 ≤ G.size energy) :
    ∃ r r' r'' R R', energyDensity order c (afterRequests c [] rs) (energyDensityUnit s) m v f = .ok r ∧
      energyDensity order c (afterRequests c [] rs) (energyDensityUnit s) m v f' = .ok r' ∧
      energyDensity order c (afterRequests c [] rs) (energyDensityUnit s) m v f'' = .ok r'' ∧
      OnGrid G front (energyDensityUnit s) R r ∧ OnGrid G front (energyDensityUnit s) R' r' ∧
      OnGrid G front (energyDensityUnit s) (fun p => x * R p + y * R' p) r'' := by
  obtain ⟨r, e1, g1⟩ := energyDensity_grid ho hc rs s hm hv hf hsub hsp h2
  obtain ⟨r', e2, g2⟩ := energyDensity_grid ho hc rs s hm hv hf' hsub hsp h2
  obtain ⟨r'', e3, g3⟩ := energyDensity_grid ho hc rs s hm hv hf'' hsub hsp h2
  refine ⟨r, r', r'', _, _, e1, e2, e3, g1, g2, ?_⟩
  convert g3 using 2 with p
  rw [mul_left_comm x, mul_left_comm y, ← mul_add, Finset.mul_sum, Finset.mul_sum, ← Finset.sum_add_distrib]
  congr 1
  refine Finset.sum_congr rfl (fun i _ => ?_)
  ring

/-! ## C91: the average energy -/

theorem averageEnergy_grid {order : List System} (ho : order ∈ orders) {c : Conv ℝ} (hc : Package order c)
    (rs rs' : List (Name × Name)) (s : System) {front vs : List κ} {energy species : κ} {V F : (κ → Nat) → ℝ} {M : Nat → ℝ}
    {m v fiso : Operand κ ν ℝ} (hm : OnGrid G [species] (unitOf s (c! "mass")) (fun p => M (p species)) m)
    (hv : OnGrid G (vs ++ [energy]) (unitOf s (c! "velocity")) V v)
    (hf : OnGrid G (front ++ [energy]) (distributionUnit s) F fiso) (hsub : vs.Sublist front) (hsp : species ∈ front)
    (h2 : 2 ≤ G.size energy) :
    ∃ r, averageEnergy order c (afterRequests c [] rs) (afterRequests c [] rs') (energyDensityUnit s)
        (unitOf s (c! "energy")) m v fiso = .ok r ∧
      OnGrid G front (unitOf s (c! "energy")) (fun p => 1 / 2 * (M (p species) * ∑ i ∈ Finset.range (G.size energy),
        V (Function.update p energy i) ^ 4 * F (Function.update p energy i) *
          gradientAt (G.size energy) (fun i => (i : ℝ)) (fun j => V (Function.update p energy j)) i) /
        ∑ i ∈ Finset.range (G.size energy), V (Function.update p energy i) ^ 2 * F (Function.update p energy i) *
          gradientAt (G.size energy) (fun i => (i : ℝ)) (fun j => V (Function.update p energy j)) i) r := by
  obtain ⟨v1, v2, v3, v4⟩ := second_units order ho s (mem_bothSystems s)
  obtain ⟨n, e1, g1⟩ := moment_grid order 2 hv hf hsub h2 (by exact_mod_cast v1) v2 v3
  obtain ⟨e, e2, g2⟩ := energyDensity_grid ho hc rs s hm hv hf hsub hsp h2
  obtain ⟨a, e3, g3⟩ := map_grid (w := energyDensityUnit s) g2 (fun y => 1 / 2 * y)
  obtain ⟨q, e4, g4⟩ := mul_grid order false (fun x y => x / y) g3 g1 (merge_sublist g1.nodup (List.Sublist.refl _))
    (combine_div v4)
  obtain ⟨r, e5, g5⟩ := toUnit_same hc rs' g4 (mul_unscaled g3 g1 e4) (energy_factor order ho s (mem_bothSystems s))
  refine ⟨r, ?_, g5⟩
  have e3' : times order (.number (1 / 2)) e = .ok a := by
    obtain ⟨_, z, rfl, _, _, _, _, hcu, _⟩ := g2
    rw [← e3, ← hcu]
    rfl
  simp only [averageEnergy, over, e1, e2, e3', e4, bind, Except.bind]
  exact e5

/-- **C91**, the average energy.  It is computed in the unit of the metric system for energy, on the grid without the energies.
Where the distribution is not negative and not zero, it lies between any bounds of the kinetic energies `½ m v²` of the
particles that the distribution has there; so it is the kinetic energy if they all have the same. -/
theorem c91_average_energy (order : List System) (ho : order ∈ orders) (c : Conv ℝ) (hc : Package order c)
    (rs rs' : List (Name × Name)) (s : System) (front vs : List κ) (energy species : κ) (V F : (κ → Nat) → ℝ) (M : Nat → ℝ)
    (m v fiso : Operand κ ν ℝ) (hm : OnGrid G [species] (unitOf s (c! "mass")) (fun p => M (p species)) m)
    (hv : OnGrid G (vs ++ [energy]) (unitOf s (c! "velocity")) V v)
    (hf : OnGrid G (front ++ [energy]) (distributionUnit s) F fiso) (hsub : vs.Sublist front) (hsp : species ∈ front)
    (h2 : 2 ≤ G.size energy) (hV : ∀ p, Increasing (G.size energy) (fun i => V (Function.update p energy i)))
    (hV0 : ∀ p, 0 < V p) :
    ∃ r R, averageEnergy order c (afterRequests c [] rs) (afterRequests c [] rs') (energyDensityUnit s)
        (unitOf s (c! "energy")) m v fiso = .ok r ∧
      OnGrid G front (unitOf s (c! "energy")) R r ∧ ∀ p,
        (∀ i < G.size energy, 0 ≤ F (Function.update p energy i)) → (∃ i < G.size energy, F (Function.update p energy i) ≠ 0) →
        ∀ lo hi, (∀ i < G.size energy, F (Function.update p energy i) ≠ 0 →
          lo ≤ 1 / 2 * M (p species) * V (Function.update p energy i) ^ 2 ∧
          1 / 2 * M (p species) * V (Function.update p energy i) ^ 2 ≤ hi) → lo ≤ R p ∧ R p ≤ hi := by
  obtain ⟨r, e1, g1⟩ := averageEnergy_grid ho hc rs rs' s hm hv hf hsub hsp h2
  refine ⟨r, _, e1, g1, fun p hF ⟨k, hk, hFk⟩ lo hi h => ?_⟩
  have hD := fun i hi => gradientAt_pos h2 (hV p) (i := i) hi
  set w : Nat → ℝ := fun i => V (Function.update p energy i) ^ 2 * F (Function.update p energy i) *
    gradientAt (G.size energy) (fun i => (i : ℝ)) (fun j => V (Function.update p energy j)) i with hw
  have hw0 : ∀ i < G.size energy, 0 ≤ w i := fun i hi =>
    mul_nonneg (mul_nonneg (by positivity) (hF i hi)) (hD i hi).le
  have hpos : 0 < ∑ i ∈ Finset.range (G.size energy), w i := by
    refine Finset.sum_pos' (fun i hi => hw0 i (Finset.mem_range.1 hi)) ⟨k, Finset.mem_range.2 hk, ?_⟩
    exact mul_pos (mul_pos (by have := hV0 (Function.update p energy k); positivity)
      (lt_of_le_of_ne (hF k hk) (Ne.symm hFk))) (hD k hk)
  have hnum : 1 / 2 * (M (p species) * ∑ i ∈ Finset.range (G.size energy),
        V (Function.update p energy i) ^ 4 * F (Function.update p energy i) *
          gradientAt (G.size energy) (fun i => (i : ℝ)) (fun j => V (Function.update p energy j)) i) =
      ∑ i ∈ Finset.range (G.size energy), (1 / 2 * M (p species) * V (Function.update p energy i) ^ 2) * w i := by
    rw [← mul_assoc, Finset.mul_sum]
    refine Finset.sum_congr rfl (fun i _ => ?_)
    rw [hw]
    ring
  have hzero : ∀ i, F (Function.update p energy i) = 0 → w i = 0 := fun i hi => by rw [hw]; simp [hi]
  simp only [hnum]
  constructor
  · rw [le_div_iff₀ hpos, Finset.mul_sum]
    refine Finset.sum_le_sum (fun i hi' => ?_)
    have hi' := Finset.mem_range.1 hi'
    by_cases h0 : F (Function.update p energy i) = 0
    · rw [hzero i h0]; simp
    · exact mul_le_mul_of_nonneg_right (h i hi' h0).1 (hw0 i hi')
  · rw [div_le_iff₀ hpos, Finset.mul_sum]
    refine Finset.sum_le_sum (fun i hi' => ?_)
    have hi' := Finset.mem_range.1 hi'
    by_cases h0 : F (Function.update p energy i) = 0
    · rw [hzero i h0]; simp
    · exact mul_le_mul_of_nonneg_right (h i hi' h0).2 (hw0 i hi')

/-- **C91**, the average energy does not depend on a factor of the distribution that is the same for all energies. -/
theorem c91_scale (order : List System) (ho : order ∈ orders) (c : Conv ℝ) (hc : Package order c)
    (rs rs' : List (Name × Name)) (s : System) (front vs : List κ) (energy species : κ) (V F X : (κ → Nat) → ℝ) (M : Nat → ℝ)
    (m v f f' : Operand κ ν ℝ) (hm : OnGrid G [species] (unitOf s (c! "mass")) (fun p => M (p species)) m)
    (hv : OnGrid G (vs ++ [energy]) (unitOf s (c! "velocity")) V v)
    (hf : OnGrid G (front ++ [energy]) (distributionUnit s) F f)
    (hf' : OnGrid G (front ++ [energy]) (distributionUnit s) (fun p => X p * F p) f')
    (hX : ∀ p, X p ≠ 0 ∧ ∀ i, X (Function.update p energy i) = X p)
    (hsub : vs.Sublist front) (hsp : species ∈ front) (h2 : 2 ≤ G.size energy) :
    ∃ r r' R, averageEnergy order c (afterRequests c [] rs) (afterRequests c [] rs') (energyDensityUnit s)
        (unitOf s (c! "energy")) m v f = .ok r ∧
      averageEnergy order c (afterRequests c [] rs) (afterRequests c [] rs') (energyDensityUnit s)
        (unitOf s (c! "energy")) m v f' = .ok r' ∧
      OnGrid G front (unitOf s (c! "energy")) R r ∧ OnGrid G front (unitOf s (c! "energy")) R r' := by
  obtain ⟨r, e1, g1⟩ := averageEnergy_grid ho hc rs rs' s hm hv hf hsub hsp h2
  obtain ⟨r', e2, g2⟩ := averageEnergy_grid ho hc rs rs' s hm hv hf' hsub hsp h2
  refine ⟨r, r', _, e1, e2, g1, ?_⟩
  convert g2 using 2 with p
  have key : ∀ n : ℕ, ∑ i ∈ Finset.range (G.size energy), V (Function.update p energy i) ^ n *
        (X (Function.update p energy i) * F (Function.update p energy i)) *
        gradientAt (G.size energy) (fun i => (i : ℝ)) (fun j => V (Function.update p energy j)) i =
      X p * ∑ i ∈ Finset.range (G.size energy), V (Function.update p energy i) ^ n * F (Function.update p energy i) *
        gradientAt (G.size energy) (fun i => (i : ℝ)) (fun j => V (Function.update p energy j)) i := fun n => by
    rw [Finset.mul_sum]
    refine Finset.sum_congr rfl (fun i _ => ?_)
    rw [(hX p).2]
    ring
  rw [key 4, key 2, mul_left_comm (M (p species)) (X p), mul_left_comm (1 / 2 : ℝ) (X p), mul_div_mul_left _ _ (hX p).1]

/-- masses, increasing speeds, and distributions that vanish at one energy and not at the other -/
example : ∃ (V F : (String → Nat) → ℝ) (M : Nat → ℝ) (m v f : Operand String Nat ℝ) (c : Conv ℝ), Package [.mks, .cgs] c ∧
    OnGrid exampleGrid ["species"] (unitOf .mks (c! "mass")) (fun p => M (p "species")) m ∧
    OnGrid exampleGrid (["species"] ++ ["energy"]) (unitOf .mks (c! "velocity")) V v ∧
    OnGrid exampleGrid (["time", "species"] ++ ["energy"]) (distributionUnit .mks) F f ∧
    ["species"].Sublist ["time", "species"] ∧ "species" ∈ ["time", "species"] ∧ 2 ≤ exampleGrid.size "energy" ∧
    (∀ p, Increasing (exampleGrid.size "energy") (fun i => V (Function.update p "energy" i))) ∧ (∀ p, 0 < V p) ∧
    (∀ p, 0 ≤ F p) ∧ F (fun _ => 0) = 0 ∧ F (fun _ => 1) ≠ 0 := by
  obtain ⟨m, hm⟩ := onGrid_ofFn exampleGrid ["species"] (by decide) (unitOf .mks (c! "mass")) (fun l => ((l.sum : ℕ) : ℝ) + 1)
  obtain ⟨v, hv⟩ := onGrid_ofFn exampleGrid (["species"] ++ ["energy"]) (by decide) (unitOf .mks (c! "velocity"))
    (fun l => ((l.sum : ℕ) : ℝ) + 1)
  obtain ⟨f, hf⟩ := onGrid_ofFn exampleGrid (["time", "species"] ++ ["energy"]) (by decide) (distributionUnit .mks)
    (fun l => ((l.sum : ℕ) : ℝ))
  refine ⟨_, _, fun n => (([n].sum : ℕ) : ℝ) + 1, m, v, f, _, ⟨tableNodes, fun _ => Iff.rfl, rfl⟩, hm, hv, hf, by simp,
    by simp, by decide, fun p i j hij _ => ?_, fun p => by positivity, fun p => by positivity, by norm_num, by norm_num⟩
  have : (i : ℝ) < j := by exact_mod_cast hij
  simpa [Function.update] using this

/-! ## C92: flux -/

/-- The unit of the distribution multiplied by the energy, and of the flux before it is converted. -/
def fluxRaw (s : System) : List Term := [⟨1, c! "s", 1⟩, ⟨1, massName s, -1⟩, ⟨1, c! "sr", -1⟩, ⟨1, lengthName s, -4⟩]

set_option maxHeartbeats 100000000 in
theorem flux_units : ∀ o ∈ orders, ∀ s ∈ bothSystems,
    unitMul o (distributionUnit s) (unitOf s (c! "energy")) = .ok [⟨1, massName s, 1⟩, ⟨1, c! "s", 1⟩, ⟨1, lengthName s, -4⟩] ∧
    unitPow false (unitOf s (c! "mass")) 2 = .ok [⟨1, massName s, 2⟩] ∧
    unitMul o [⟨1, c! "sr", 1⟩] [⟨1, massName s, 2⟩] = .ok [⟨1, massName s, 2⟩, ⟨1, c! "sr", 1⟩] ∧
    unitDiv o [⟨1, massName s, 1⟩, ⟨1, c! "s", 1⟩, ⟨1, lengthName s, -4⟩] [⟨1, massName s, 2⟩, ⟨1, c! "sr", 1⟩] =
      .ok (fluxRaw s) := by decide +kernel

set_option maxHeartbeats 100000000 in
/-- The units of the intermediate results of the isotropic distribution that is computed from fluxes; the last, which has a
solid angle, is replaced. -/
theorem fiso_units : ∀ o ∈ orders, ∀ s ∈ bothSystems,
    unitMul o (fluxUnit s) [⟨1, massName s, 2⟩] = .ok [⟨1, massName s, 1⟩, ⟨1, c! "s", 1⟩, ⟨1, c! "sr", -1⟩, ⟨1, lengthName s, -4⟩] ∧
    unitDiv o [⟨1, massName s, 1⟩, ⟨1, c! "s", 1⟩, ⟨1, c! "sr", -1⟩, ⟨1, lengthName s, -4⟩] (unitOf s (c! "energy")) =
      .ok [⟨1, c! "s", 3⟩, ⟨1, c! "sr", -1⟩, ⟨1, lengthName s, -6⟩] := by decide +kernel

set_option maxHeartbeats 100000000 in
theorem flux_factor : ∀ o ∈ orders, ∀ s ∈ bothSystems, sameUnits o (fluxRaw s) (fluxUnit s) = true := by decide +kernel

theorem ones_broadcast (s : List Nat) : broadcastShape (List.replicate s.length 1) s = .ok s := by
  induction s with
  | nil => rfl
  | cons n s ih =>
    have : broadcastDim 1 n = .ok n := by
      unfold broadcastDim
      by_cases h : n = 1
      · subst h; rfl
      · rw [if_neg (fun e => h e.symm), if_pos rfl]
    simp only [List.length_cons, List.replicate_succ, broadcastShape, this, ih]

theorem scalar_zip (f : ℝ → ℝ → ℝ) (a b : ND ℝ) (hb : b.shape = []) :
    ∃ r, ND.zip f b a = .ok r ∧ r.shape = a.shape ∧ ∀ p, Valid p a.shape → r.get p = f (b.get []) (a.get p) := by
  have h2 : (b.atLeast a.ndim).shape = List.replicate a.shape.length 1 := by
    simp [ND.atLeast, ND.ndim, hb]
  have h1 : a.atLeast (b.atLeast a.ndim).ndim = a := by
    have : (b.atLeast a.ndim).ndim = a.shape.length := by rw [ND.ndim, h2, List.length_replicate]
    rw [this]
    unfold ND.atLeast ND.ndim
    simp
  obtain ⟨r, hr⟩ : ∃ r, ND.zip f b a = .ok r := by
    unfold ND.zip
    simp only [h1, h2, ones_broadcast]
    exact ⟨_, rfl⟩
  have hs : r.shape = a.shape := by
    have h := hr
    unfold ND.zip at h
    simp only [h1, h2, ones_broadcast] at h
    cases h
    rfl
  refine ⟨r, hr, hs, fun p hp => ?_⟩
  rw [(zip_spread hr).2 p (hs ▸ hp), spread_self hp]
  congr 1
  unfold ND.spread trail
  rw [hb]
  rfl

/-- A scalar multiplied by an array on the grid. -/
theorem scalar_mul (order : List System) {dims : List κ} {u v w : List Term} {g : (κ → Nat) → ℝ} {x : ℝ}
    {a b : Operand κ ν ℝ} (ha : IsScalar v x a) (hb : OnGrid G dims u g b) (hw : unitMul order v u = .ok w) :
    ∃ r, times order a b = .ok r ∧ OnGrid G dims w (fun p => x * g p) r := by
  obtain ⟨hn, c, rfl, hp, hd, hs, hax, hcu, hg⟩ := hb
  obtain ⟨o, rfl, ho, hx, hou⟩ := ha
  obtain ⟨r, hr, hrs, hrg⟩ := scalar_zip (fun x y => x * y) c.arr.data.data o.data ho
  have hs' : c.arr.data.data.shape = dims.map G.size := hs
  obtain ⟨z, hz1, hz2⟩ := newArray_grid (u := w) hn (hrs.trans hs') (g := fun p => x * g p) (fun pos hpos => by
    rw [hrg _ (by rw [hs']; exact grid_valid.2 hpos), ← hg pos hpos, data_at hd, hx])
  refine ⟨z, ?_, hz2⟩
  have hzd : zipData (fun x y => x * y) o.data c.arr.data.data = .ok r := by unfold zipData; rw [hr]
  simp only [times, Physical.multiplicative, Operand.unit, hcu, hou, combine_mul hw, multiplyMeasured, hzd, hax]
  exact hz1

/-- **C92**, flux from distributions.  From isotropic distributions, energies and masses on the grid of the dataset, the flux is
computed on the grid of the distributions, in the unit of the metric system for flux: everywhere it is `2 f E / m²`. -/
theorem c92_flux (order : List System) (ho : order ∈ orders) (c : Conv ℝ) (hc : Package order c) (rs : List (Name × Name))
    (s : System) (front es : List κ) (energy species : κ) (F E : (κ → Nat) → ℝ) (M : Nat → ℝ) (fiso e m : Operand κ ν ℝ)
    (hf : OnGrid G (front ++ [energy]) (distributionUnit s) F fiso)
    (he : OnGrid G (es ++ [energy]) (unitOf s (c! "energy")) E e)
    (hm : OnGrid G [species] (unitOf s (c! "mass")) (fun p => M (p species)) m) (hsub : es.Sublist front)
    (hsp : species ∈ front) :
    ∃ r, fluxOf order c (afterRequests c [] rs) (fluxUnit s) fiso e m = .ok r ∧
      OnGrid G (front ++ [energy]) (fluxUnit s) (fun p => 2 * F p * E p / M (p species) ^ 2) r := by
  obtain ⟨v1, v2, v3, v4⟩ := flux_units order ho s (mem_bothSystems s)
  have hs : (es ++ [energy]).Sublist (front ++ [energy]) := hsub.append (List.Sublist.refl _)
  obtain ⟨a, e1, g1⟩ := map_grid (w := distributionUnit s) hf (fun y => 2 * y)
  obtain ⟨b, e2, g2⟩ := mul_grid order true (fun x y => x * y) g1 he (merge_sublist hf.nodup hs) (combine_mul v1)
  obtain ⟨m2, e3, g3⟩ := raised_grid hm 2 (pow_units (by exact_mod_cast v2))
  obtain ⟨g, e4, g4⟩ := scalar_mul order (κ := κ) (ν := ν) (a := .object .scalar ⟨⟨[], fun _ => 1⟩, [⟨1, c! "sr", 1⟩]⟩) (x := 1)
    ⟨_, rfl, rfl, rfl, rfl⟩ g3 v3
  obtain ⟨d, e5, g5⟩ := mul_grid order false (fun x y => x / y) g2 g4
    (merge_sublist hf.nodup (List.singleton_sublist.2 (List.mem_append_left _ hsp))) (combine_div v4)
  obtain ⟨r, e6, g6⟩ := toUnit_same hc rs g5 (mul_unscaled g2 g4 e5) (flux_factor order ho s (mem_bothSystems s))
  refine ⟨r, ?_, ?_⟩
  · have e1' : times order (.number 2) fiso = .ok a := by
      obtain ⟨_, z, rfl, _, _, _, _, hcu, _⟩ := hf
      rw [← e1, ← hcu]
      rfl
    have e2' : times order a e = .ok b := e2
    simp only [fluxOf, over, e1', e2', e3, e4, e5, bind, Except.bind]
    exact e6
  · simpa only [one_mul] using g6

/-- **C92**, distributions from flux.  From fluxes, energies and masses on the grid of the dataset, the isotropic distribution is
computed on the same grid, in the unit of the metric system for distributions: everywhere it is `m² J / (2 E)`. -/
theorem c92_fiso (order : List System) (ho : order ∈ orders) (s : System) (front es : List κ) (energy species : κ)
    (J E : (κ → Nat) → ℝ) (M : Nat → ℝ) (flux e m : Operand κ ν ℝ) (hf : OnGrid G (front ++ [energy]) (fluxUnit s) J flux)
    (he : OnGrid G (es ++ [energy]) (unitOf s (c! "energy")) E e)
    (hm : OnGrid G [species] (unitOf s (c! "mass")) (fun p => M (p species)) m) (hsub : es.Sublist front)
    (hsp : species ∈ front) :
    ∃ r, isotropicOfFlux order (distributionUnit s) flux m e = .ok r ∧
      OnGrid G (front ++ [energy]) (distributionUnit s) (fun p => M (p species) ^ 2 * J p / (2 * E p)) r := by
  obtain ⟨_, v2, _, _⟩ := flux_units order ho s (mem_bothSystems s)
  obtain ⟨v3, v4⟩ := fiso_units order ho s (mem_bothSystems s)
  have hs : (es ++ [energy]).Sublist (front ++ [energy]) := hsub.append (List.Sublist.refl _)
  obtain ⟨a, e1, g1⟩ := map_grid (w := fluxUnit s) hf (fun y => 1 / 2 * y)
  obtain ⟨m2, e2, g2⟩ := raised_grid hm 2 (pow_units (by exact_mod_cast v2))
  obtain ⟨b, e3, g3⟩ := mul_grid order true (fun x y => x * y) g1 g2
    (merge_sublist hf.nodup (List.singleton_sublist.2 (List.mem_append_left _ hsp))) (combine_mul v3)
  obtain ⟨d, e4, g4⟩ := mul_grid order false (fun x y => x / y) g3 he (merge_sublist hf.nodup hs) (combine_div v4)
  have e1' : times order (.number (1 / 2)) flux = .ok a := by
    obtain ⟨_, z, rfl, _, _, _, _, hcu, _⟩ := hf
    rw [← e1, ← hcu]
    rfl
  obtain ⟨hn, x, rfl, _, _, _, hax, _, _⟩ := hf
  obtain ⟨_, y, rfl, _, hd, hsh, _, _, hg⟩ := g4
  have hsh' : y.arr.data.data.shape = (front ++ [energy]).map G.size := hsh
  obtain ⟨r, h1, h2⟩ := newArray_grid (G := G) (u := distributionUnit s) hn hsh'
    (g := fun p => M (p species) ^ 2 * J p / (2 * E p)) (fun pos hpos => by
      rw [← data_at hd, hg pos hpos]
      show 1 / 2 * J pos * M (pos species) ^ 2 / E pos = _
      ring)
  refine ⟨r, ?_, h2⟩
  have e3' : times order a m2 = .ok b := e3
  have e4' : over order b e = .ok (.array y) := e4
  simp only [isotropicOfFlux, e1', e2, e3', e4', bind, Except.bind, hax]
  exact h1

/-- **C92**, the two are inverse to each other: where energies and masses are not zero, the isotropic distribution that is
computed from the flux that is computed from a distribution is that distribution, and likewise for fluxes. -/
theorem c92_inverse (order : List System) (ho : order ∈ orders) (c : Conv ℝ) (hc : Package order c) (rs : List (Name × Name))
    (s : System) (front es : List κ) (energy species : κ) (F J E : (κ → Nat) → ℝ) (M : Nat → ℝ) (fiso flux e m : Operand κ ν ℝ)
    (hf : OnGrid G (front ++ [energy]) (distributionUnit s) F fiso) (hj : OnGrid G (front ++ [energy]) (fluxUnit s) J flux)
    (he : OnGrid G (es ++ [energy]) (unitOf s (c! "energy")) E e)
    (hm : OnGrid G [species] (unitOf s (c! "mass")) (fun p => M (p species)) m) (hsub : es.Sublist front)
    (hsp : species ∈ front) (hE : ∀ p, E p ≠ 0) (hM : ∀ n, M n ≠ 0) :
    (∃ r r', fluxOf order c (afterRequests c [] rs) (fluxUnit s) fiso e m = .ok r ∧
      isotropicOfFlux order (distributionUnit s) r m e = .ok r' ∧ OnGrid G (front ++ [energy]) (distributionUnit s) F r') ∧
    (∃ r r', isotropicOfFlux order (distributionUnit s) flux m e = .ok r ∧
      fluxOf order c (afterRequests c [] rs) (fluxUnit s) r e m = .ok r' ∧ OnGrid G (front ++ [energy]) (fluxUnit s) J r') := by
  constructor
  · obtain ⟨r, e1, g1⟩ := c92_flux order ho c hc rs s front es energy species F E M fiso e m hf he hm hsub hsp
    obtain ⟨r', e2, g2⟩ := c92_fiso order ho s front es energy species _ E M r e m g1 he hm hsub hsp
    refine ⟨r, r', e1, e2, ?_⟩
    convert g2 using 2 with p
    have := hE p
    have := hM (p species)
    field_simp
  · obtain ⟨r, e1, g1⟩ := c92_fiso order ho s front es energy species J E M flux e m hj he hm hsub hsp
    obtain ⟨r', e2, g2⟩ := c92_flux order ho c hc rs s front es energy species _ E M r e m g1 he hm hsub hsp
    refine ⟨r, r', e1, e2, ?_⟩
    convert g2 using 2 with p
    have := hE p
    have := hM (p species)
    field_simp

/-- distributions, energies and masses that are not zero -/
example : ∃ (F J E : (String → Nat) → ℝ) (M : Nat → ℝ) (f flux e m : Operand String Nat ℝ) (c : Conv ℝ), Package [.cgs, .mks] c ∧
    OnGrid exampleGrid (["time", "species"] ++ ["energy"]) (distributionUnit .cgs) F f ∧
    OnGrid exampleGrid (["time", "species"] ++ ["energy"]) (fluxUnit .cgs) J flux ∧
    OnGrid exampleGrid (["species"] ++ ["energy"]) (unitOf .cgs (c! "energy")) E e ∧
    OnGrid exampleGrid ["species"] (unitOf .cgs (c! "mass")) (fun p => M (p "species")) m ∧
    ["species"].Sublist ["time", "species"] ∧ "species" ∈ ["time", "species"] ∧ (∀ p, E p ≠ 0) ∧ (∀ n, M n ≠ 0) := by
  obtain ⟨m, hm⟩ := onGrid_ofFn exampleGrid ["species"] (by decide) (unitOf .cgs (c! "mass")) (fun l => ((l.sum : ℕ) : ℝ) + 1)
  obtain ⟨e, he⟩ := onGrid_ofFn exampleGrid (["species"] ++ ["energy"]) (by decide) (unitOf .cgs (c! "energy"))
    (fun l => ((l.sum : ℕ) : ℝ) + 1)
  obtain ⟨f, hf⟩ := onGrid_ofFn exampleGrid (["time", "species"] ++ ["energy"]) (by decide) (distributionUnit .cgs)
    (fun l => ((l.sum : ℕ) : ℝ))
  obtain ⟨j, hj⟩ := onGrid_ofFn exampleGrid (["time", "species"] ++ ["energy"]) (by decide) (fluxUnit .cgs)
    (fun l => ((l.sum : ℕ) : ℝ))
  exact ⟨_, _, _, fun n => (([n].sum : ℕ) : ℝ) + 1, f, j, e, m, _, ⟨tableNodes, fun _ => Iff.rfl, rfl⟩, hf, hj, he, hm, by simp,
    by simp, fun p => by positivity, fun n => by positivity⟩

end Eprem.Observable
