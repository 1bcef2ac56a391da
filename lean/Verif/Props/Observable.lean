import Verif.Lemmas.Observable
import Mathlib.Analysis.SpecialFunctions.Trigonometric.Inverse

/-!
# Derived observable quantities (C52, C53, C54)
-/

namespace Eprem.Observable

open Eprem Eprem.Symbolic Eprem.Metric Eprem.Numeric Eprem.Measured Eprem.Physical

variable {κ ν : Type} [DecidableEq κ] {G : Grid κ ν}

set_option maxHeartbeats 100000000 in
/-- The units of `Spec/Observable.lean` are those of the package. -/
theorem observable_units : ∀ s ∈ [System.mks, System.cgs], ∀ q ∈ [c! "length", c! "magnetic field", c! "velocity",
    c! "energy", c! "mass", c! "charge", c! "time", c! "plane angle"],
    ((unitsOf s q).toOption.bind (fun n => (freshUnit n).toOption)) = some (unitOf s q) := by decide +kernel

/-- The metric systems, and the orders in which products of units may try them. -/
def orders : List (List System) := [[.mks, .cgs], [.cgs, .mks]]

theorem orders_iff {o : List System} : o ∈ orders ↔ o = [.mks, .cgs] ∨ o = [.cgs, .mks] := by simp [orders]

def bothSystems : List System := [.mks, .cgs]

theorem mem_bothSystems (s : System) : s ∈ bothSystems := by cases s <;> simp [bothSystems]

/-! ## C52: Cartesian coordinates -/

set_option maxHeartbeats 100000000 in
theorem length_times_number : ∀ o ∈ orders, ∀ s ∈ bothSystems,
    unitMul o (unitOf s (c! "length")) unitless = .ok (unitOf s (c! "length")) := by decide +kernel

theorem combine_mul {o : List System} {u v w : List Term} (h : unitMul o u v = .ok w) : combineUnits o true u v = .ok w := by
  unfold combineUnits; rw [if_pos rfl, h]

theorem combine_div {o : List System} {u v w : List Term} (h : unitDiv o u v = .ok w) : combineUnits o false u v = .ok w := by
  unfold combineUnits; rw [if_neg (by decide), h]

/-- **C52**.  From arrays of radii, polar angles and azimuths on the grid of the dataset, the observables x, y and z are
computed; they are lengths on the same grid, with the unit of the radius, and everywhere
`x = r sin θ cos φ`, `y = r sin θ sin φ`, `z = r cos θ`, and `x² + y² + z² = r²`. -/
theorem c52_coordinates (order : List System) (ho : order ∈ orders) (s : System) (dims : List κ)
    (R Θ Φ : (κ → Nat) → ℝ) (r theta phi : Operand κ ν ℝ) (hr : OnGrid G dims (unitOf s (c! "length")) R r)
    (ht : OnGrid G dims (unitOf s (c! "plane angle")) Θ theta) (hp : OnGrid G dims (unitOf s (c! "plane angle")) Φ phi) :
    ∃ x y z X Y Z, xCoord order r theta phi = .ok x ∧ yCoord order r theta phi = .ok y ∧ zCoord order r theta = .ok z ∧
      OnGrid G dims (unitOf s (c! "length")) X x ∧ OnGrid G dims (unitOf s (c! "length")) Y y ∧
      OnGrid G dims (unitOf s (c! "length")) Z z ∧
      ∀ p, X p = R p * Real.sin (Θ p) * Real.cos (Φ p) ∧ Y p = R p * Real.sin (Θ p) * Real.sin (Φ p) ∧
        Z p = R p * Real.cos (Θ p) ∧ X p ^ 2 + Y p ^ 2 + Z p ^ 2 = R p ^ 2 := by
  have hu := combine_mul (length_times_number order ho s (mem_bothSystems s))
  have hrad : unitOf s (c! "plane angle") = [⟨1, c! "rad", 1⟩] := by cases s <;> decide
  rw [hrad] at ht hp
  have hm := merge_sublist hr.nodup (List.Sublist.refl dims)
  obtain ⟨st, e1, g1⟩ := trig_grid ht Real.sin
  obtain ⟨ct, e2, g2⟩ := trig_grid ht Real.cos
  obtain ⟨sp, e3, g3⟩ := trig_grid hp Real.sin
  obtain ⟨cp, e4, g4⟩ := trig_grid hp Real.cos
  obtain ⟨a, e5, g5⟩ := mul_grid order true (fun x y => x * y) hr g1 hm hu
  obtain ⟨x, e6, g6⟩ := mul_grid order true (fun x y => x * y) g5 g4 hm hu
  obtain ⟨y, e7, g7⟩ := mul_grid order true (fun x y => x * y) g5 g3 hm hu
  obtain ⟨z, e8, g8⟩ := mul_grid order true (fun x y => x * y) hr g2 hm hu
  refine ⟨x, y, z, _, _, _, ?_, ?_, ?_, g6, g7, g8, fun p => ⟨rfl, rfl, rfl, ?_⟩⟩
  · simp only [xCoord, times, e1, e5, e4, e6, bind, Except.bind]
  · simp only [yCoord, times, e1, e5, e3, e7, bind, Except.bind]
  · simp only [zCoord, times, e2, e8, bind, Except.bind]
  · have h1 := Real.sin_sq_add_cos_sq (Θ p)
    have h2 := Real.sin_sq_add_cos_sq (Φ p)
    linear_combination (R p ^ 2 * Real.sin (Θ p) ^ 2) * h2 + R p ^ 2 * h1

/-- A grid with three times and two shells, and an array on it. -/
def exampleGrid : Grid String Nat := ⟨fun d => if d = "time" then 3 else 2, fun d => d.length, fun d => by
  by_cases h : d = "time" <;> simp [h]⟩

/-- Every function of the named position is an array on the grid. -/
theorem onGrid_ofFn (G : Grid κ ν) (dims : List κ) (hn : dims.Nodup) (u : List Term) (g : List Nat → ℝ) :
    ∃ a, OnGrid G dims u (fun p => g (dims.map p)) a := by
  obtain ⟨r, _, h⟩ := newArray_grid (G := G) (u := u) hn (d := .ofFn (dims.map G.size) g) rfl
    (g := fun p => g (dims.map p)) (fun pos hpos => get_ofFn (grid_valid.2 hpos))
  exact ⟨r, h⟩

/-- arrays of radii and angles -/
example : ∃ r theta phi, OnGrid exampleGrid ["time", "shell"] (unitOf .mks (c! "length"))
      (fun p => ((["time", "shell"].map p).sum : ℝ) + 1) r ∧
    OnGrid exampleGrid ["time", "shell"] (unitOf .mks (c! "plane angle")) (fun p => ((["time", "shell"].map p).sum : ℝ)) theta ∧
    OnGrid exampleGrid ["time", "shell"] (unitOf .mks (c! "plane angle")) (fun p => ((["time", "shell"].map p).sum : ℝ)) phi := by
  obtain ⟨r, hr⟩ := onGrid_ofFn exampleGrid ["time", "shell"] (by decide) (unitOf .mks (c! "length"))
    (fun l => ((l.sum : ℕ) : ℝ) + 1)
  obtain ⟨t, ht⟩ := onGrid_ofFn exampleGrid ["time", "shell"] (by decide) (unitOf .mks (c! "plane angle"))
    (fun l => ((l.sum : ℕ) : ℝ))
  exact ⟨r, t, t, hr, ht, ht⟩

/-! ## C53: components of the flow along and across the field -/

/-- The units of the intermediate results. -/
def fieldSq : System → List Term
  | .mks => [⟨1, c! "T", 2⟩]
  | .cgs => [⟨1, c! "G", 2⟩]

def speedSq : System → List Term
  | .mks => [⟨1, c! "m", 2⟩, ⟨1, c! "s", -2⟩]
  | .cgs => [⟨1, c! "cm", 2⟩, ⟨1, c! "s", -2⟩]

def fieldSpeed : System → List Term
  | .mks => [⟨1, c! "kg", 1⟩, ⟨1, c! "m", 1⟩, ⟨1, c! "A", -1⟩, ⟨1, c! "s", -3⟩]
  | .cgs => [⟨1, c! "cm", 1/2⟩, ⟨1, c! "g", 1/2⟩, ⟨1, c! "s", -2⟩]

set_option maxHeartbeats 100000000 in
theorem flow_powers : ∀ s ∈ bothSystems,
    unitPow false (unitOf s (c! "magnetic field")) 2 = .ok (fieldSq s) ∧
    unitPow true (fieldSq s) (1/2) = .ok (unitOf s (c! "magnetic field")) ∧
    unitPow false (unitOf s (c! "velocity")) 2 = .ok (speedSq s) ∧
    unitPow true (speedSq s) (1/2) = .ok (unitOf s (c! "velocity")) ∧
    exprEq (fieldSq s) (fieldSq s) = true ∧ exprEq (speedSq s) (speedSq s) = true ∧
    exprEq (fieldSpeed s) (fieldSpeed s) = true := by decide +kernel

set_option maxHeartbeats 100000000 in
theorem flow_products : ∀ o ∈ orders, ∀ s ∈ bothSystems,
    unitMul o (unitOf s (c! "magnetic field")) (unitOf s (c! "velocity")) = .ok (fieldSpeed s) ∧
    unitDiv o (fieldSpeed s) (unitOf s (c! "magnetic field")) = .ok (unitOf s (c! "velocity")) ∧
    unitDiv o (fieldSpeed s) (fieldSpeed s) = .ok unitless := by decide +kernel

theorem pow_units {f : Bool} {u w : List Term} {p : ℚ} (h : unitPow f u p = .ok w) : powUnits f u p = .ok w := by
  unfold powUnits; rw [h]

theorem magnitude_grid {same inside : ν → ν → Bool} (hsame : ∀ x, same x x = true) {dims : List κ} {u u2 : List Term}
    {A B C : (κ → Nat) → ℝ} {a b c : Operand κ ν ℝ} (ha : OnGrid G dims u A a) (hb : OnGrid G dims u B b)
    (hc : OnGrid G dims u C c) (h2 : powUnits false u (2 : ℕ) = .ok u2) (he : exprEq u2 u2 = true)
    (hr : powUnits true u2 (1/2) = .ok u) :
    ∃ m, magnitude same inside a b c = .ok m ∧
      OnGrid G dims u (fun p => Real.sqrt (A p ^ 2 + B p ^ 2 + C p ^ 2)) m := by
  obtain ⟨a2, e1, g1⟩ := raised_grid ha 2 h2
  obtain ⟨b2, e2, g2⟩ := raised_grid hb 2 h2
  obtain ⟨c2, e3, g3⟩ := raised_grid hc 2 h2
  obtain ⟨ab, e4, g4⟩ := add_grid (inside := inside) hsame (fun x y => x + y) g1 g2 he
  obtain ⟨s, e5, g5⟩ := add_grid (inside := inside) hsame (fun x y => x + y) g4 g3 he
  obtain ⟨m, e6, g6⟩ := root_grid g5 hr
  exact ⟨m, by simp only [magnitude, plus, e1, e2, e3, e4, e5, e6, bind, Except.bind], g6⟩

theorem udotb_grid {order : List System} {same inside : ν → ν → Bool} (hsame : ∀ x, same x x = true) {dims : List κ}
    {u v w : List Term} {A B C D E F : (κ → Nat) → ℝ} {a b c d e f : Operand κ ν ℝ} (ha : OnGrid G dims u A a)
    (hb : OnGrid G dims u B b) (hc : OnGrid G dims u C c) (hd : OnGrid G dims v D d) (he : OnGrid G dims v E e)
    (hf : OnGrid G dims v F f) (hm : combineUnits order true u v = .ok w) (hw : exprEq w w = true) :
    ∃ m, udotb order same inside a b c d e f = .ok m ∧ OnGrid G dims w (fun p => A p * D p + B p * E p + C p * F p) m := by
  have hme := merge_sublist ha.nodup (List.Sublist.refl dims)
  obtain ⟨x, e1, g1⟩ := mul_grid order true (fun x y => x * y) ha hd hme hm
  obtain ⟨y, e2, g2⟩ := mul_grid order true (fun x y => x * y) hb he hme hm
  obtain ⟨z, e3, g3⟩ := mul_grid order true (fun x y => x * y) hc hf hme hm
  obtain ⟨xy, e4, g4⟩ := add_grid (inside := inside) hsame (fun x y => x + y) g1 g2 hw
  obtain ⟨m, e5, g5⟩ := add_grid (inside := inside) hsame (fun x y => x + y) g4 g3 hw
  exact ⟨m, by simp only [udotb, plus, times, e1, e2, e3, e4, e5, bind, Except.bind], g5⟩

/-- The inequality of Cauchy and Schwarz in three dimensions. -/
theorem cauchy3 (a b c x y z : ℝ) : (a * x + b * y + c * z) ^ 2 ≤ (a ^ 2 + b ^ 2 + c ^ 2) * (x ^ 2 + y ^ 2 + z ^ 2) := by
  nlinarith [sq_nonneg (a * y - b * x), sq_nonneg (a * z - c * x), sq_nonneg (b * z - c * y)]

/-- The magnetic field and the flow of a dataset, on its grid, in the units of a metric system. -/
structure Flow (G : Grid κ ν) (s : System) (dims : List κ) (B U : Fin 3 → (κ → Nat) → ℝ)
    (b u : Fin 3 → Operand κ ν ℝ) : Prop where
  field : ∀ i, OnGrid G dims (unitOf s (c! "magnetic field")) (B i) (b i)
  flow : ∀ i, OnGrid G dims (unitOf s (c! "velocity")) (U i) (u i)

/-- The length of a vector. -/
noncomputable def norm3 (V : Fin 3 → (κ → Nat) → ℝ) (p : κ → Nat) : ℝ := Real.sqrt (V 0 p ^ 2 + V 1 p ^ 2 + V 2 p ^ 2)

/-- **C53**.  From the components of the field and of the flow on the grid of the dataset, the magnitudes and the components
of the flow along and across the field are computed, on the same grid and with the units of the flow (and of the field).
Wherever the field is not zero, the component along the field is the projection of the flow on the field and at most as
long as the flow, the radicand of the component across the field is not negative, and the squares of the components add up
to the square of the length of the flow. -/
theorem c53_components (order : List System) (ho : order ∈ orders) (s : System) (same inside : ν → ν → Bool)
    (hsame : ∀ x, same x x = true) (dims : List κ) (B U : Fin 3 → (κ → Nat) → ℝ) (b u : Fin 3 → Operand κ ν ℝ)
    (h : Flow G s dims B U b u) :
    ∃ bm um pa pe BM UM PA PE, magnitude same inside (b 0) (b 1) (b 2) = .ok bm ∧
      magnitude same inside (u 0) (u 1) (u 2) = .ok um ∧
      upara order same inside (b 0) (b 1) (b 2) (u 0) (u 1) (u 2) = .ok pa ∧
      uperp order same inside (b 0) (b 1) (b 2) (u 0) (u 1) (u 2) = .ok pe ∧
      OnGrid G dims (unitOf s (c! "magnetic field")) BM bm ∧ OnGrid G dims (unitOf s (c! "velocity")) UM um ∧
      OnGrid G dims (unitOf s (c! "velocity")) PA pa ∧ OnGrid G dims (unitOf s (c! "velocity")) PE pe ∧
      ∀ p, BM p = norm3 B p ∧ UM p = norm3 U p ∧ PE p = Real.sqrt (UM p ^ 2 - PA p ^ 2) ∧
        ((∃ i, B i p ≠ 0) → PA p * norm3 B p = B 0 p * U 0 p + B 1 p * U 1 p + B 2 p * U 2 p ∧
          |PA p| ≤ norm3 U p ∧ 0 ≤ UM p ^ 2 - PA p ^ 2 ∧ 0 ≤ PE p ∧ PA p ^ 2 + PE p ^ 2 = norm3 U p ^ 2) := by
  obtain ⟨u1, u2, u3, u4, q1, q2, q3⟩ := flow_powers s (mem_bothSystems s)
  obtain ⟨v1, v2, v3⟩ := flow_products order ho s (mem_bothSystems s)
  have hme := merge_sublist (h.field 0).nodup (List.Sublist.refl dims)
  obtain ⟨bm, e1, g1⟩ := magnitude_grid (inside := inside) hsame (h.field 0) (h.field 1) (h.field 2) (pow_units u1) q1
    (pow_units u2)
  obtain ⟨um, e2, g2⟩ := magnitude_grid (inside := inside) hsame (h.flow 0) (h.flow 1) (h.flow 2) (pow_units u3) q2
    (pow_units u4)
  obtain ⟨ub, e3, g3⟩ := udotb_grid (inside := inside) hsame (h.field 0) (h.field 1) (h.field 2) (h.flow 0) (h.flow 1)
    (h.flow 2) (combine_mul v1) q3
  obtain ⟨pa, e4, g4⟩ := mul_grid order false (fun x y => x / y) g3 g1 hme (combine_div v2)
  obtain ⟨m2, e5, g5⟩ := raised_grid g2 2 (pow_units u3)
  obtain ⟨p2, e6, g6⟩ := raised_grid g4 2 (pow_units u3)
  obtain ⟨di, e7, g7⟩ := add_grid (inside := inside) hsame (fun x y => x - y) g5 g6 q2
  obtain ⟨pe, e8, g8⟩ := root_grid g7 (pow_units u4)
  have hpa : upara order same inside (b 0) (b 1) (b 2) (u 0) (u 1) (u 2) = .ok pa := by
    simp only [upara, over, e3, e1, e4, bind, Except.bind]
  refine ⟨bm, um, pa, pe, _, _, _, _, e1, e2, hpa, ?_, g1, g2, g4, g8, fun p => ⟨rfl, rfl, rfl, fun hz => ?_⟩⟩
  · simp only [uperp, minus, e2, hpa, e5, e6, e7, e8, bind, Except.bind]
  · have hpos : 0 < B 0 p ^ 2 + B 1 p ^ 2 + B 2 p ^ 2 := by
      obtain ⟨i, hi⟩ := hz
      have h0 := sq_nonneg (B 0 p)
      have h1 := sq_nonneg (B 1 p)
      have h2 := sq_nonneg (B 2 p)
      have h3 : 0 < B i p ^ 2 := by positivity
      fin_cases i
      · have : 0 < B 0 p ^ 2 := h3
        linarith
      · have : 0 < B 1 p ^ 2 := h3
        linarith
      · have : 0 < B 2 p ^ 2 := h3
        linarith
    have hb : 0 < norm3 B p := Real.sqrt_pos.2 hpos
    have hbs : norm3 B p ^ 2 = B 0 p ^ 2 + B 1 p ^ 2 + B 2 p ^ 2 := Real.sq_sqrt hpos.le
    have hus : norm3 U p ^ 2 = U 0 p ^ 2 + U 1 p ^ 2 + U 2 p ^ 2 := Real.sq_sqrt (by positivity)
    have hu0 : 0 ≤ norm3 U p := Real.sqrt_nonneg _
    have hcs := cauchy3 (B 0 p) (B 1 p) (B 2 p) (U 0 p) (U 1 p) (U 2 p)
    rw [← hbs, ← hus] at hcs
    have hle : ((B 0 p * U 0 p + B 1 p * U 1 p + B 2 p * U 2 p) / norm3 B p) ^ 2 ≤ norm3 U p ^ 2 := by
      rw [div_pow, div_le_iff₀ (by positivity)]
      linarith
    have hnn : 0 ≤ norm3 U p ^ 2 - ((B 0 p * U 0 p + B 1 p * U 1 p + B 2 p * U 2 p) / norm3 B p) ^ 2 := by linarith
    refine ⟨div_mul_cancel₀ _ hb.ne', abs_le_of_sq_le_sq hle hu0, hnn, Real.sqrt_nonneg _, ?_⟩
    show _ + Real.sqrt (norm3 U p ^ 2 - ((B 0 p * U 0 p + B 1 p * U 1 p + B 2 p * U 2 p) / norm3 B p) ^ 2) ^ 2 = _
    rw [Real.sq_sqrt hnn]
    exact add_sub_cancel _ _

/-- **C53**, the angle.  If the whole grid is requested, the angle is computed, in radians and on the grid; wherever neither
the field nor the flow is zero, it lies between 0 and π, the limits -1 and 1 are not needed, and the length of the flow times
the cosine of the angle is the component along the field. -/
theorem c53_angle (order : List System) (ho : order ∈ orders) (s : System) (same inside : ν → ν → Bool)
    (hsame : ∀ x, same x x = true) (dims : List κ) (B U : Fin 3 → (κ → Nat) → ℝ) (b u : Fin 3 → Operand κ ν ℝ)
    (h : Flow G s dims B U b u) :
    ∃ an AN, angle order same inside (G.axes dims) (b 0) (b 1) (b 2) (u 0) (u 1) (u 2) = .ok an ∧
      OnGrid G dims [⟨1, c! "rad", 1⟩] AN an ∧
      ∀ p, 0 ≤ AN p ∧ AN p ≤ Real.pi ∧ ((∃ i, B i p ≠ 0) → (∃ i, U i p ≠ 0) →
        norm3 U p * norm3 B p * Real.cos (AN p) = B 0 p * U 0 p + B 1 p * U 1 p + B 2 p * U 2 p) := by
  obtain ⟨u1, u2, u3, u4, q1, q2, q3⟩ := flow_powers s (mem_bothSystems s)
  obtain ⟨v1, v2, v3⟩ := flow_products order ho s (mem_bothSystems s)
  have hme := merge_sublist (h.field 0).nodup (List.Sublist.refl dims)
  obtain ⟨bm, e1, g1⟩ := magnitude_grid (inside := inside) hsame (h.field 0) (h.field 1) (h.field 2) (pow_units u1) q1
    (pow_units u2)
  obtain ⟨um, e2, g2⟩ := magnitude_grid (inside := inside) hsame (h.flow 0) (h.flow 1) (h.flow 2) (pow_units u3) q2
    (pow_units u4)
  obtain ⟨ub, e3, g3⟩ := udotb_grid (inside := inside) hsame (h.field 0) (h.field 1) (h.field 2) (h.flow 0) (h.flow 1)
    (h.flow 2) (combine_mul v1) q3
  obtain ⟨m, e4, g4⟩ := mul_grid order true (fun x y => x * y) g1 g2 hme (combine_mul v1)
  obtain ⟨r, e5, g5⟩ := mul_grid order false (fun x y => x / y) g3 g4 hme (combine_div v3)
  obtain ⟨an, e6, g6⟩ := map_grid (w := [⟨1, c! "rad", 1⟩]) g5 (fun x => Real.arccos (clip x))
  refine ⟨an, _, ?_, g6, fun p => ⟨Real.arccos_nonneg _, Real.arccos_le_pi _, fun hB hU => ?_⟩⟩
  · obtain ⟨hn, c, rfl, hp, hd, hs, hax, hcu, hg⟩ := g5
    simp only [angle, times, over, e3, e1, e2, e4, e5, bind, Except.bind]
    unfold withNumber at e6
    simp only at e6
    rw [hax] at e6
    exact e6
  · have hpos : ∀ V : Fin 3 → (κ → Nat) → ℝ, (∃ i, V i p ≠ 0) → 0 < V 0 p ^ 2 + V 1 p ^ 2 + V 2 p ^ 2 := by
      rintro V ⟨i, hi⟩
      have h0 := sq_nonneg (V 0 p)
      have h1 := sq_nonneg (V 1 p)
      have h2 := sq_nonneg (V 2 p)
      have h3 : 0 < V i p ^ 2 := by positivity
      fin_cases i
      · have : 0 < V 0 p ^ 2 := h3
        linarith
      · have : 0 < V 1 p ^ 2 := h3
        linarith
      · have : 0 < V 2 p ^ 2 := h3
        linarith
    have hb : 0 < norm3 B p := Real.sqrt_pos.2 (hpos B hB)
    have hu : 0 < norm3 U p := Real.sqrt_pos.2 (hpos U hU)
    have hbs : norm3 B p ^ 2 = B 0 p ^ 2 + B 1 p ^ 2 + B 2 p ^ 2 := Real.sq_sqrt (hpos B hB).le
    have hus : norm3 U p ^ 2 = U 0 p ^ 2 + U 1 p ^ 2 + U 2 p ^ 2 := Real.sq_sqrt (hpos U hU).le
    have hcs := cauchy3 (B 0 p) (B 1 p) (B 2 p) (U 0 p) (U 1 p) (U 2 p)
    rw [← hbs, ← hus, ← mul_pow] at hcs
    have habs := abs_le.1 (abs_le_of_sq_le_sq hcs (by positivity))
    have hm : 0 < norm3 B p * norm3 U p := by positivity
    have h1 : -1 ≤ (B 0 p * U 0 p + B 1 p * U 1 p + B 2 p * U 2 p) / (norm3 B p * norm3 U p) := by
      rw [le_div_iff₀ hm]; linarith [habs.1]
    have h2 : (B 0 p * U 0 p + B 1 p * U 1 p + B 2 p * U 2 p) / (norm3 B p * norm3 U p) ≤ 1 := by
      rw [div_le_iff₀ hm]; linarith [habs.2]
    show norm3 U p * norm3 B p * Real.cos (Real.arccos (clip ((B 0 p * U 0 p + B 1 p * U 1 p + B 2 p * U 2 p) /
      (norm3 B p * norm3 U p)))) = _
    have hclip : clip ((B 0 p * U 0 p + B 1 p * U 1 p + B 2 p * U 2 p) / (norm3 B p * norm3 U p)) =
        (B 0 p * U 0 p + B 1 p * U 1 p + B 2 p * U 2 p) / (norm3 B p * norm3 U p) := by
      unfold clip
      rw [if_neg (not_lt.2 h1), if_neg (not_lt.2 h2)]
    rw [hclip, Real.cos_arccos h1 h2]
    field_simp

/-- a field and a flow that are nowhere zero -/
example : ∃ B U b u, Flow exampleGrid .cgs ["time", "shell"] B U b u ∧ ∀ p, (∃ i, B i p ≠ 0) ∧ (∃ i, U i p ≠ 0) := by
  obtain ⟨b, hb⟩ := onGrid_ofFn exampleGrid ["time", "shell"] (by decide) (unitOf .cgs (c! "magnetic field"))
    (fun l => ((l.sum : ℕ) : ℝ) + 1)
  obtain ⟨u, hu⟩ := onGrid_ofFn exampleGrid ["time", "shell"] (by decide) (unitOf .cgs (c! "velocity"))
    (fun l => ((l.sum : ℕ) : ℝ) + 2)
  exact ⟨_, _, fun _ => b, fun _ => u, ⟨fun _ => hb, fun _ => hu⟩, fun p => ⟨⟨0, by positivity⟩, ⟨0, by positivity⟩⟩⟩

end Eprem.Observable
