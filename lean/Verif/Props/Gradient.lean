import Verif.Lemmas.Gradient
import Verif.Lemmas.NumericIndex
import Verif.Props.Observable

/-!
# Gradients (C89) and the divergence of the flow (C90)
-/

namespace Eprem.Observable

open Eprem Eprem.Symbolic Eprem.Metric Eprem.Numeric Eprem.Measured Eprem.Physical

variable {κ ν : Type} [DecidableEq κ] {G : Grid κ ν}

/-! ## C89: gradients -/

/-- The coordinates and the unit that `numpy.gradient` takes from its second argument. -/
theorem spacing_ok {d : κ} {v : List Term} {t : Nat → ℝ} {a : Operand κ ν ℝ} (h : CoordinatesAlong G d v t a) :
    (spacingOf a).2 = v ∧ ∃ t', coordinatesOf (G.size d) (spacingOf a).1 = .ok t' ∧ ∀ i < G.size d, t' i = t i := by
  cases h with
  | array h =>
    obtain ⟨hn, c, rfl, hp, hd, hs, hax, hcu, hg⟩ := h
    have hs' : c.arr.data.data.shape = [G.size d] := hs
    refine ⟨hcu, fun i => c.arr.data.data.get [i], ?_, fun i hi => ?_⟩
    · simp [spacingOf, coordinatesOf, hs']
    · have := hg (fun _ => i) (fun e he => by rw [List.mem_singleton] at he; subst he; exact hi)
      rw [data_at hd] at this
      exact this
  | vector o h hu hs ht =>
    subst h
    refine ⟨hu, fun i => o.data.get [i], ?_, ht⟩
    simp [spacingOf, coordinatesOf, hs]
  | distance x h ht =>
    obtain ⟨o, rfl, hs, hx, hu⟩ := h
    refine ⟨hu, fun i => i * x, ?_, fun i _ => (ht i).symm⟩
    simp [spacingOf, coordinatesOf, hx]
  | number x h hu ht =>
    subst h
    exact ⟨hu.symm, fun i => i * x, rfl, fun i _ => (ht i).symm⟩

/-- The gradient of an array on the grid, given its unit. -/
theorem gradient_grid (order : List System) {dims : List κ} {u v w : List Term} {g : (κ → Nat) → ℝ} {x : Arr κ ν ℝ}
    (h : OnGrid G dims u g (.array x)) {k : Nat} {d : κ} (hk : dims[k]? = some d) {axis : ℤ}
    (ha : axis = k ∨ axis = k - dims.length) {t : Nat → ℝ} {a : Operand κ ν ℝ} (hc : CoordinatesAlong G d v t a)
    (hu : unitDiv order u v = .ok w) (h2 : 2 ≤ G.size d) :
    ∃ r, gradient order x (some a) axis = .ok r ∧
      OnGrid G dims w (fun p => gradientAt (G.size d) t (fun i => g (Function.update p d i)) (p d)) r := by
  obtain ⟨e1, t', e2, e3⟩ := spacing_ok hc
  obtain ⟨hlt, _⟩ := List.getElem?_eq_some_iff.1 hk
  obtain ⟨r, h1, h3⟩ := applyGradient_grid (w := w) h hk (axis := axis)
    (axisIndex_ok.2 ⟨hlt, by omega⟩) e2 e3 h2
  refine ⟨r, ?_, h3⟩
  have hxu : x.arr.unit = u := by
    obtain ⟨_, c, hc, _, _, _, _, hcu, _⟩ := h
    cases hc
    exact hcu
  simp only [gradient, hxu, e1, combine_div hu]
  exact h1

/-- **C89**, partial.  The gradient of an array along one of its dimensions with at least two coordinates, with respect to
increasing coordinates in some unit, is an array with the same dimensions and axes; its unit is the quotient of the units;
along each line of the array in this dimension its elements are the slopes of the elements of the array.  It lies between any
bounds of the slopes of the array in the intervals between the coordinates.

What is missing: coordinates that are given as a measurement (`c89_not_measurement`). -/
theorem c89_gradient_partial (order : List System) (dims : List κ) (u v w : List Term) (g : (κ → Nat) → ℝ) (x : Arr κ ν ℝ)
    (h : OnGrid G dims u g (.array x)) (k : Nat) (d : κ) (hk : dims[k]? = some d) (axis : ℤ)
    (ha : axis = k ∨ axis = k - dims.length) (t : Nat → ℝ) (a : Operand κ ν ℝ) (hc : CoordinatesAlong G d v t a)
    (hu : unitDiv order u v = .ok w) (h2 : 2 ≤ G.size d) (ht : Increasing (G.size d) t) :
    ∃ r R, gradient order x (some a) axis = .ok r ∧ OnGrid G dims w R r ∧ ∀ p,
      Slopes (G.size d) t (fun i => g (Function.update p d i)) (fun i => R (Function.update p d i)) ∧
      ∀ m M : ℝ, (∀ i, i + 1 < G.size d →
          m * (t (i + 1) - t i) ≤ g (Function.update p d (i + 1)) - g (Function.update p d i) ∧
          g (Function.update p d (i + 1)) - g (Function.update p d i) ≤ M * (t (i + 1) - t i)) →
        ∀ i < G.size d, m ≤ R (Function.update p d i) ∧ R (Function.update p d i) ≤ M := by
  obtain ⟨r, h1, h3⟩ := gradient_grid order h hk ha hc hu h2
  refine ⟨r, _, h1, h3, fun p => ⟨?_, fun m M hm i hi => ⟨?_, ?_⟩⟩⟩
  · simp only [Function.update_self, Function.update_idem]
    exact gradientAt_slopes h2 ht
  · simp only [Function.update_self, Function.update_idem]
    exact gradientAt_ge h2 ht (fun i hi => (hm i hi).1) hi
  · simp only [Function.update_self, Function.update_idem]
    have := gradientAt_ge (f := fun i => - g (Function.update p d i)) (m := -M) h2 ht
      (fun i hi => by have := (hm i hi).2; linarith) hi
    rw [gradientAt_neg] at this
    linarith

/-- an array of lengths over three times and two shells, with respect to the times -/
example : ∃ (g : (String → Nat) → ℝ) (x : Arr String Nat ℝ) (t : Nat → ℝ) (a : Operand String Nat ℝ),
    OnGrid exampleGrid ["time", "shell"] (unitOf .mks (c! "length")) g (.array x) ∧
    CoordinatesAlong exampleGrid "time" (unitOf .mks (c! "time")) t a ∧
    unitDiv [.mks, .cgs] (unitOf .mks (c! "length")) (unitOf .mks (c! "time")) = .ok (unitOf .mks (c! "velocity")) ∧
    2 ≤ exampleGrid.size "time" ∧ Increasing (exampleGrid.size "time") t := by
  obtain ⟨x, hx⟩ := onGrid_ofFn exampleGrid ["time", "shell"] (by decide) (unitOf .mks (c! "length"))
    (fun l => ((l.sum : ℕ) : ℝ))
  obtain ⟨a, ha⟩ := onGrid_ofFn exampleGrid ["time"] (by decide) (unitOf .mks (c! "time")) (fun l => ((l.sum : ℕ) : ℝ))
  obtain ⟨_, c, rfl, _⟩ := id hx
  exact ⟨_, c, fun n => (([n].sum : ℕ) : ℝ), a, hx, .array ha, by decide +kernel, by decide, fun i j hij _ => by
    simpa using hij⟩

theorem parabola_exists {x y z X Y Z : ℝ} (h1 : x < y) (h2 : y < z) :
    ∃ a b c : ℝ, a + b * x + c * x ^ 2 = X ∧ a + b * y + c * y ^ 2 = Y ∧ a + b * z + c * z ^ 2 = Z := by
  have e1 : y - x ≠ 0 := by linarith
  have e2 : z - y ≠ 0 := by linarith
  have e3 : z - x ≠ 0 := by linarith
  refine ⟨X - (Y - X) / (y - x) * x + ((Z - Y) / (z - y) - (Y - X) / (y - x)) / (z - x) * x * y,
    (Y - X) / (y - x) - ((Z - Y) / (z - y) - (Y - X) / (y - x)) / (z - x) * (x + y),
    ((Z - Y) / (z - y) - (Y - X) / (y - x)) / (z - x), by ring, ?_, ?_⟩
  · field_simp
    ring
  · field_simp
    ring

/-- **C89**, the slopes are well defined: increasing coordinates have lines and parabolas through the values, so no two
families of numbers are the slopes. -/
theorem c89_unique (n : Nat) (t f r r' : Nat → ℝ) (h2 : 2 ≤ n) (ht : Increasing n t) (h : Slopes n t f r)
    (h' : Slopes n t f r') : ∀ i < n, r i = r' i := by
  have key : ∀ s, Slopes n t f s → ∀ i < n, s i = gradientAt n t f i := by
    intro s hs i hi
    have line : ∀ i j, t i < t j →
        (f i - (f j - f i) / (t j - t i) * t i) + (f j - f i) / (t j - t i) * t i = f i ∧
        (f i - (f j - f i) / (t j - t i) * t i) + (f j - f i) / (t j - t i) * t j = f j := by
      intro i j hij
      have : t j - t i ≠ 0 := by linarith
      refine ⟨by ring, ?_⟩
      field_simp
      ring
    rcases Nat.eq_zero_or_pos i with rfl | h0
    · obtain ⟨l1, l2⟩ := line 0 1 (ht 0 1 (by omega) (by omega))
      rw [hs.first _ _ l1 l2]
      exact ((gradientAt_slopes h2 ht).first _ _ l1 l2).symm
    · by_cases h1 : i + 1 = n
      · obtain ⟨l1, l2⟩ := line (n - 2) (n - 1) (ht _ _ (by omega) (by omega))
        rw [show i = n - 1 by omega, hs.last _ _ l1 l2]
        exact ((gradientAt_slopes h2 ht).last _ _ l1 l2).symm
      · have hd1 := ht (i - 1) i (by omega) (by omega)
        have hd2 := ht i (i + 1) (by omega) (by omega)
        obtain ⟨a, b, c, hq⟩ : ∃ a b c : ℝ, ∀ j ∈ [i - 1, i, i + 1], a + b * t j + c * t j ^ 2 = f j := by
          obtain ⟨a, b, c, q1, q2, q3⟩ := parabola_exists (X := f (i - 1)) (Y := f i) (Z := f (i + 1)) hd1 hd2
          refine ⟨a, b, c, fun j hj => ?_⟩
          simp only [List.mem_cons, List.not_mem_nil, or_false] at hj
          rcases hj with rfl | rfl | rfl
          · exact q1
          · exact q2
          · exact q3
        rw [hs.inner i h0 (by omega) a b c hq]
        exact ((gradientAt_slopes h2 ht).inner i h0 (by omega) a b c hq).symm
  intro i hi
  rw [key r h i hi, key r' h' i hi]

/-- **C89**, without coordinates: they are the positions along the dimension, and the unit is that of the array. -/
theorem c89_default (order : List System) (dims : List κ) (u : List Term) (g : (κ → Nat) → ℝ) (x : Arr κ ν ℝ)
    (h : OnGrid G dims u g (.array x)) (k : Nat) (d : κ) (hk : dims[k]? = some d) (axis : ℤ)
    (ha : axis = k ∨ axis = k - dims.length) (h2 : 2 ≤ G.size d) :
    ∃ r R, gradient order x none axis = .ok r ∧ OnGrid G dims u R r ∧ ∀ p,
      Slopes (G.size d) (fun i => i) (fun i => g (Function.update p d i)) (fun i => R (Function.update p d i)) := by
  obtain ⟨hlt, _⟩ := List.getElem?_eq_some_iff.1 hk
  obtain ⟨r, h1, h3⟩ := applyGradient_grid (w := u) h hk (axis := axis) (sp := .uniform 1) (t := fun i => i)
    (t' := fun i => i * 1) (axisIndex_ok.2 ⟨hlt, by omega⟩) rfl (fun i _ => by ring) h2
  refine ⟨r, _, ?_, h3, fun p => ?_⟩
  · have hxu : x.arr.unit = u := by
      obtain ⟨_, c, hc, _, _, _, _, hcu, _⟩ := h
      cases hc
      exact hcu
    rw [← hxu] at h1
    exact h1
  · simp only [Function.update_self, Function.update_idem]
    exact gradientAt_slopes h2 (fun i j hij _ => by exact_mod_cast hij)

/-- the third of three numbers is on the line through the others, or not: both ends differ from the middle -/
example : Slopes 3 (fun i => i) (fun i => ((i ^ 2 : ℕ) : ℝ)) (fun i => if i = 0 then 1 else if i = 1 then 2 else 3) := by
  refine ⟨fun a b h h' => ?_, fun a b h h' => ?_, fun i h0 h1 a b c h => ?_⟩
  · norm_num at h h' ⊢; linarith
  · norm_num at h h' ⊢; linarith
  · obtain rfl : i = 1 := by omega
    have q0 := h 0 (by simp)
    have q1 := h 1 (by simp)
    have q2 := h 2 (by simp)
    norm_num at q0 q1 q2 ⊢
    linarith

/-- **C89**, a dimension with one coordinate has no gradient: a `ValueError`. -/
theorem c89_short (order : List System) (dims : List κ) (u v w : List Term) (g : (κ → Nat) → ℝ) (x : Arr κ ν ℝ)
    (h : OnGrid G dims u g (.array x)) (k : Nat) (d : κ) (hk : dims[k]? = some d) (axis : ℤ)
    (ha : axis = k ∨ axis = k - dims.length) (t : Nat → ℝ) (a : Operand κ ν ℝ) (hc : CoordinatesAlong G d v t a)
    (hu : unitDiv order u v = .ok w) (h1 : G.size d = 1) : gradient order x (some a) axis = .error (.look .value) := by
  obtain ⟨e1, t', e2, e3⟩ := spacing_ok hc
  obtain ⟨hlt, _⟩ := List.getElem?_eq_some_iff.1 hk
  obtain ⟨_, c, h', _, hd, hs, _, hcu, _⟩ := h
  cases h'
  have hs' : x.arr.data.data.shape = dims.map G.size := hs
  have hsz : x.arr.data.data.shape.getD k 0 = G.size d := by
    rw [hs', List.getD_eq_getElem?_getD, List.getElem?_map, hk]; rfl
  have hnd : x.arr.data.data.ndim = dims.length := by rw [ND.ndim, hs', List.length_map]
  have hax : axisIndex dims.length axis = .ok k := axisIndex_ok.2 ⟨hlt, by omega⟩
  simp only [gradient, hcu, e1, combine_div hu, applyGradient, npGradient, hnd, hax, hsz, e2]
  rw [if_pos (by omega)]

/-- one shell: a stream of one shell has no gradient along it -/
example : ∃ (G : Grid String Nat) (g : (String → Nat) → ℝ) (x : Arr String Nat ℝ) (a : Operand String Nat ℝ),
    OnGrid G ["time", "shell"] (unitOf .mks (c! "length")) g (.array x) ∧
    CoordinatesAlong G "shell" unitless (fun i => i * 2) a ∧ G.size "shell" = 1 ∧
    unitDiv [.mks, .cgs] (unitOf .mks (c! "length")) unitless = .ok (unitOf .mks (c! "length")) := by
  obtain ⟨x, hx⟩ := onGrid_ofFn ⟨fun d => if d = "time" then 3 else 1, fun d => d.length, fun d => by
    by_cases h : d = "time" <;> simp [h]⟩ ["time", "shell"] (by decide) (unitOf .mks (c! "length"))
    (fun l => ((l.sum : ℕ) : ℝ))
  obtain ⟨_, c, rfl, _⟩ := id hx
  exact ⟨_, _, c, .number 2, hx, .number 2 rfl rfl (fun i => rfl), rfl, by decide +kernel⟩

set_option maxHeartbeats 100000000 in
theorem length_units : ∀ o ∈ orders, ∀ s ∈ bothSystems,
    unitDiv o (unitOf s (c! "length")) unitless = .ok (unitOf s (c! "length")) ∧
    exprEq (unitOf s (c! "length")) (unitOf s (c! "velocity")) = false := by decide +kernel

/-- **C89** fails for coordinates that are a measurement: their unit is ignored.  The gradient of a length with respect to a
measurement of times is said to be a length, in each metric system. -/
theorem c89_not_measurement : ∀ o ∈ orders, ∀ s ∈ bothSystems,
    ∃ (x : Arr String Nat ℝ) (c : Obj ℝ) (r : Operand String Nat ℝ), x.arr.unit = unitOf s (c! "length") ∧
      c.unit = unitOf s (c! "time") ∧ gradient o x (some (.object .measurement c)) 0 = .ok r ∧
      r.unit = unitOf s (c! "length") ∧ exprEq (unitOf s (c! "length")) (unitOf s (c! "velocity")) = false := by
  intro o ho s hs
  obtain ⟨x, hx⟩ := onGrid_ofFn exampleGrid ["time", "shell"] (by decide) (unitOf s (c! "length"))
    (fun l => ((l.sum : ℕ) : ℝ))
  obtain ⟨_, c, rfl, _, _, _, _, hcu, _⟩ := id hx
  obtain ⟨r, h1, h2⟩ := applyGradient_grid (w := unitOf s (c! "length")) hx (k := 0) (d := "time") rfl (axis := 0)
    (axisIndex_ok.2 ⟨by decide, .inl rfl⟩) (sp := .along ⟨[3], fun i => (i : ℝ)⟩) (t := fun i => (⟨[3], fun i => (i : ℝ)⟩ : ND ℝ).get [i])
    (t' := fun i => (⟨[3], fun i => (i : ℝ)⟩ : ND ℝ).get [i]) rfl (fun i _ => rfl) (by decide)
  have hl : unitDiv o (unitOf s (c! "length")) unitless = .ok (unitOf s (c! "length")) :=
    (length_units o ho s hs).1
  refine ⟨c, ⟨⟨[3], fun i => (i : ℝ)⟩, unitOf s (c! "time")⟩, r, hcu, rfl, ?_, ?_, ?_⟩
  · simp only [gradient, hcu, spacingOf, combine_div hl]
    exact h1
  · obtain ⟨_, c', rfl, _, _, _, _, hcu', _⟩ := h2
    exact hcu'
  · exact (length_units o ho s hs).2

/-! ## C90: the divergence of the flow -/

/-- The units of number density, of its rate of change, and of rates. -/
def densityUnit : System → List Term
  | .mks => [⟨1, c! "m", -3⟩]
  | .cgs => [⟨1, c! "cm", -3⟩]

def densityRate : System → List Term
  | .mks => [⟨1, c! "s", -1⟩, ⟨1, c! "m", -3⟩]
  | .cgs => [⟨1, c! "s", -1⟩, ⟨1, c! "cm", -3⟩]

def rateUnit : List Term := [⟨1, c! "s", -1⟩]

set_option maxHeartbeats 100000000 in
/-- The units of the package are these. -/
theorem density_units : ∀ o ∈ orders, ∀ s ∈ bothSystems,
    ((unitsOf s (c! "number density")).toOption.bind (fun n => (freshUnit n).toOption)) = some (densityUnit s) ∧
    unitDiv o (densityUnit s) (unitOf s (c! "time")) = .ok (densityRate s) ∧
    unitDiv o (densityRate s) (densityUnit s) = .ok rateUnit := by decide +kernel

/-- The array that is computed, with the formula of `numpy.gradient`. -/
theorem divu_grid (order : List System) (ho : order ∈ orders) (s : System) {time : κ} {rest : List κ}
    {ρ : (κ → Nat) → ℝ} {T : Nat → ℝ} {rho t : Operand κ ν ℝ} (hr : OnGrid G (time :: rest) (densityUnit s) ρ rho)
    (ht : OnGrid G [time] (unitOf s (c! "time")) (fun p => T (p time)) t) (h2 : 2 ≤ G.size time) :
    ∃ r, divu order rho t = .ok r ∧ OnGrid G (time :: rest) rateUnit
      (fun p => -1 * gradientAt (G.size time) T (fun i => ρ (Function.update p time i)) (p time) / ρ p) r := by
  obtain ⟨_, v1, v2⟩ := density_units order ho s (mem_bothSystems s)
  obtain ⟨_, x, rfl, _⟩ := id hr
  obtain ⟨g, e1, g1⟩ := gradient_grid order hr (k := 0) (d := time) rfl (axis := 0) (.inl rfl) (.array ht) v1 h2
  obtain ⟨m, e2, g2⟩ := map_grid (w := densityRate s) g1 (fun y => -1 * y)
  obtain ⟨r, e3, g3⟩ := mul_grid order false (fun x y => x / y) g2 hr (merge_sublist hr.nodup (List.Sublist.refl _))
    (combine_div v2)
  refine ⟨r, ?_, g3⟩
  have e2' : times order (.number (-1)) g = .ok m := by
    obtain ⟨_, c, rfl, _, _, _, _, hcu, _⟩ := g1
    rw [← e2, ← hcu]
    rfl
  simp only [divu, e1, e2', bind, Except.bind]
  exact e3

/-- **C90**.  From the densities at all times and the times, which increase, the divergence of the flow is computed, on the
grid of the densities, in the unit of a rate: it is the negative slope of the densities in time, divided by the density.  It
is zero where the density does not change in time, not positive where it never decreases, and not negative where it never
increases. -/
theorem c90_divu (order : List System) (ho : order ∈ orders) (s : System) (time : κ) (rest : List κ) (ρ : (κ → Nat) → ℝ)
    (T : Nat → ℝ) (rho t : Operand κ ν ℝ) (hr : OnGrid G (time :: rest) (densityUnit s) ρ rho)
    (ht : OnGrid G [time] (unitOf s (c! "time")) (fun p => T (p time)) t) (h2 : 2 ≤ G.size time)
    (hT : Increasing (G.size time) T) :
    ∃ (r : Operand κ ν ℝ) (R D : (κ → Nat) → ℝ), divu order rho t = .ok r ∧ OnGrid G (time :: rest) rateUnit R r ∧ ∀ p,
      Slopes (G.size time) T (fun k => ρ (Function.update p time k)) (fun k => D (Function.update p time k)) ∧
      (ρ p ≠ 0 → R p * ρ p = - D p) ∧
      ((∀ k < G.size time, 0 < ρ (Function.update p time k)) → ∀ k < G.size time,
        ((∀ i, i + 1 < G.size time → ρ (Function.update p time (i + 1)) = ρ (Function.update p time i)) →
          R (Function.update p time k) = 0) ∧
        ((∀ i, i + 1 < G.size time → ρ (Function.update p time i) ≤ ρ (Function.update p time (i + 1))) →
          R (Function.update p time k) ≤ 0) ∧
        ((∀ i, i + 1 < G.size time → ρ (Function.update p time (i + 1)) ≤ ρ (Function.update p time i)) →
          0 ≤ R (Function.update p time k))) := by
  obtain ⟨r, e1, g1⟩ := divu_grid order ho s hr ht h2
  refine ⟨r, _, fun p => gradientAt (G.size time) T (fun i => ρ (Function.update p time i)) (p time), e1, g1,
    fun p => ⟨?_, fun h => ?_, fun hpos k hk => ?_⟩⟩
  · simp only [Function.update_self, Function.update_idem]
    exact gradientAt_slopes h2 hT
  · show -1 * _ / _ * _ = _
    rw [div_mul_cancel₀ _ h]; ring
  · simp only [Function.update_self, Function.update_idem]
    have lo : (∀ i, i + 1 < G.size time → ρ (Function.update p time i) ≤ ρ (Function.update p time (i + 1))) →
        -1 * gradientAt (G.size time) T (fun i => ρ (Function.update p time i)) k / ρ (Function.update p time k) ≤ 0 := by
      intro h
      have := gradientAt_ge (m := 0) (f := fun i => ρ (Function.update p time i)) h2 hT
        (fun i hi => by have := h i hi; simpa using this) hk
      exact div_nonpos_of_nonpos_of_nonneg (by linarith) (hpos k hk).le
    have hi : (∀ i, i + 1 < G.size time → ρ (Function.update p time (i + 1)) ≤ ρ (Function.update p time i)) →
        0 ≤ -1 * gradientAt (G.size time) T (fun i => ρ (Function.update p time i)) k / ρ (Function.update p time k) := by
      intro h
      have := gradientAt_ge (m := 0) (f := fun i => - ρ (Function.update p time i)) h2 hT
        (fun i hi => by have := h i hi; simpa using this) hk
      rw [gradientAt_neg] at this
      exact div_nonneg (by linarith) (hpos k hk).le
    exact ⟨fun h => le_antisymm (lo (fun i hi' => (h i hi').ge)) (hi (fun i hi' => (h i hi').le)), lo, hi⟩

/-- densities of three times and two shells, in an expanding flow -/
example : ∃ ρ T rho t, OnGrid exampleGrid ["time", "shell"] (densityUnit .mks) ρ rho ∧
    OnGrid exampleGrid ["time"] (unitOf .mks (c! "time")) (fun p => T (p "time")) t ∧
    2 ≤ exampleGrid.size "time" ∧ Increasing (exampleGrid.size "time") T ∧ (∀ p, 0 < ρ p) := by
  obtain ⟨f, hf⟩ := onGrid_ofFn exampleGrid ["time", "shell"] (by decide) (densityUnit .mks)
    (fun l => 1 / (((l.sum : ℕ) : ℝ) + 1))
  obtain ⟨t, ht⟩ := onGrid_ofFn exampleGrid ["time"] (by decide) (unitOf .mks (c! "time")) (fun l => ((l.sum : ℕ) : ℝ) ^ 2)
  exact ⟨_, fun n => (([n].sum : ℕ) : ℝ) ^ 2, f, t, hf, ht, by decide, fun i j hij _ => by
    have : (i : ℝ) < j := by exact_mod_cast hij
    have h0 : (0 : ℝ) ≤ i := by positivity
    simp only [List.sum_cons, List.sum_nil, add_zero]
    nlinarith, fun p => by positivity⟩

/-- **C90**, the divergence does not depend on the unit of the density, nor on any factor that is constant in time. -/
theorem c90_scale (order : List System) (ho : order ∈ orders) (s : System) (time : κ) (rest : List κ)
    (ρ c : (κ → Nat) → ℝ) (T : Nat → ℝ) (rho rho' t : Operand κ ν ℝ) (hr : OnGrid G (time :: rest) (densityUnit s) ρ rho)
    (hr' : OnGrid G (time :: rest) (densityUnit s) (fun p => c p * ρ p) rho')
    (ht : OnGrid G [time] (unitOf s (c! "time")) (fun p => T (p time)) t) (h2 : 2 ≤ G.size time)
    (hc : ∀ p, c p ≠ 0 ∧ ∀ k, c (Function.update p time k) = c p) :
    ∃ r r' R, divu order rho t = .ok r ∧ divu order rho' t = .ok r' ∧ OnGrid G (time :: rest) rateUnit R r ∧
      OnGrid G (time :: rest) rateUnit R r' := by
  obtain ⟨r, e1, g1⟩ := divu_grid order ho s hr ht h2
  obtain ⟨r', e2, g2⟩ := divu_grid order ho s hr' ht h2
  refine ⟨r, r', _, e1, e2, g1, ?_⟩
  convert g2 using 2 with p
  simp only [(hc p).2]
  rw [gradientAt_smul, mul_left_comm, mul_div_mul_left _ _ (hc p).1]

/-- a factor that differs between the shells -/
example : ∃ (ρ c : (String → Nat) → ℝ) (rho rho' : Operand String Nat ℝ), OnGrid exampleGrid ["time", "shell"] (densityUnit .mks) ρ rho ∧
    OnGrid exampleGrid ["time", "shell"] (densityUnit .mks) (fun p => c p * ρ p) rho' ∧
    (∀ p, c p ≠ 0 ∧ ∀ k, c (Function.update p "time" k) = c p) := by
  obtain ⟨f, hf⟩ := onGrid_ofFn exampleGrid ["time", "shell"] (by decide) (densityUnit .mks)
    (fun l => 1 / (((l.sum : ℕ) : ℝ) + 1))
  obtain ⟨f', hf'⟩ := onGrid_ofFn exampleGrid ["time", "shell"] (by decide) (densityUnit .mks)
    (fun l => ((l.getD 1 0 : ℕ) + 1 : ℝ) * (1 / (((l.sum : ℕ) : ℝ) + 1)))
  refine ⟨_, fun p => ((p "shell" : ℕ) + 1 : ℝ), f, f', hf, hf', fun p => ⟨by positivity, fun k => ?_⟩⟩
  simp [Function.update]

end Eprem.Observable
