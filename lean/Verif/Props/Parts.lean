import Verif.Spec.Parts
import Verif.Props.Subscript

/-!
# Observing parts of derived quantities (C88)
-/

namespace Eprem.Observable

open Eprem Eprem.Symbolic Eprem.Metric Eprem.Numeric Eprem.Measured Eprem.Physical

variable {κ : Type} [DecidableEq κ]

/-- On every grid, `F` computes an array in the unit `w` whose number at each position is `φ` of the numbers of the arrays
there. -/
def Pointwise {n : Nat} (units : Fin n → List Term) (w : List Term)
    (F : (Fin n → Operand κ (AnyAxis ℝ) ℝ) → Except PErr (Operand κ (AnyAxis ℝ) ℝ)) (φ : (Fin n → ℝ) → ℝ) : Prop :=
  ∀ (G : Grid κ (AnyAxis ℝ)) (dims : List κ) (g : Fin n → (κ → Nat) → ℝ) (a : Fin n → Operand κ (AnyAxis ℝ) ℝ),
    (∀ i, OnGrid G dims (units i) (g i) (a i)) →
      ∃ r, F a = .ok r ∧ OnGrid G dims w (fun p => φ (fun i => g i p)) r

theorem pointwise_parts {n : Nat} {units : Fin n → List Term} {w : List Term}
    {F : (Fin n → Operand κ (AnyAxis ℝ) ℝ) → Except PErr (Operand κ (AnyAxis ℝ) ℝ)} {φ : (Fin n → ℝ) → ℝ}
    (hF : Pointwise units w F φ) {G : Grid κ (AnyAxis ℝ)} {dims : List κ} (g : Fin n → (κ → Nat) → ℝ)
    (a : Fin n → Arr κ (AnyAxis ℝ) ℝ) (ha : ∀ i, OnGrid G dims (units i) (g i) (.array (a i))) (hf : G.Fits dims)
    (h0 : dims ≠ []) (indices : κ → Option Arg) (ls : κ → List Nat)
    (ho : ∀ d ∈ dims, ObservedPositions (G.size d) (indices d) (ls d)) : ObservedInParts G dims indices ls F a := by
  obtain ⟨q, e1, e2⟩ := hF G dims g (fun i => .array (a i)) ha
  obtain ⟨q, rfl⟩ : ∃ z, q = .array z := by obtain ⟨_, c, hc, _⟩ := e2; exact ⟨c, hc⟩
  obtain ⟨k1, _⟩ := observed_supported indices ls ho
  obtain ⟨H, hH, hax⟩ := exists_part hf _ ls k1 (fun d hd => observed_ne (G.pos d) (ho d hd))
  obtain ⟨r, e3, _, e4⟩ := observed_grid e2 h0 indices ls ho hH hax
  have hx : ∀ i, ∃ x, subscriptObserved AnyAxis.getItem (a i) indices = .ok x ∧
      OnGrid H dims (units i) (fun pos => g i (whole ls pos)) x := fun i => by
    obtain ⟨x, e5, _, e6⟩ := observed_grid (ha i) h0 indices ls ho hH hax
    exact ⟨x, e5, e6⟩
  choose x hx1 hx2 using hx
  obtain ⟨s, e7, e8⟩ := hF H dims _ x hx2
  exact ⟨q, r, x, s, e1, e3, hx1, e7, H, w, _, hH, e4, e8⟩

section Quantities

variable (order : List System) (ho : order ∈ orders) (s : System) (same inside : AnyAxis ℝ → AnyAxis ℝ → Bool)
  (hsame : ∀ x, same x x = true)

/-- The units of a radius and two angles. -/
def sphericalUnits (s : System) : Fin 3 → List Term := fun i => if i = 0 then unitOf s (c! "length") else unitOf s (c! "plane angle")

include ho in
theorem x_pointwise : Pointwise (κ := κ) (sphericalUnits s) (unitOf s (c! "length")) (fun v => xCoord order (v 0) (v 1) (v 2))
    (fun y => y 0 * Real.sin (y 1) * Real.cos (y 2)) := by
  intro G dims g a h
  obtain ⟨x, y, z, X, Y, Z, h1, _, _, g1, _, _, hf⟩ := c52_coordinates order ho s dims (g 0) (g 1) (g 2) (a 0) (a 1) (a 2) (h 0) (h 1) (h 2)
  have : X = fun p => g 0 p * Real.sin (g 1 p) * Real.cos (g 2 p) := funext (fun p => (hf p).1)
  exact ⟨x, h1, this ▸ g1⟩

include ho in
theorem y_pointwise : Pointwise (κ := κ) (sphericalUnits s) (unitOf s (c! "length")) (fun v => yCoord order (v 0) (v 1) (v 2))
    (fun y => y 0 * Real.sin (y 1) * Real.sin (y 2)) := by
  intro G dims g a h
  obtain ⟨x, y, z, X, Y, Z, _, h1, _, _, g1, _, hf⟩ := c52_coordinates order ho s dims (g 0) (g 1) (g 2) (a 0) (a 1) (a 2) (h 0) (h 1) (h 2)
  have : Y = fun p => g 0 p * Real.sin (g 1 p) * Real.sin (g 2 p) := funext (fun p => (hf p).2.1)
  exact ⟨y, h1, this ▸ g1⟩

include ho in
theorem z_pointwise : Pointwise (κ := κ) (sphericalUnits s) (unitOf s (c! "length")) (fun v => zCoord order (v 0) (v 1))
    (fun y => y 0 * Real.cos (y 1)) := by
  intro G dims g a h
  obtain ⟨x, y, z, X, Y, Z, _, _, h1, _, _, g1, hf⟩ := c52_coordinates order ho s dims (g 0) (g 1) (g 2) (a 0) (a 1) (a 2) (h 0) (h 1) (h 2)
  have : Z = fun p => g 0 p * Real.cos (g 1 p) := funext (fun p => (hf p).2.2.1)
  exact ⟨z, h1, this ▸ g1⟩

/-- The units of the components of the field and of the flow. -/
def flowUnits (s : System) : Fin 6 → List Term :=
  fun i => if i.val < 3 then unitOf s (c! "magnetic field") else unitOf s (c! "velocity")

/-- The products of the components. -/
def dot6 (y : Fin 6 → ℝ) : ℝ := y 0 * y 3 + y 1 * y 4 + y 2 * y 5

noncomputable def bnorm (y : Fin 6 → ℝ) : ℝ := Real.sqrt (y 0 ^ 2 + y 1 ^ 2 + y 2 ^ 2)

noncomputable def unorm (y : Fin 6 → ℝ) : ℝ := Real.sqrt (y 3 ^ 2 + y 4 ^ 2 + y 5 ^ 2)

include hsame in
theorem bmag_pointwise : Pointwise (κ := κ) (flowUnits s) (unitOf s (c! "magnetic field"))
    (fun v => magnitude same inside (v 0) (v 1) (v 2)) bnorm := by
  intro G dims g a h
  obtain ⟨u1, u2, u3, u4, q1, q2, q3⟩ := flow_powers s (mem_bothSystems s)
  exact magnitude_grid (inside := inside) hsame (h 0) (h 1) (h 2) (pow_units u1) q1 (pow_units u2)

include hsame in
theorem umag_pointwise : Pointwise (κ := κ) (flowUnits s) (unitOf s (c! "velocity"))
    (fun v => magnitude same inside (v 3) (v 4) (v 5)) unorm := by
  intro G dims g a h
  obtain ⟨u1, u2, u3, u4, q1, q2, q3⟩ := flow_powers s (mem_bothSystems s)
  exact magnitude_grid (inside := inside) hsame (h 3) (h 4) (h 5) (pow_units u3) q2 (pow_units u4)

include ho hsame in
theorem udotb_pointwise : Pointwise (κ := κ) (flowUnits s) (fieldSpeed s)
    (fun v => udotb order same inside (v 0) (v 1) (v 2) (v 3) (v 4) (v 5)) dot6 := by
  intro G dims g a h
  obtain ⟨u1, u2, u3, u4, q1, q2, q3⟩ := flow_powers s (mem_bothSystems s)
  obtain ⟨v1, v2, v3⟩ := flow_products order ho s (mem_bothSystems s)
  exact udotb_grid (inside := inside) hsame (h 0) (h 1) (h 2) (h 3) (h 4) (h 5) (combine_mul v1) q3

include ho hsame in
theorem upara_pointwise : Pointwise (κ := κ) (flowUnits s) (unitOf s (c! "velocity"))
    (fun v => upara order same inside (v 0) (v 1) (v 2) (v 3) (v 4) (v 5)) (fun y => dot6 y / bnorm y) := by
  intro G dims g a h
  obtain ⟨v1, v2, v3⟩ := flow_products order ho s (mem_bothSystems s)
  obtain ⟨ub, e3, g3⟩ := udotb_pointwise order ho s same inside hsame G dims g a h
  obtain ⟨bm, e1, g1⟩ := bmag_pointwise s same inside hsame G dims g a h
  obtain ⟨pa, e4, g4⟩ := mul_grid order false (fun x y => x / y) g3 g1 (merge_sublist g3.nodup (List.Sublist.refl dims))
    (combine_div v2)
  dsimp only at e3 e1
  exact ⟨pa, by simp only [upara, over, e3, e1, e4, bind, Except.bind], g4⟩

include ho hsame in
theorem uperp_pointwise : Pointwise (κ := κ) (flowUnits s) (unitOf s (c! "velocity"))
    (fun v => uperp order same inside (v 0) (v 1) (v 2) (v 3) (v 4) (v 5))
    (fun y => Real.sqrt (unorm y ^ 2 - (dot6 y / bnorm y) ^ 2)) := by
  intro G dims g a h
  obtain ⟨u1, u2, u3, u4, q1, q2, q3⟩ := flow_powers s (mem_bothSystems s)
  obtain ⟨um, e2, g2⟩ := umag_pointwise s same inside hsame G dims g a h
  obtain ⟨pa, e4, g4⟩ := upara_pointwise order ho s same inside hsame G dims g a h
  obtain ⟨m2, e5, g5⟩ := raised_grid g2 2 (pow_units u3)
  obtain ⟨p2, e6, g6⟩ := raised_grid g4 2 (pow_units u3)
  obtain ⟨di, e7, g7⟩ := add_grid (inside := inside) hsame (fun x y => x - y) g5 g6 q2
  obtain ⟨pe, e8, g8⟩ := root_grid g7 (pow_units u4)
  dsimp only at e2 e4
  exact ⟨pe, by simp only [uperp, minus, e2, e4, e5, e6, e7, e8, bind, Except.bind], g8⟩

end Quantities

/-- **C88**, coordinates.  The coordinates `x`, `y` and `z` at some indices are the part of the coordinates everywhere. -/
theorem c88_coordinates (order : List System) (ho : order ∈ orders) (s : System) {G : Grid κ (AnyAxis ℝ)} {dims : List κ}
    (g : Fin 3 → (κ → Nat) → ℝ) (a : Fin 3 → Arr κ (AnyAxis ℝ) ℝ)
    (hr : OnGrid G dims (unitOf s (c! "length")) (g 0) (.array (a 0)))
    (ht : OnGrid G dims (unitOf s (c! "plane angle")) (g 1) (.array (a 1)))
    (hp : OnGrid G dims (unitOf s (c! "plane angle")) (g 2) (.array (a 2))) (hf : G.Fits dims) (h0 : dims ≠ [])
    (indices : κ → Option Arg) (ls : κ → List Nat) (hi : ∀ d ∈ dims, ObservedPositions (G.size d) (indices d) (ls d)) :
    ObservedInParts G dims indices ls (fun v => xCoord order (v 0) (v 1) (v 2)) a ∧
    ObservedInParts G dims indices ls (fun v => yCoord order (v 0) (v 1) (v 2)) a ∧
    ObservedInParts G dims indices ls (fun v => zCoord order (v 0) (v 1)) a := by
  have ha : ∀ i, OnGrid G dims (sphericalUnits s i) (g i) (.array (a i)) := by
    intro i
    fin_cases i
    · exact hr
    · exact ht
    · exact hp
  exact ⟨pointwise_parts (x_pointwise order ho s) g a ha hf h0 indices ls hi,
    pointwise_parts (y_pointwise order ho s) g a ha hf h0 indices ls hi,
    pointwise_parts (z_pointwise order ho s) g a ha hf h0 indices ls hi⟩

/-- **C88**, field and flow.  The magnitudes of the field and of the flow, their product, and the components of the flow along
and across the field at some indices are the part of these quantities everywhere. -/
theorem c88_flow (order : List System) (ho : order ∈ orders) (s : System) (same inside : AnyAxis ℝ → AnyAxis ℝ → Bool)
    (hsame : ∀ x, same x x = true) {G : Grid κ (AnyAxis ℝ)} {dims : List κ}
    (g : Fin 6 → (κ → Nat) → ℝ) (a : Fin 6 → Arr κ (AnyAxis ℝ) ℝ)
    (ha : ∀ i, OnGrid G dims (flowUnits s i) (g i) (.array (a i))) (hf : G.Fits dims) (h0 : dims ≠ [])
    (indices : κ → Option Arg) (ls : κ → List Nat) (hi : ∀ d ∈ dims, ObservedPositions (G.size d) (indices d) (ls d)) :
    ObservedInParts G dims indices ls (fun v => magnitude same inside (v 0) (v 1) (v 2)) a ∧
    ObservedInParts G dims indices ls (fun v => magnitude same inside (v 3) (v 4) (v 5)) a ∧
    ObservedInParts G dims indices ls (fun v => udotb order same inside (v 0) (v 1) (v 2) (v 3) (v 4) (v 5)) a ∧
    ObservedInParts G dims indices ls (fun v => upara order same inside (v 0) (v 1) (v 2) (v 3) (v 4) (v 5)) a ∧
    ObservedInParts G dims indices ls (fun v => uperp order same inside (v 0) (v 1) (v 2) (v 3) (v 4) (v 5)) a :=
  ⟨pointwise_parts (bmag_pointwise s same inside hsame) g a ha hf h0 indices ls hi,
    pointwise_parts (umag_pointwise s same inside hsame) g a ha hf h0 indices ls hi,
    pointwise_parts (udotb_pointwise order ho s same inside hsame) g a ha hf h0 indices ls hi,
    pointwise_parts (upara_pointwise order ho s same inside hsame) g a ha hf h0 indices ls hi,
    pointwise_parts (uperp_pointwise order ho s same inside hsame) g a ha hf h0 indices ls hi⟩

/-- **C88** does not hold for the angle between flow and field: for the parts of the components at some indices, the data are
those of the part, but the axes are those of the whole dataset. -/
theorem c88_not_angle (order : List System) (ho : order ∈ orders) (s : System) (same inside : AnyAxis ℝ → AnyAxis ℝ → Bool)
    (hsame : ∀ x, same x x = true) {G : Grid κ (AnyAxis ℝ)} {dims : List κ}
    (g : Fin 6 → (κ → Nat) → ℝ) (a : Fin 6 → Arr κ (AnyAxis ℝ) ℝ)
    (ha : ∀ i, OnGrid G dims (flowUnits s i) (g i) (.array (a i))) (hf : G.Fits dims) (h0 : dims ≠ [])
    (indices : κ → Option Arg) (ls : κ → List Nat) (hi : ∀ d ∈ dims, ObservedPositions (G.size d) (indices d) (ls d)) :
    ∃ (x : Fin 6 → Operand κ (AnyAxis ℝ) ℝ) (r : Arr κ (AnyAxis ℝ) ℝ),
      (∀ i, subscriptObserved AnyAxis.getItem (a i) indices = .ok (x i)) ∧
      angle order same inside (G.axes dims) (x 0) (x 1) (x 2) (x 3) (x 4) (x 5) = .ok (.array r) ∧
      r.arr.raw.data.shape = dims.map (fun d => (ls d).length) ∧ r.axes = G.axes dims := by
  obtain ⟨k1, _⟩ := observed_supported indices ls hi
  obtain ⟨H, hH, hax⟩ := exists_part hf _ ls k1 (fun d hd => observed_ne (G.pos d) (hi d hd))
  have hx : ∀ i, ∃ x, subscriptObserved AnyAxis.getItem (a i) indices = .ok x ∧
      OnGrid H dims (flowUnits s i) (fun pos => g i (whole ls pos)) x := fun i => by
    obtain ⟨x, e5, _, e6⟩ := observed_grid (ha i) h0 indices ls hi hH hax
    exact ⟨x, e5, e6⟩
  choose x hx1 hx2 using hx
  obtain ⟨v1, v2, v3⟩ := flow_products order ho s (mem_bothSystems s)
  obtain ⟨bm, e1, g1⟩ := bmag_pointwise s same inside hsame H dims _ x hx2
  obtain ⟨um, e2, g2⟩ := umag_pointwise s same inside hsame H dims _ x hx2
  obtain ⟨ub, e3, g3⟩ := udotb_pointwise order ho s same inside hsame H dims _ x hx2
  have hme := merge_sublist g1.nodup (List.Sublist.refl dims)
  obtain ⟨m, e4, g4⟩ := mul_grid order true (fun x y => x * y) g1 g2 hme (combine_mul v1)
  obtain ⟨q, e5, g5⟩ := mul_grid order false (fun x y => x / y) g3 g4 hme (combine_div v3)
  obtain ⟨hn, c, rfl, hp, hd, hs, hcx, hcu, hg⟩ := g5
  have hsz : dims.map H.size = dims.map (fun d => (ls d).length) := List.map_congr_left (fun d hd => hH.size d hd)
  refine ⟨x, ⟨PArr.new ⟨c.arr.data.data.map (fun x => Real.arccos (clip x)), dims, false⟩ [⟨1, c! "rad", 1⟩], G.axes dims⟩,
    hx1, ?_, hs.trans hsz, rfl⟩
  dsimp only at e1 e2 e3
  simp only [angle, times, over, e3, e1, e2, e4, e5, bind, Except.bind]
  unfold newArray arrayFactory
  rw [keys_axes, dimensions_nodup hn, if_pos]
  show _ = c.arr.raw.data.shape.length
  rw [hs, List.length_map]

/-- the hypotheses, for the times `2` and `0` of three, in reverse order, and all shells -/
example : ∃ a : Fin 6 → Arr String (AnyAxis ℝ) ℝ,
    (∀ i, OnGrid sampleGrid ["time", "shell"] (flowUnits .mks i) (fun p => ((["time", "shell"].map p).sum : ℝ)) (.array (a i))) ∧
    sampleGrid.Fits ["time", "shell"] ∧ (∀ d ∈ ["time", "shell"], ObservedPositions (sampleGrid.size d)
      (if d = "time" then some (.seq .other [-1, 0]) else none) (if d = "time" then [2, 0] else [0, 1, 2, 3])) := by
  have h := fun i => sample_array (flowUnits .mks i)
  choose a ha using h
  refine ⟨a, ha, sample_fits, fun d hd => ?_⟩
  fin_cases hd
  · exact .cons (by decide) (.cons (by decide) .nil)
  · rfl

/-- the same for a radius and two angles -/
example : ∃ a : Fin 3 → Arr String (AnyAxis ℝ) ℝ, ∀ i, OnGrid sampleGrid ["time", "shell"] (sphericalUnits .mks i)
    (fun p => ((["time", "shell"].map p).sum : ℝ)) (.array (a i)) := by
  have h := fun i => sample_array (sphericalUnits .mks i)
  choose a ha using h
  exact ⟨a, ha⟩

end Eprem.Observable
