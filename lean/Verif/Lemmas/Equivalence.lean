import Verif.Model.Equivalence
import Verif.Props.MetricDimension
import Verif.Props.MetricSystem
import Verif.Props.Collections

/-!
# The dimensions of the listed quantities
-/

namespace Eprem.Metric

open Eprem Eprem.Symbolic

/-- the quantities whose unit can be made in both systems, with twice the exponents of the base dimensions of their units in mks
and in cgs -/
def doubled : List (Name × List ℤ × List ℤ) := [
  (c! "acceleration", [0, 2, -4, 0, 0, 0, 0], [0, 2, -4, 0, 0, 0, 0]),
  (c! "amount", [0, 0, 0, 0, 0, 2, 0], [0, 0, 0, 0, 0, 2, 0]),
  (c! "area", [0, 4, 0, 0, 0, 0, 0], [0, 4, 0, 0, 0, 0, 0]),
  (c! "capacitance", [-2, -4, 8, 4, 0, 0, 0], [0, 2, 0, 0, 0, 0, 0]),
  (c! "charge", [0, 0, 2, 2, 0, 0, 0], [1, 3, -2, 0, 0, 0, 0]),
  (c! "charge density", [0, -6, 2, 2, 0, 0, 0], [1, -3, -2, 0, 0, 0, 0]),
  (c! "conductance", [-2, -4, 6, 4, 0, 0, 0], [0, 2, -2, 0, 0, 0, 0]),
  (c! "conductivity", [-2, -6, 6, 4, 0, 0, 0], [0, 0, -2, 0, 0, 0, 0]),
  (c! "current", [0, 0, 0, 2, 0, 0, 0], [1, 3, -4, 0, 0, 0, 0]),
  (c! "current density", [0, -4, 0, 2, 0, 0, 0], [1, -1, -4, 0, 0, 0, 0]),
  (c! "displacement", [0, -4, 2, 2, 0, 0, 0], [1, -1, -2, 0, 0, 0, 0]),
  (c! "dosage", [0, 4, -4, 0, 0, 0, 0], [0, 4, -4, 0, 0, 0, 0]),
  (c! "electric charge", [0, 0, 2, 2, 0, 0, 0], [1, 3, -2, 0, 0, 0, 0]),
  (c! "electric field", [2, 2, -6, -2, 0, 0, 0], [1, -1, -2, 0, 0, 0, 0]),
  (c! "electromotance", [2, 4, -6, -2, 0, 0, 0], [1, 1, -2, 0, 0, 0, 0]),
  (c! "energy", [2, 4, -4, 0, 0, 0, 0], [2, 4, -4, 0, 0, 0, 0]),
  (c! "energy density", [2, -2, -4, 0, 0, 0, 0], [2, -2, -4, 0, 0, 0, 0]),
  (c! "fluence", [-2, -8, 4, 0, 0, 0, 0], [-2, -8, 4, 0, 0, 0, 0]),
  (c! "flux", [-2, -8, 2, 0, 0, 0, 0], [-2, -8, 2, 0, 0, 0, 0]),
  (c! "force", [2, 2, -4, 0, 0, 0, 0], [2, 2, -4, 0, 0, 0, 0]),
  (c! "frequency", [0, 0, -2, 0, 0, 0, 0], [0, 0, -2, 0, 0, 0, 0]),
  (c! "identity", [0, 0, 0, 0, 0, 0, 0], [0, 0, 0, 0, 0, 0, 0]),
  (c! "illumunance", [0, -4, 0, 0, 0, 0, 2], [0, -4, 0, 0, 0, 0, 2]),
  (c! "inductance", [2, 4, -4, -4, 0, 0, 0], [0, -2, 4, 0, 0, 0, 0]),
  (c! "induction", [2, 0, -4, -2, 0, 0, 0], [1, -1, -2, 0, 0, 0, 0]),
  (c! "integral flux", [0, -4, -2, 0, 0, 0, 0], [0, -4, -2, 0, 0, 0, 0]),
  (c! "length", [0, 2, 0, 0, 0, 0, 0], [0, 2, 0, 0, 0, 0, 0]),
  (c! "luminous flux", [0, 0, 0, 0, 0, 0, 2], [0, 0, 0, 0, 0, 0, 2]),
  (c! "luminous intensity", [0, 0, 0, 0, 0, 0, 2], [0, 0, 0, 0, 0, 0, 2]),
  (c! "magnetic field", [2, 0, -4, -2, 0, 0, 0], [1, -1, -2, 0, 0, 0, 0]),
  (c! "magnetic flux", [2, 4, -4, -2, 0, 0, 0], [1, 3, -2, 0, 0, 0, 0]),
  (c! "magnetic induction", [2, 0, -4, -2, 0, 0, 0], [1, -1, -2, 0, 0, 0, 0]),
  (c! "magnetic intensity", [0, -2, 0, 2, 0, 0, 0], [1, -1, -2, 0, 0, 0, 0]),
  (c! "magnetic moment", [0, 4, 0, 2, 0, 0, 0], [1, 5, -2, 0, 0, 0, 0]),
  (c! "magnetization", [0, -2, 0, 2, 0, 0, 0], [1, -1, -2, 0, 0, 0, 0]),
  (c! "magnetomotance", [0, 0, 0, 2, 0, 0, 0], [1, 3, -4, 0, 0, 0, 0]),
  (c! "mass", [2, 0, 0, 0, 0, 0, 0], [2, 0, 0, 0, 0, 0, 0]),
  (c! "mass density", [2, -6, 0, 0, 0, 0, 0], [2, -6, 0, 0, 0, 0, 0]),
  (c! "mass number", [0, 0, 0, 0, 0, 0, 0], [0, 0, 0, 0, 0, 0, 0]),
  (c! "momentum", [2, 2, -2, 0, 0, 0, 0], [2, 2, -2, 0, 0, 0, 0]),
  (c! "momentum density", [2, -4, -2, 0, 0, 0, 0], [2, -4, -2, 0, 0, 0, 0]),
  (c! "number", [0, 0, 0, 0, 0, 0, 0], [0, 0, 0, 0, 0, 0, 0]),
  (c! "number density", [0, -6, 0, 0, 0, 0, 0], [0, -6, 0, 0, 0, 0, 0]),
  (c! "particle distribution", [0, -12, 6, 0, 0, 0, 0], [0, -12, 6, 0, 0, 0, 0]),
  (c! "particle fluence", [-2, -8, 4, 0, 0, 0, 0], [-2, -8, 4, 0, 0, 0, 0]),
  (c! "particle flux", [-2, -8, 2, 0, 0, 0, 0], [-2, -8, 2, 0, 0, 0, 0]),
  (c! "permeability", [2, 2, -4, -4, 0, 0, 0], [0, 0, 0, 0, 0, 0, 0]),
  (c! "permittivity", [-2, -6, 8, 4, 0, 0, 0], [0, 0, 0, 0, 0, 0, 0]),
  (c! "plane angle", [0, 0, 0, 0, 0, 0, 0], [0, 0, 0, 0, 0, 0, 0]),
  (c! "polarization", [0, -4, 2, 2, 0, 0, 0], [1, -1, -2, 0, 0, 0, 0]),
  (c! "potential", [2, 4, -6, -2, 0, 0, 0], [1, 1, -2, 0, 0, 0, 0]),
  (c! "power", [2, 4, -6, 0, 0, 0, 0], [2, 4, -6, 0, 0, 0, 0]),
  (c! "power density", [2, -2, -6, 0, 0, 0, 0], [2, -2, -6, 0, 0, 0, 0]),
  (c! "pressure", [2, -2, -4, 0, 0, 0, 0], [2, -2, -4, 0, 0, 0, 0]),
  (c! "radioactivity", [0, 0, -2, 0, 0, 0, 0], [0, 0, -2, 0, 0, 0, 0]),
  (c! "rate", [0, 0, -2, 0, 0, 0, 0], [0, 0, -2, 0, 0, 0, 0]),
  (c! "ratio", [0, 0, 0, 0, 0, 0, 0], [0, 0, 0, 0, 0, 0, 0]),
  (c! "reluctance", [-2, -4, 4, 4, 0, 0, 0], [0, -2, 0, 0, 0, 0, 0]),
  (c! "temperature", [0, 0, 0, 0, 2, 0, 0], [0, 0, 0, 0, 2, 0, 0]),
  (c! "thermal conductivity", [2, 2, -6, 0, -2, 0, 0], [2, 2, -6, 0, -2, 0, 0]),
  (c! "time", [0, 0, 2, 0, 0, 0, 0], [0, 0, 2, 0, 0, 0, 0]),
  (c! "solid angle", [0, 0, 0, 0, 0, 0, 0], [0, 0, 0, 0, 0, 0, 0]),
  (c! "speed", [0, 2, -2, 0, 0, 0, 0], [0, 2, -2, 0, 0, 0, 0]),
  (c! "vector potential", [2, 2, -4, -2, 0, 0, 0], [1, 1, -2, 0, 0, 0, 0]),
  (c! "velocity", [0, 2, -2, 0, 0, 0, 0], [0, 2, -2, 0, 0, 0, 0]),
  (c! "viscosity", [2, -2, -2, 0, 0, 0, 0], [2, -2, -2, 0, 0, 0, 0]),
  (c! "volume", [0, 6, 0, 0, 0, 0, 0], [0, 6, 0, 0, 0, 0, 0]),
  (c! "vorticity", [0, 0, -2, 0, 0, 0, 0], [0, 0, -2, 0, 0, 0, 0]),
  (c! "wavenumber", [0, -2, 0, 0, 0, 0, 0], [0, -2, 0, 0, 0, 0, 0]),
  (c! "work", [2, 4, -4, 0, 0, 0, 0], [2, 4, -4, 0, 0, 0, 0])]

/-- twice the exponents of the base dimensions in a product of units -/
def doubledOf (s : System) (u : List Term) : List ℚ :=
  baseDims.map (fun x => 2 * (u.map (fun t => t.exp * DimExp.exponent x (dimOf s (match named t.base with
    | some e => e.base.symbol
    | none => [])))).sum)

/-- the dimension with these exponents -/
def canonDim (v : List ℤ) : List Term :=
  let l := ((baseDims.zip v).filter (fun p => decide (p.2 ≠ 0))).map (fun p => (⟨1, p.1, (p.2 : ℚ) / 2⟩ : Term))
  if l.isEmpty then [⟨1, one, 1⟩] else l

/-- the unit of a quantity and its dimension are as listed -/
def rowIsListed (s : System) (q : Name) (v : List ℤ) : Bool :=
  match propertiesUnit s q with
  | .ok u => u.all (fun t => (named t.base).isSome) && decide (doubledOf s u = v.map (fun (n : ℤ) => (n : ℚ))) &&
    (match unitDimensions u with
    | .ok d => (match s.pick d with
      | some d => decide (d.Perm (canonDim v))
      | none => false)
    | .error _ => false)
  | .error _ => false

/-- the rows from the `i`-th to the `j`-th are as listed -/
def rowsListed (s : System) (i j : Nat) : Bool :=
  ((doubled.drop i).take (j - i)).all (fun p => rowIsListed s p.1 (s.pick p.2))

set_option maxHeartbeats 100000000 in
theorem rows_listed0 : rowsListed .mks 0 24 = true := by decide +kernel
set_option maxHeartbeats 100000000 in
theorem rows_listed1 : rowsListed .mks 24 47 = true := by decide +kernel
set_option maxHeartbeats 100000000 in
theorem rows_listed2 : rowsListed .mks 47 70 = true := by decide +kernel
set_option maxHeartbeats 100000000 in
theorem rows_listed3 : rowsListed .cgs 0 24 = true := by decide +kernel
set_option maxHeartbeats 100000000 in
theorem rows_listed4 : rowsListed .cgs 24 47 = true := by decide +kernel
set_option maxHeartbeats 100000000 in
theorem rows_listed5 : rowsListed .cgs 47 70 = true := by decide +kernel

theorem row_of_listed (s : System) (p : Name × List ℤ × List ℤ) (hp : p ∈ doubled) : rowIsListed s p.1 (s.pick p.2) = true := by
  have split : p ∈ (doubled.drop 0).take (24 - 0) ∨ p ∈ (doubled.drop 24).take (47 - 24) ∨
      p ∈ (doubled.drop 47).take (70 - 47) := by
    have e : doubled = (doubled.drop 0).take (24 - 0) ++ ((doubled.drop 24).take (47 - 24) ++ (doubled.drop 47).take (70 - 47)) := rfl
    rw [e] at hp
    rcases List.mem_append.1 hp with h | h
    · exact .inl h
    · exact .inr (List.mem_append.1 h)
  have go : ∀ i j, rowsListed s i j = true → p ∈ (doubled.drop i).take (j - i) → rowIsListed s p.1 (s.pick p.2) = true :=
    fun i j h hm => List.all_eq_true.1 h p hm
  cases s
  · rcases split with h | h | h
    · exact go _ _ rows_listed0 h
    · exact go _ _ rows_listed1 h
    · exact go _ _ rows_listed2 h
  · rcases split with h | h | h
    · exact go _ _ rows_listed3 h
    · exact go _ _ rows_listed4 h
    · exact go _ _ rows_listed5 h

/-- the listed exponents can be read off the dimension, which is a product of different base dimensions with small exponents -/
def canonChecked (v : List ℤ) : Bool :=
  decide (baseDims.map (fun x => 2 * exponent x (canonDim v)) = v.map (fun (n : ℤ) => (n : ℚ))) &&
  decide ((canonDim v).map Term.base).Nodup &&
  (canonDim v).all (fun t => decide (t.coeff = 1) && decide ((t.exp * 2).den = 1) && decide (|(t.exp * 2).num| < 100))

theorem canon_checked : ∀ p ∈ doubled, canonChecked p.2.1 = true ∧ canonChecked p.2.2 = true := by decide +kernel

theorem exponent_of_perm {a b : List Term} (h : a.Perm b) (x : Name) : exponent x a = exponent x b := by
  unfold exponent
  exact ((h.filter _).map _).sum_eq

theorem canon_exact {v : List ℤ} (h : canonChecked v = true) {d : List Term} (hd : d.Perm (canonDim v)) :
    ∀ t ∈ d, ExactTerm t := by
  intro t ht
  simp only [canonChecked, Bool.and_eq_true, List.all_eq_true, decide_eq_true_eq] at h
  obtain ⟨⟨h1, h2⟩, h3⟩ := h.2 t (hd.mem_iff.1 ht)
  have he : t.exp = ((t.exp * 2).num : ℚ) / 2 := by
    have := Rat.num_div_den (t.exp * 2)
    rw [h2] at this
    push_cast at this
    linarith
  refine ⟨?_, ?_⟩
  · rw [he]
    refine fl_half _ (lt_of_lt_of_le h3 (by norm_num))
  · rw [h1]
    exact fl_one

theorem canon_equal {v w : List ℤ} (hv : canonChecked v = true) (hw : canonChecked w = true) {a b : List Term}
    (ha : a.Perm (canonDim v)) (hb : b.Perm (canonDim w)) : exprEq a b = true ↔ v = w := by
  constructor
  · intro h
    have hp := exprEq_perm h (fun t ht u hu htu => (termEq_exact (canon_exact hv ha t ht) (canon_exact hw hb u hu)).1 htu)
    have hc : (canonDim v).Perm (canonDim w) := ha.symm.trans (hp.trans hb)
    simp only [canonChecked, Bool.and_eq_true, decide_eq_true_eq] at hv hw
    have : v.map (fun (n : ℤ) => (n : ℚ)) = w.map (fun (n : ℤ) => (n : ℚ)) := by
      rw [← hv.1.1, ← hw.1.1]
      exact List.map_congr_left (fun x _ => by rw [exponent_of_perm hc])
    exact List.map_injective_iff.2 Int.cast_injective this
  · rintro rfl
    simp only [canonChecked, Bool.and_eq_true, decide_eq_true_eq] at hv
    refine exprEq_of_perm (ha.trans hb.symm) ?_
    exact ((ha.map Term.base).nodup_iff).2 hv.1.2

end Eprem.Metric
