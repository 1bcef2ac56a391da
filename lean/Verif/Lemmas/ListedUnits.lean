import Verif.Spec.SystemUnits
import Verif.Props.MetricDimension

/-! # The rows of the table of quantities, with their units as the systems return them (C112) -/

namespace Eprem.Metric

open Eprem Eprem.Symbolic

/-- the listed unit of a row has the listed dimension -/
def rowListed (s : System) (q : Name) : Bool :=
  match listedUnit s q, dimensionsOf s q with
  | .ok u, .ok dn => match exprOfString false dn with
    | .ok d => !u.isEmpty && d.all (fun t => decide (fl t.exp = t.exp ∧ fl t.coeff = t.coeff)) &&
      baseDims.all (fun x => decide (exponent x d = (u.map (fun t => t.exp * DimExp.exponent x (unitDim s t.base))).sum))
    | _ => false
  | _, _ => false

/-- ten rows, from the `i`-th -/
def tenListed (i : Nat) (s : System) : Bool :=
  ((quantities.drop (10 * i)).take 10).all (fun p => decide ((s, p.1) ∈ wrongRows) || rowListed s p.1)

set_option maxHeartbeats 100000000 in
theorem listed_mks0 : tenListed 0 .mks = true := by decide +kernel
set_option maxHeartbeats 100000000 in
theorem listed_cgs0 : tenListed 0 .cgs = true := by decide +kernel
set_option maxHeartbeats 100000000 in
theorem listed_mks1 : tenListed 1 .mks = true := by decide +kernel
set_option maxHeartbeats 100000000 in
theorem listed_cgs1 : tenListed 1 .cgs = true := by decide +kernel
set_option maxHeartbeats 100000000 in
theorem listed_mks2 : tenListed 2 .mks = true := by decide +kernel
set_option maxHeartbeats 100000000 in
theorem listed_cgs2 : tenListed 2 .cgs = true := by decide +kernel
set_option maxHeartbeats 100000000 in
theorem listed_mks3 : tenListed 3 .mks = true := by decide +kernel
set_option maxHeartbeats 100000000 in
theorem listed_cgs3 : tenListed 3 .cgs = true := by decide +kernel
set_option maxHeartbeats 100000000 in
theorem listed_mks4 : tenListed 4 .mks = true := by decide +kernel
set_option maxHeartbeats 100000000 in
theorem listed_cgs4 : tenListed 4 .cgs = true := by decide +kernel
set_option maxHeartbeats 100000000 in
theorem listed_mks5 : tenListed 5 .mks = true := by decide +kernel
set_option maxHeartbeats 100000000 in
theorem listed_cgs5 : tenListed 5 .cgs = true := by decide +kernel
set_option maxHeartbeats 100000000 in
theorem listed_mks6 : tenListed 6 .mks = true := by decide +kernel
set_option maxHeartbeats 100000000 in
theorem listed_cgs6 : tenListed 6 .cgs = true := by decide +kernel
set_option maxHeartbeats 100000000 in
theorem listed_mks7 : tenListed 7 .mks = true := by decide +kernel
set_option maxHeartbeats 100000000 in
theorem listed_cgs7 : tenListed 7 .cgs = true := by decide +kernel
set_option maxHeartbeats 100000000 in
theorem listed_mks8 : tenListed 8 .mks = true := by decide +kernel
set_option maxHeartbeats 100000000 in
theorem listed_cgs8 : tenListed 8 .cgs = true := by decide +kernel
set_option maxHeartbeats 100000000 in
theorem listed_mks9 : tenListed 9 .mks = true := by decide +kernel
set_option maxHeartbeats 100000000 in
theorem listed_cgs9 : tenListed 9 .cgs = true := by decide +kernel

theorem rows_listed (s : System) {q : Name} (hq : q ∈ quantities.map (·.1)) (h : (s, q) ∉ wrongRows) : rowListed s q = true := by
  obtain ⟨p, hp, rfl⟩ := List.mem_map.1 hq
  have hall : ∀ i < 10, tenListed i s = true := by
    intro i hi
    cases s
    · rcases i with _ | _ | _ | _ | _ | _ | _ | _ | _ | _ | i
      · exact listed_mks0
      · exact listed_mks1
      · exact listed_mks2
      · exact listed_mks3
      · exact listed_mks4
      · exact listed_mks5
      · exact listed_mks6
      · exact listed_mks7
      · exact listed_mks8
      · exact listed_mks9
      · omega
    · rcases i with _ | _ | _ | _ | _ | _ | _ | _ | _ | _ | i
      · exact listed_cgs0
      · exact listed_cgs1
      · exact listed_cgs2
      · exact listed_cgs3
      · exact listed_cgs4
      · exact listed_cgs5
      · exact listed_cgs6
      · exact listed_cgs7
      · exact listed_cgs8
      · exact listed_cgs9
      · omega
  have hlen : quantities.length ≤ 100 := by decide
  have := mem_tens (f := fun p : Name × QEntry => decide ((s, p.1) ∈ wrongRows) || rowListed s p.1) hlen hall hp
  rw [Bool.or_eq_true, decide_eq_true_eq] at this
  exact this.resolve_left h

theorem row_listed (s : System) {q : Name} (hq : q ∈ quantities.map (·.1)) (h : (s, q) ∉ wrongRows) :
    ∃ u text d, listedUnit s q = .ok u ∧ u ≠ [] ∧ dimensionsOf s q = .ok text ∧ exprOfString false text = .ok d ∧
      (∀ t ∈ d, fl t.exp = t.exp ∧ fl t.coeff = t.coeff) ∧ MeasuredIn s u d := by
  have h := rows_listed s hq h
  unfold rowListed at h
  cases hu : listedUnit s q with
  | error e => rw [hu] at h; cases h
  | ok u =>
    cases hd : dimensionsOf s q with
    | error e => rw [hu, hd] at h; cases h
    | ok text =>
      rw [hu, hd] at h
      cases hx : exprOfString false text with
      | error e => simp only [hx] at h; cases h
      | ok d =>
        simp only [hx, Bool.and_eq_true, List.all_eq_true, decide_eq_true_eq] at h
        exact ⟨u, text, d, rfl, by rintro rfl; simp at h, rfl, hx, h.1.2, h.2⟩

end Eprem.Metric
