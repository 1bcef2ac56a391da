import Verif.Model.NamedUnit
import Verif.Spec.NamedUnit
import Verif.Lemmas.MetricDimension
import Verif.Lemmas.MetricSystem

/-! # Lemmas for the relations of named units (C118) -/

namespace Eprem.Metric

open Eprem Eprem.Symbolic

/-- the system, for the specification -/
def System.isMks : System → IsMks
  | .mks => true
  | .cgs => false

/-- the text of the canonical unit of a quantity -/
def canonName (s : System) (q : Name) : Name :=
  match canonExprs.find? (fun p => decide (p.1 = q)) with
  | some p => (s.pick p.2).text
  | none => []

theorem unitsOf_canon {u : BaseUnit} (hu : u ∈ baseUnits) (hl : u.quantity ≠ c! "illuminance") (s : System) :
    unitsOf s u.quantity = .ok (canonName s u.quantity) := by
  have hq := unit_quantity u hu hl
  unfold canonName
  cases hf : canonExprs.find? (fun p => decide (p.1 = u.quantity)) with
  | none =>
    obtain ⟨p, hp, hpe⟩ := List.mem_map.1 hq
    have := List.find?_eq_none.1 hf p hp
    simp [hpe] at this
  | some p =>
    have h1 := List.find?_some hf
    have h2 := List.mem_of_find?_eq_some hf
    have h3 : p.1 = u.quantity := of_decide_eq_true h1
    rw [← h3]
    exact (canon_text s (mem_systems s) p h2).2

set_option maxHeartbeats 100000000 in
theorem canon_standard : ∀ u ∈ baseUnits, u.quantity ≠ c! "illuminance" → u.symbol ≠ c! "lm" → ∀ s ∈ [System.mks, System.cgs],
    ∀ p ∈ unitItems u, decide (p.2.symbol = canonName s u.quantity ∨ p.2.name = canonName s u.quantity) =
      decide (u.symbol ∈ unitsIn s.isMks ∧ p.2.prefix_.factor = standardPrefix s.isMks u.symbol) := by decide +kernel

set_option maxHeartbeats 100000000 in
theorem canon_named : ∀ u ∈ baseUnits, u.quantity ≠ c! "illuminance" → u.symbol ≠ c! "lm" → ∀ s ∈ [System.mks, System.cgs],
    (match named (canonName s u.quantity) with | some r => decide (u = r.base) | none => false) =
      decide (u.symbol ∈ unitsIn s.isMks) := by decide +kernel

theorem entry_item {n : Name} {e : Entry} (h : namedUnits.getItem n = .ok e) :
    ∃ p ∈ unitItems e.base, p.2 = e ∧ e.base ∈ baseUnits ∧ named n = some e := by
  have hn : named n = some e := by
    rw [c22_lookup] at h
    split at h
    next e' he => cases h; exact he
    next => cases h
  obtain ⟨p, hp, _, rfl⟩ := named_mem hn
  obtain ⟨u, hu, hp'⟩ := List.mem_flatMap.1 hp
  have : p.2.base = u := by
    unfold unitItems at hp'
    split at hp'
    · simp only [List.mem_singleton] at hp'; rw [hp']
    · obtain ⟨q, _, hq⟩ := List.mem_map.1 hp'
      split at hq <;> rw [← hq]
  rw [this]
  exact ⟨p, hp', rfl, hu, hn⟩

end Eprem.Metric
