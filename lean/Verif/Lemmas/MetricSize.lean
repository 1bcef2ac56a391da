import Verif.Lemmas.MetricNames

/-! # The sizes of the units in the tables of the package -/

namespace Eprem.Metric

open Eprem Eprem.Container

/-- Sizes of the base units that appear in `_CONVERSIONS`, on a common scale (m, kg, s, A, J, ... are 1).  The candela
occurs in no conversion; its size is that of the centiday because the two share the symbol `cd`. -/
def baseSizes : List (Name × ℚ) := [
  (c! "m", 1), (c! "Rs", 696000000), (c! "au", 149597870700), (c! "g", 1 / 1000),
  (c! "nuc", 16605 / 10 ^ 31), (c! "amu", 16605 / 10 ^ 31),
  (c! "s", 1), (c! "min", 60), (c! "h", 3600), (c! "d", 86400), (c! "cd", 864),
  (c! "rad", 1), (c! "deg", piFloat / 180),
  (c! "J", 1), (c! "erg", 1 / 10 ^ 7), (c! "eV", 16022 / 10 ^ 23), (c! "N", 1), (c! "dyn", 1 / 10 ^ 5),
  (c! "Pa", 1), (c! "W", 1),
  (c! "A", 1), (c! "statA", 1 / (10 * lightSpeed)), (c! "C", 1), (c! "statC", 1 / (10 * lightSpeed)),
  (c! "e", 16022 / 10 ^ 23), (c! "V", 1), (c! "statV", lightSpeed / 10 ^ 6),
  (c! "Ω", 10 ^ 7 / lightSpeed ^ 2), (c! "S", lightSpeed ^ 2 / 10 ^ 7), (c! "F", lightSpeed ^ 2 / 10 ^ 11),
  (c! "H", 10 ^ 7 / lightSpeed ^ 2),
  (c! "Wb", 10 ^ 7 / (4 * piFloat)), (c! "Mx", 1 / (40 * piFloat)), (c! "T", 10 ^ 7 / (4 * piFloat)),
  (c! "G", 10 ^ 3 / (4 * piFloat)), (c! "Oe", 1000 / (4 * piFloat)),
  (c! "Bq", 1), (c! "Ci", 37000000000), (c! "Gy", 1), (c! "P", 1 / 10)]

/-- Sizes of the compound units that appear in `_CONVERSIONS`. -/
def compoundSizes : List (Name × ℚ) := [
  (c! "cm / s", 1 / 100), (c! "erg / g", 1 / 10 ^ 4), (c! "s / cm", 100), (c! "s^2 / cm", 100), (c! "A / m", 1),
  (c! "H / m", 10 ^ 7 / 4 * piFloat), (c! "F / m", 36 * piFloat * 10 ^ 9),
  (c! "erg / s", 1 / 10 ^ 7), (c! "dyn / cm^2", 1 / 10), (c! "A / Wb", 4 * piFloat / 10 ^ 7), (c! "1 / cm", 100),
  (c! "Wb / m", 10 ^ 7 / (4 * piFloat)), (c! "G * cm", 10 / (4 * piFloat)), (c! "kg / (m * s)", 1)]

/-- the size of a base unit -/
def baseSize (u : BaseUnit) : ℚ := (Dict.get? baseSizes u.symbol).getD 1

/-- the size of a unit string -/
def size (n : Name) : ℚ :=
  match named n with
  | some e => e.prefix_.factor * baseSize e.base
  | none => (Dict.get? compoundSizes n).getD 1

theorem factor_pos {n : Name} {e : Entry} (h : named n = some e) : 0 < e.prefix_.factor := by
  obtain ⟨p, hp, _, rfl⟩ := named_mem h
  obtain ⟨u, hu, hp⟩ := List.mem_flatMap.1 hp
  have hpre : ∀ q ∈ prefixes, q.factor ≠ 0 → 0 < q.factor := by decide +kernel
  unfold unitItems at hp
  split at hp
  · simp only [List.mem_singleton] at hp
    subst hp; show (0 : ℚ) < 1; decide +kernel
  · obtain ⟨q, hq, rfl⟩ := List.mem_map.1 hp
    simp only [List.mem_filter, decide_eq_true_eq] at hq
    split
    · show (0 : ℚ) < 1; decide +kernel
    · exact hpre q hq.1 hq.2

theorem getD_pos {l : List (Name × ℚ)} (h : ∀ p ∈ l, 0 < p.2) (n : Name) : 0 < (Dict.get? l n).getD 1 := by
  cases hg : Dict.get? l n with
  | none => exact zero_lt_one
  | some v =>
    have : ∀ l : List (Name × ℚ), (∀ p ∈ l, 0 < p.2) → Dict.get? l n = some v → 0 < v := by
      intro l
      induction l with
      | nil => intro _ h; cases h
      | cons p l ih =>
        intro hl hg
        simp only [Dict.get?] at hg
        split at hg
        · cases hg; exact hl p (by simp)
        · exact ih (fun q hq => hl q (by simp [hq])) hg
    exact this l h hg

theorem baseSize_pos (u : BaseUnit) : 0 < baseSize u := by
  unfold baseSize
  exact getD_pos (by decide +kernel) _

theorem size_pos (n : Name) : 0 < size n := by
  unfold size
  split
  next e h => exact mul_pos (factor_pos h) (baseSize_pos _)
  next => exact getD_pos (by decide +kernel) _

set_option maxHeartbeats 100000000 in
theorem size_edges : ∀ p ∈ conversions, p.2 = size p.1.1 / size p.1.2 := by decide +kernel

theorem conversions_nodup : (conversions.keys).Nodup := by decide +kernel

/-- the symbol and the name of a unit in the table are among its spellings -/
theorem symbol_name_mem : ∀ p ∈ namedTable, p.2.symbol ∈ p.1 ∧ p.2.name ∈ p.1 := by
  intro p hp
  obtain ⟨u, hu, hp⟩ := List.mem_flatMap.1 hp
  unfold unitItems at hp
  split at hp
  · simp only [List.mem_singleton] at hp
    subst hp; simp [Entry.symbol, Entry.name, basePrefix]
  · obtain ⟨q, hq, rfl⟩ := List.mem_map.1 hp
    split
    · simp [Entry.symbol, Entry.name, basePrefix]
    · simp [Entry.symbol, Entry.name, spellings]

set_option maxHeartbeats 100000000 in
theorem cd_entries : ∀ p ∈ namedTable, c! "cd" ∈ p.1 → p.2 = centiday ∨ p.2 = candela := by decide +kernel

theorem size_spelling {a : Name} {p : List Name × Entry} (hp : p ∈ namedTable) (ha : a ∈ p.1) :
    size a = p.2.prefix_.factor * baseSize p.2.base := by
  by_cases hcd : a = c! "cd"
  · subst hcd
    have h1 : size c! "cd" = 864 := by decide +kernel
    rw [h1]
    rcases cd_entries p hp ha with h | h <;> rw [h] <;> decide +kernel
  · unfold size
    rw [named_table p hp a ha hcd]

theorem real_sizes (nodes : List Name) : (realEnv nodes).Sizes size := by
  have hsize : ∀ {n e}, named n = some e → size n = e.prefix_.factor * baseSize e.base := by
    intro n e h; unfold size; rw [h]
  have hsp : ∀ {n e}, named n = some e → size e.symbol = size n ∧ size e.name = size n := by
    intro n e h
    obtain ⟨p, hp, hn, rfl⟩ := named_mem h
    obtain ⟨h1, h2⟩ := symbol_name_mem p hp
    exact ⟨by rw [size_spelling hp h1, hsize h], by rw [size_spelling hp h2, hsize h]⟩
  refine ⟨size_pos, ?_, ?_, fun a e h => (hsp h).1, fun a e h => (hsp h).2⟩
  · intro a b w h
    exact size_edges _ ((Dict.get?_eq_some conversions_nodup).1 h)
  · intro a b e₀ e₁ h0 h1 hb
    have h0' : named a = some e₀ := h0
    have h1' : named b = some e₁ := h1
    rw [hsize h0', hsize h1', hb]
    have := (baseSize_pos e₁.base).ne'
    have := (factor_pos h1').ne'
    field_simp

end Eprem.Metric
