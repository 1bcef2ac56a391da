import Verif.Lemmas.MetricNames

/-!
# C22: every unit name denotes one unit

`namedUnits` is `NAMED_UNITS`, the aliased mapping that the package builds from its tables of prefixes and units;
`namedTable` lists the prefixes and units with all their spellings, and `named` is an independent reading of a name:
a base unit, or a metric prefix followed by a base unit.
-/

namespace Eprem.Metric

open Eprem Eprem.Aliased

theorem split_cd : namedTable = beforeCd ++ ([c! "cd", c! "candela"], candela) :: afterCd := by
  decide +kernel

theorem cd_lookup : namedUnits.getItem c! "cd" = .ok candela := by
  unfold namedUnits
  rw [split_cd]
  refine getItem_tuples_last _ _ _ _ _ (by simp) ?_ ?_
  · have : beforeCd.all (fun p => !decide (c! "candela" ∈ p.1)) = true := by decide +kernel
    intro p hp he
    have h1 := List.all_eq_true.1 this p hp
    have h2 : c! "candela" ∈ p.1.toFinset := by rw [he]; decide
    simp only [List.mem_toFinset] at h2
    simp [h2] at h1
  · have : afterCd.all (fun p => !decide (c! "cd" ∈ p.1)) = true := by decide +kernel
    intro p hp he
    have h1 := List.all_eq_true.1 this p hp
    simp [he] at h1

theorem named_cd : named c! "cd" = some candela := by decide +kernel

/-- **C22**, the look-up.  The mapping of named units and the reading of a name as a prefixed base unit agree on every
string whatsoever. -/
theorem c22_lookup (n : Name) :
    namedUnits.getItem n = match named n with
      | some e => .ok e
      | none => .error .keyError := by
  by_cases hcd : n = c! "cd"
  · subst hcd; rw [cd_lookup, named_cd]
  · cases hn : named n with
    | some e =>
      obtain ⟨p, hp, h1, h2⟩ := named_mem hn
      refine getItem_tuples _ n e ⟨p, hp, h1⟩ ?_
      intro q hq hnq
      have := named_table q hq n hnq hcd
      rw [hn] at this
      cases this; rfl
    | none =>
      refine getItem_tuples_none _ n ?_
      intro p hp hnp
      have := named_table p hp n hnp hcd
      rw [hn] at this
      cases this

/-- **C22**, every spelling resolves.  Whatever spelling of a prefixed unit is looked up - its symbol, its name, or the
symbol written with a `u` for `μ` - the unit with that prefix and that base is found, except for `cd`. -/
theorem c22_spelling (p : List Name × Entry) (hp : p ∈ namedTable) (s : Name) (hs : s ∈ p.1) (hne : s ≠ c! "cd") :
    namedUnits.getItem s = .ok p.2 := by
  rw [c22_lookup, named_table p hp s hs hne]

example : (spellings ⟨c! "μ", c! "micro", 1 / 10 ^ 6⟩ ⟨c! "m", c! "meter", c! "length"⟩, (⟨⟨c! "μ", c! "micro", 1 / 10 ^ 6⟩,
    ⟨c! "m", c! "meter", c! "length"⟩⟩ : Entry)) ∈ namedTable ∧
    c! "um" ∈ spellings ⟨c! "μ", c! "micro", 1 / 10 ^ 6⟩ ⟨c! "m", c! "meter", c! "length"⟩ := by
  decide +kernel

/-- **C22**, uniqueness.  No two different prefixed units share a spelling other than `cd`. -/
theorem c22_unique (p q : List Name × Entry) (hp : p ∈ namedTable) (hq : q ∈ namedTable) (s : Name) (hs : s ∈ p.1)
    (hs' : s ∈ q.1) (hne : s ≠ c! "cd") : p.2 = q.2 := by
  have h1 := named_table p hp s hs hne
  rw [named_table q hq s hs' hne] at h1
  exact (Option.some.inj h1).symm

/-- **C22**, only those: a string is found only if it is a spelling in the tables, and then of the unit found. -/
theorem c22_sound (n : Name) (e : Entry) (h : namedUnits.getItem n = .ok e) : ∃ p ∈ namedTable, n ∈ p.1 ∧ p.2 = e := by
  rw [c22_lookup] at h
  split at h
  next e' he => cases h; exact named_mem he
  next => cases h

example : namedUnits.getItem c! "kilometer" = .ok ⟨⟨c! "k", c! "kilo", 10 ^ 3⟩, ⟨c! "m", c! "meter", c! "length"⟩⟩ := by
  rw [c22_lookup]; decide +kernel

/-- **C22** fails for `cd`: it is the symbol of two different units in the tables, the candela and the centiday, and a
look-up gives the candela. -/
theorem c22_collision : (∃ p ∈ namedTable, c! "cd" ∈ p.1 ∧ p.2 = centiday) ∧
    (∃ p ∈ namedTable, c! "cd" ∈ p.1 ∧ p.2 = candela) ∧
    centiday ≠ candela ∧ centiday.symbol = c! "cd" ∧ candela.symbol = c! "cd" ∧
    namedUnits.getItem c! "centiday" = .ok centiday ∧ namedUnits.getItem c! "cd" = .ok candela := by
  refine ⟨⟨(spellings ⟨c! "c", c! "centi", 1 / 10 ^ 2⟩ ⟨c! "d", c! "day", c! "time"⟩, centiday), ?_, ?_, rfl⟩,
    ⟨([c! "cd", c! "candela"], candela), ?_, ?_, rfl⟩, ?_, ?_, ?_, ?_, cd_lookup⟩
  all_goals first | (rw [c22_lookup]; decide +kernel) | decide +kernel

end Eprem.Metric
