import Verif.Lemmas.MetricDimension

/-!
# C25: unit systems agree on dimensions

`getDimension` is `System.get_dimension`, and `Unit.dimensions`; the independent table of dimensions of base units is
in `Spec/Dimension.lean`.
-/

namespace Eprem.Metric

open Eprem Eprem.Symbolic

/-! ## Any unit -/

/-- The base unit, given by its symbol, that the result of a lookup refers to. -/
def foundBase (n : Name) : Except Aliased.Err Entry → Name
  | .ok e => e.base.symbol
  | .error _ => n

/-- The base unit, given by its symbol, that a unit name refers to. -/
def baseOf (n : Name) : Name := foundBase n (namedUnits.getItem n)

theorem baseOf_named {n : Name} {e : Entry} (h : named n = some e) : baseOf n = e.base.symbol := by
  have h2 : namedUnits.getItem n = .ok e := by
    have h2 := c22_lookup n
    rw [h] at h2; exact h2
  unfold baseOf
  rw [h2]
  exact rfl

theorem named_of_found (n : Name) (h : ∃ e, namedUnits.getItem n = .ok e) : ∃ e, named n = some e := by
  obtain ⟨e, he⟩ := h
  have h2 := c22_lookup n
  cases hn : named n with
  | none => rw [hn, he] at h2; exact absurd h2 (by intro h; cases h)
  | some e' => exact ⟨e', rfl⟩

theorem found_of_named (n : Name) (h : (named n).isSome) : ∃ e, namedUnits.getItem n = .ok e := by
  have h2 := c22_lookup n
  cases hn : named n with
  | none => rw [hn] at h; cases h
  | some e => rw [hn] at h2; exact ⟨e, h2⟩

/-- **C25**, any unit.  For every product of integer powers of named units, prefixed or not, at least one of which
belongs to the metric system, the dimension in that system is computed, and it is the product of the powers of the
dimensions of the units.  (Ohms and lux are left out: `c25_ohm`, `c25_lux`.) -/
theorem c25_dimension_partial (s : System) (u : List Term)
    (hu : ∀ t ∈ u, (∃ e, namedUnits.getItem t.base = .ok e) ∧ baseOf t.base ≠ c! "Ω" ∧ baseOf t.base ≠ c! "lx" ∧
      ∃ z : ℤ, t.exp = z ∧ z ≠ 0 ∧ |z| < 2 ^ 49)
    (hs : ∃ t ∈ u, (dimIn s (baseOf t.base)).isSome) :
    ∃ d, getDimension s u = .ok d ∧ ∀ ρ, Positive ρ →
      value ρ d = (u.map (fun t => dimValue ρ (dimOf s (baseOf t.base)) ^ (t.exp : ℝ))).prod := by
  have key : ∀ t ∈ u, ∃ e, named t.base = some e := by
    intro t ht
    exact named_of_found _ (hu t ht).1
  obtain ⟨d, hd, hv⟩ := dimensionLoop_spec s u [mkTerm 1 one 1] false
    ⟨by simp, by simp [mkTerm, orOne], by
      intro t ht; simp only [List.mem_singleton] at ht; subst ht
      exact ⟨⟨2, by simp [mkTerm, orOne]⟩, by simp [mkTerm, orOne]⟩, by
      intro t ht; simp only [List.mem_singleton] at ht; subst ht
      exact Or.inr ⟨by decide, by simp [mkTerm, orOne]⟩⟩ (by
    intro t ht
    obtain ⟨_, h1, h2, z, h3, h4, h5⟩ := hu t ht
    obtain ⟨e, he⟩ := key t ht
    rw [baseOf_named he] at h1 h2
    exact ⟨e, z, he, h1, h2, h3, h4, h5⟩)
  refine ⟨d, ?_, ?_⟩
  · unfold getDimension
    generalize hb : (false || u.any _) = b at hd
    rw [hd]
    have : b = true := by
      rw [← hb, Bool.false_or, List.any_eq_true]
      obtain ⟨t, ht, hts⟩ := hs
      obtain ⟨e, he⟩ := key t ht
      rw [baseOf_named he] at hts
      exact ⟨t, ht, by rw [he]; exact hts⟩
    simp only [this, if_true]
  · intro ρ hρ
    rw [hv ρ hρ]
    have h1 : value ρ [mkTerm 1 one 1] = 1 := by simp [value, mkTerm, orOne, orOneStr, Term.val, one]
    rw [h1, one_mul]
    congr 1
    refine List.map_congr_left ?_
    intro t ht
    obtain ⟨e, he⟩ := key t ht
    rw [he, baseOf_named he]

/-- **C25**, a unit none of whose factors belongs to the system has no dimension there. -/
theorem c25_no_dimension (s : System) (u : List Term)
    (hu : ∀ t ∈ u, (∃ e, namedUnits.getItem t.base = .ok e) ∧ baseOf t.base ≠ c! "Ω" ∧ baseOf t.base ≠ c! "lx" ∧
      ∃ z : ℤ, t.exp = z ∧ z ≠ 0 ∧ |z| < 2 ^ 49)
    (hs : ∀ t ∈ u, dimIn s (baseOf t.base) = none) : getDimension s u = .error .value := by
  have key : ∀ t ∈ u, ∃ e, named t.base = some e := by
    intro t ht
    exact named_of_found _ (hu t ht).1
  obtain ⟨d, hd, _⟩ := dimensionLoop_spec s u [mkTerm 1 one 1] false
    ⟨by simp, by simp [mkTerm, orOne], by
      intro t ht; simp only [List.mem_singleton] at ht; subst ht
      exact ⟨⟨2, by simp [mkTerm, orOne]⟩, by simp [mkTerm, orOne]⟩, by
      intro t ht; simp only [List.mem_singleton] at ht; subst ht
      exact Or.inr ⟨by decide, by simp [mkTerm, orOne]⟩⟩ (by
    intro t ht
    obtain ⟨_, h1, h2, z, h3, h4, h5⟩ := hu t ht
    obtain ⟨e, he⟩ := key t ht
    rw [baseOf_named he] at h1 h2
    exact ⟨e, z, he, h1, h2, h3, h4, h5⟩)
  unfold getDimension
  generalize hb : (false || u.any _) = b at hd
  rw [hd]
  have : b = false := by
    rw [← hb, Bool.false_or, List.any_eq_false]
    intro t ht
    obtain ⟨e, he⟩ := key t ht
    have := hs t ht
    rw [baseOf_named he] at this
    rw [he]
    simp [this]
  simp only [this, Bool.false_eq_true, if_false]

/-- the hypotheses are met by `nT km^2 / hour`, and its dimension in mks is a magnetic flux per time -/
example : ∃ d, getDimension .mks [⟨1, c! "nT", 1⟩, ⟨1, c! "km", 2⟩, ⟨1, c! "hour", -1⟩] = .ok d ∧ ∀ ρ, Positive ρ →
    value ρ d = (ρ c! "M" * (ρ c! "T" ^ (-2 : ℝ) * ρ c! "I" ^ (-1 : ℝ))) * (ρ c! "L" ^ (2 : ℝ) * ρ c! "T" ^ (-1 : ℝ)) := by
  obtain ⟨d, h1, h2⟩ := c25_dimension_partial .mks [⟨1, c! "nT", 1⟩, ⟨1, c! "km", 2⟩, ⟨1, c! "hour", -1⟩] (by
    have hex := found_of_named
    have hbo : ∀ n e, named n = some e → baseOf n = e.base.symbol := fun n e h => baseOf_named h
    intro t ht
    fin_cases ht
    · refine ⟨hex _ (by decide +kernel), ?_, ?_, 1, by norm_num, by norm_num, by norm_num⟩ <;>
        (rw [hbo c! "nT" ⟨⟨c! "n", c! "nano", 1 / 10 ^ 9⟩, ⟨c! "T", c! "tesla", c! "magnetic induction"⟩⟩ (by decide +kernel)]; decide)
    · refine ⟨hex _ (by decide +kernel), ?_, ?_, 2, by norm_num, by norm_num, by norm_num⟩ <;>
        (rw [hbo c! "km" ⟨⟨c! "k", c! "kilo", 1000⟩, ⟨c! "m", c! "meter", c! "length"⟩⟩ (by decide +kernel)]; decide)
    · refine ⟨hex _ (by decide +kernel), ?_, ?_, -1, by norm_num, by norm_num, by norm_num⟩ <;>
        (rw [hbo c! "hour" ⟨basePrefix, ⟨c! "h", c! "hour", c! "time"⟩⟩ (by decide +kernel)]; decide))
    ⟨_, by simp; right; left; rfl, by
      rw [baseOf_named (e := ⟨⟨c! "k", c! "kilo", 1000⟩, ⟨c! "m", c! "meter", c! "length"⟩⟩) (by decide +kernel)]; decide⟩
  refine ⟨d, h1, fun ρ hρ => ?_⟩
  rw [h2 ρ hρ]
  rw [List.map_cons, List.map_cons, List.map_cons, List.map_nil,
    baseOf_named (n := c! "nT") (e := ⟨⟨c! "n", c! "nano", 1 / 10 ^ 9⟩, ⟨c! "T", c! "tesla", c! "magnetic induction"⟩⟩) (by decide +kernel),
    baseOf_named (n := c! "km") (e := ⟨⟨c! "k", c! "kilo", 1000⟩, ⟨c! "m", c! "meter", c! "length"⟩⟩) (by decide +kernel),
    baseOf_named (n := c! "hour") (e := ⟨basePrefix, ⟨c! "h", c! "hour", c! "time"⟩⟩) (by decide +kernel)]
  have d1 : dimOf .mks c! "T" = [(c! "M", 1), (c! "T", -2), (c! "I", -1)] := by decide
  have d2 : dimOf .mks c! "m" = [(c! "L", 1)] := by decide
  have d3 : dimOf .mks c! "h" = [(c! "T", 1)] := by decide
  simp only [d1, d2, d3, dimValue]
  simp [Real.rpow_neg (hρ _).le, Real.rpow_one]


/-! ## The rows of the table of quantities -/

/-- the rows whose listed dimension is not that of the listed unit -/
def wrongRows : List (System × Name) :=
  [(.mks, c! "impedance"), (.mks, c! "resistance"), (.mks, c! "resistivity"), (.mks, c! "permittivity")]

/-- the listed unit and dimension of a row have the same exponents of all base dimensions -/
def rowAgrees (s : System) (q : Name) : Bool :=
  match unitsOf s q, dimensionsOf s q with
  | .ok un, .ok dn => match exprOfString false un, exprOfString false dn with
    | .ok u, .ok d =>
      u.all (fun t => (named t.base).isSome && decide (t.coeff = 1)) &&
      d.all (fun t => decide (t.base ∈ baseDims ∨ t.base = one) && decide (t.coeff = 1)) &&
      baseDims.all (fun x => decide (exponent x d =
        (u.map (fun t => t.exp * DimExp.exponent x (dimOf s (match named t.base with | some e => e.base.symbol | none => [])))).sum))
    | _, _ => false
  | _, _ => false

/-- ten rows, from the `i`-th -/
def tenRows (i : Nat) (s : System) : Bool :=
  ((quantities.drop (10 * i)).take 10).all (fun p => decide ((s, p.1) ∈ wrongRows) || rowAgrees s p.1)

set_option maxHeartbeats 100000000 in
theorem rows_mks0 : tenRows 0 .mks = true := by decide +kernel
set_option maxHeartbeats 100000000 in
theorem rows_cgs0 : tenRows 0 .cgs = true := by decide +kernel
set_option maxHeartbeats 100000000 in
theorem rows_mks1 : tenRows 1 .mks = true := by decide +kernel
set_option maxHeartbeats 100000000 in
theorem rows_cgs1 : tenRows 1 .cgs = true := by decide +kernel
set_option maxHeartbeats 100000000 in
theorem rows_mks2 : tenRows 2 .mks = true := by decide +kernel
set_option maxHeartbeats 100000000 in
theorem rows_cgs2 : tenRows 2 .cgs = true := by decide +kernel
set_option maxHeartbeats 100000000 in
theorem rows_mks3 : tenRows 3 .mks = true := by decide +kernel
set_option maxHeartbeats 100000000 in
theorem rows_cgs3 : tenRows 3 .cgs = true := by decide +kernel
set_option maxHeartbeats 100000000 in
theorem rows_mks4 : tenRows 4 .mks = true := by decide +kernel
set_option maxHeartbeats 100000000 in
theorem rows_cgs4 : tenRows 4 .cgs = true := by decide +kernel
set_option maxHeartbeats 100000000 in
theorem rows_mks5 : tenRows 5 .mks = true := by decide +kernel
set_option maxHeartbeats 100000000 in
theorem rows_cgs5 : tenRows 5 .cgs = true := by decide +kernel
set_option maxHeartbeats 100000000 in
theorem rows_mks6 : tenRows 6 .mks = true := by decide +kernel
set_option maxHeartbeats 100000000 in
theorem rows_cgs6 : tenRows 6 .cgs = true := by decide +kernel
set_option maxHeartbeats 100000000 in
theorem rows_mks7 : tenRows 7 .mks = true := by decide +kernel
set_option maxHeartbeats 100000000 in
theorem rows_cgs7 : tenRows 7 .cgs = true := by decide +kernel
set_option maxHeartbeats 100000000 in
theorem rows_mks8 : tenRows 8 .mks = true := by decide +kernel
set_option maxHeartbeats 100000000 in
theorem rows_cgs8 : tenRows 8 .cgs = true := by decide +kernel
set_option maxHeartbeats 100000000 in
theorem rows_mks9 : tenRows 9 .mks = true := by decide +kernel
set_option maxHeartbeats 100000000 in
theorem rows_cgs9 : tenRows 9 .cgs = true := by decide +kernel

theorem mem_tens {α : Type} {l : List α} {f : α → Bool} (hl : l.length ≤ 100)
    (h : ∀ i < 10, ((l.drop (10 * i)).take 10).all f = true) {a : α} (ha : a ∈ l) : f a = true := by
  obtain ⟨n, hn, rfl⟩ := List.getElem_of_mem ha
  have hi : n / 10 < 10 := by omega
  refine List.all_eq_true.1 (h (n / 10) hi) l[n] ?_
  rw [List.mem_take_iff_getElem]
  refine ⟨n % 10, by rw [List.length_drop]; omega, ?_⟩
  rw [List.getElem_drop]
  congr 1
  omega

theorem rows_agree (s : System) (p : Name × QEntry) (hp : p ∈ quantities) (h : (s, p.1) ∉ wrongRows) :
    rowAgrees s p.1 = true := by
  have hall : ∀ i < 10, tenRows i s = true := by
    intro i hi
    cases s
    · rcases i with _ | _ | _ | _ | _ | _ | _ | _ | _ | _ | i
      · exact rows_mks0
      · exact rows_mks1
      · exact rows_mks2
      · exact rows_mks3
      · exact rows_mks4
      · exact rows_mks5
      · exact rows_mks6
      · exact rows_mks7
      · exact rows_mks8
      · exact rows_mks9
      · omega
    · rcases i with _ | _ | _ | _ | _ | _ | _ | _ | _ | _ | i
      · exact rows_cgs0
      · exact rows_cgs1
      · exact rows_cgs2
      · exact rows_cgs3
      · exact rows_cgs4
      · exact rows_cgs5
      · exact rows_cgs6
      · exact rows_cgs7
      · exact rows_cgs8
      · exact rows_cgs9
      · omega
  have hlen : quantities.length ≤ 100 := by decide
  have := mem_tens (f := fun p : Name × QEntry => decide ((s, p.1) ∈ wrongRows) || rowAgrees s p.1) hlen hall hp
  rw [Bool.or_eq_true, decide_eq_true_eq] at this
  exact this.resolve_left h

/-- **C25**, the rows.  For every quantity of the table and every metric system, apart from the four rows of
`wrongRows`, the listed unit is a product of named units, the listed dimension is a product of base dimensions, and the
exponent of each base dimension is what the units make it. -/
theorem c25_rows_partial (s : System) (p : Name × QEntry) (hp : p ∈ quantities) (h : (s, p.1) ∉ wrongRows) :
    ∃ un dn u d, unitsOf s p.1 = .ok un ∧ dimensionsOf s p.1 = .ok dn ∧ exprOfString false un = .ok u ∧
      exprOfString false dn = .ok d ∧ (∀ t ∈ u, ∃ e, namedUnits.getItem t.base = .ok e) ∧
      (∀ t ∈ u, t.coeff = 1) ∧ (∀ t ∈ d, t.coeff = 1 ∧ (t.base ∈ baseDims ∨ t.base = one)) ∧
      ∀ x ∈ baseDims, exponent x d = (u.map (fun t => t.exp * DimExp.exponent x (dimOf s (baseOf t.base)))).sum := by
  have h := rows_agree s p hp h
  unfold rowAgrees at h
  split at h
  next un dn hun hdn =>
    split at h
    next u d hu hd =>
      simp only [Bool.and_eq_true, List.all_eq_true, decide_eq_true_eq] at h
      obtain ⟨⟨h1, h2⟩, h3⟩ := h
      refine ⟨un, dn, u, d, hun, hdn, hu, hd, ?_, fun t ht => (h1 t ht).2, fun t ht => ⟨(h2 t ht).2, (h2 t ht).1⟩, ?_⟩
      · intro t ht
        rw [c22_lookup]
        have := (h1 t ht).1
        cases hn : named t.base with
        | none => rw [hn] at this; cases this
        | some e => exact ⟨e, rfl⟩
      · intro x hx
        rw [h3 x hx]
        congr 1
        refine List.map_congr_left ?_
        intro t ht
        have := (h1 t ht).1
        cases hn : named t.base with
        | none => rw [hn] at this; cases this
        | some e => rw [baseOf_named hn]
    · cases h
  · cases h

example : (c! "thermal conductivity", QEntry.compound c! "power / (length * temperature)") ∈ quantities ∧
    (System.cgs, c! "thermal conductivity") ∉ wrongRows := by decide +kernel

set_option maxHeartbeats 100000000 in
/-- **C25**, the four rows are wrong: the permittivity, in farads per meter, has dimension `T^4 I^2 / (M L^3)` but is
listed with `I`; the impedance (hence resistance and resistivity), in ohms, has dimension `M L^2 / (T^3 I^2)` but is
listed with `1 / I`, the dimension of a potential. -/
theorem c25_wrong_rows :
    dimensionsOf .mks c! "permittivity" = .ok c! "T^4 * I / (M * L^3)" ∧
    unitsOf .mks c! "permittivity" = .ok c! "F / m" ∧
    getDimension .mks [⟨1, c! "F", 1⟩, ⟨1, c! "m", -1⟩] = .ok [⟨1, c! "T", 4⟩, ⟨1, c! "I", 2⟩, ⟨1, c! "M", -1⟩, ⟨1, c! "L", -3⟩] ∧
    dimensionsOf .mks c! "impedance" = .ok c! "(M * L^2) / (T^3 * I)" ∧
    dimensionsOf .mks c! "potential" = .ok c! "(M * L^2) / (T^3 * I)" ∧
    (∀ x ∈ wrongRows, rowAgrees x.1 x.2 = false) := by decide +kernel

/-- **C25**, ohms: their computed dimension is that of volts, so a volt per ampere has not the dimension of an ohm. -/
theorem c25_ohm : getDimension .mks [⟨1, c! "Ω", 1⟩] = getDimension .mks [⟨1, c! "V", 1⟩] ∧
    getDimension .mks [⟨1, c! "V", 1⟩, ⟨1, c! "A", -1⟩] ≠ getDimension .mks [⟨1, c! "Ω", 1⟩] := by decide +kernel

/-- **C25**, lux: the table has a quantity called `illumunance`, so the dimension of a lux cannot be computed. -/
theorem c25_lux : ∀ s ∈ [System.mks, System.cgs], getDimension s [⟨1, c! "lx", 1⟩] = .error .recursion := by
  decide +kernel

/-! ## The table of conversions -/

set_option maxHeartbeats 100000000 in
/-- **C25**, the conversions.  Every defined conversion has a defined inverse, with the reciprocal factor. -/
theorem c25_symmetric (u v : Name) (w : ℚ) (h : conversions.get? (u, v) = some w) :
    conversions.get? (v, u) = some (1 / w) := by
  have hall : ∀ p ∈ conversions, conversions.get? (p.1.2, p.1.1) = some (1 / p.2) := by decide +kernel
  have hm : ((u, v), w) ∈ conversions := by
    have := (Dict.get?_eq_some (d := conversions) conversions_nodup).1 h
    exact this
  exact hall _ hm

example : conversions.get? (c! "J", c! "erg") = some 10000000 := by decide +kernel

end Eprem.Metric
