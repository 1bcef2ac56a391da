import Verif.Spec.SystemUnits
import Verif.Lemmas.SystemUnits
import Verif.Lemmas.ListedUnits
import Verif.Props.Observer

/-! # The units of a metric system (C112) -/

namespace Eprem.Metric

open Eprem Eprem.Symbolic

/-! ## From a unit -/

theorem getUnit_unit {s : System} {g : Given} (ht : g.truthy = true) (h1 : g.str ≠ one) {r : List Term}
    (hr : unitFromUnit s g = .ok r) (hne : r ≠ []) (d : Option Given) (q : Option Name) :
    getUnit s (some g) d q = .ok r := by
  have he : r.isEmpty = false := by cases r <;> simp_all
  simp only [getUnit, caseOfUnit, ht, if_true, List.cons_append, List.nil_append, searchLoop, h1, if_false, hr, Except.map, he]
  rfl

/-- **C112** (part), from a unit.  For every product of integral powers of named units, given as text or as a unit, the
unit which the system returns is the product of the same powers of the units which the system has for the quantities
measured; each factor of it is the unit which the system has for its own quantity; and it does not matter which
dimension and quantity are given besides.  Excluded are lux and ohms, and units whose quantities cancel. -/
theorem c112_unit_partial (s : System) (g : Given) (a : List Term) (hg : g.unit = .ok a) (ht : g.truthy = true)
    (h1 : g.str ≠ one) (na : NamesOnly a)
    (hu : ∀ t ∈ a, ∃ e, namedUnits.getItem t.base = .ok e ∧ e.base.quantity ≠ c! "illuminance" ∧ e.base.quantity ≠ c! "resistance")
    (hne : ∃ q, quantityExponent q a ≠ 0) (hsmall : ∀ q, |quantityExponent q a| < 2 ^ 50)
    (dimension : Option Given) (quantity : Option Name) :
    ∃ r, getUnit s (some g) dimension quantity = .ok r ∧ NamesOnly r ∧
      (∀ t ∈ r, canonicalUnit s t.base = [⟨1, t.base, 1⟩]) ∧
      ∀ ρ, Positive ρ → value ρ r = (a.map (fun t => value ρ (canonicalUnit s t.base) ^ (t.exp : ℝ))).prod := by
  obtain ⟨r, hr, _, nr, hown, hv⟩ := normalize_ok s na hu hne hsmall
  exact ⟨r, getUnit_unit ht h1 (by simp only [unitFromUnit, hg, hr]) nr.nonempty dimension quantity, nr,
    fun t h => (hown t h).canonical, hv⟩

theorem shown_one {r : List Term} (hc : Canonical r) (nr : NamesOnly r) (h : showExpr r = one) : r = [⟨1, one, 1⟩] := by
  have h2 := showExpr_round_trip r nr.nonempty (NamesOnly.row nr)
  rw [h, hc.reduce_self nr.wf.bases] at h2
  have h3 : exprOfString false one = .ok [⟨1, one, 1⟩] := by decide +kernel
  rw [h3] at h2
  cases h2
  rfl

theorem identity_unit : ∀ s ∈ [System.mks, .cgs], listedUnit s c! "identity" = .ok [⟨1, one, 1⟩] := by decide +kernel

theorem quantityExponent_own {q b : Name} : ∀ (ts : List Term), (∀ u ∈ ts, quantityOf u.base = some q ↔ u.base = b) →
    quantityExponent q ts = expOf b ts
  | [], _ => rfl
  | t :: ts, h => by
    have ih := quantityExponent_own ts (fun u hu => h u (List.mem_cons_of_mem _ hu))
    unfold quantityExponent at ih ⊢
    rw [expOf_cons, ← ih]
    have ht := h t (by simp)
    by_cases hb : t.base = b
    · rw [List.filter_cons_of_pos (by simpa using ht.2 hb), if_pos hb, List.map_cons, List.sum_cons]
    · rw [List.filter_cons_of_neg (by simpa using fun hh => hb (ht.1 hh)), if_neg hb, zero_add]

/-- **C112**, twice.  The unit that the system returned for a unit is its own unit in that system. -/
theorem c112_again (s : System) (a r : List Term) (na : NamesOnly a)
    (hu : ∀ t ∈ a, ∃ e, namedUnits.getItem t.base = .ok e ∧ e.base.quantity ≠ c! "illuminance" ∧ e.base.quantity ≠ c! "resistance")
    (hne : ∃ q, quantityExponent q a ≠ 0) (hsmall : ∀ q, |quantityExponent q a| < 2 ^ 50)
    (h1 : showExpr a ≠ one) (hr : getUnit s (some (.parsed a)) none none = .ok r)
    (hsmall' : ∀ q, |quantityExponent q r| < 2 ^ 50) :
    getUnit s (some (.parsed r)) none none = .ok r := by
  have htr : ∀ {x : List Term}, x ≠ [] → (Given.parsed x).truthy = true := by
    intro x hx
    cases x with
    | nil => exact absurd rfl hx
    | cons => rfl
  obtain ⟨r', hr', cr, nr, hown, hv⟩ := normalize_ok s na hu hne hsmall
  have := getUnit_unit (s := s) (g := .parsed a) (htr na.nonempty) h1 (r := r')
    (by simp only [unitFromUnit, Given.unit, hr']) nr.nonempty none none
  rw [hr, Except.ok.injEq] at this
  subst this
  by_cases hone : showExpr r = one
  · rw [shown_one cr nr hone]
    simp only [getUnit, caseOfUnit, htr (List.cons_ne_nil _ _), if_true, caseOfDimension, caseOfQuantity, List.append_nil,
      searchLoop]
    rw [if_pos (by decide +kernel : (Given.parsed [⟨1, one, 1⟩]).str = one), identity_unit s (mem_systems s)]
  · -- every factor measures its own quantity, and no two factors measure the same
    have hq : ∀ t ∈ r, ∃ q, quantityOf t.base = some q := by
      intro t ht
      obtain ⟨e, he, _⟩ := (hown t ht).usable
      exact ⟨e.base.quantity, by simp only [quantityOf, he.1, Option.map_some]⟩
    have hinj : ∀ t ∈ r, ∀ u ∈ r, quantityOf t.base = quantityOf u.base → t.base = u.base := by
      intro t ht u hu' h
      have e1 := (hown t ht).canonical
      have e2 := (hown u hu').canonical
      unfold canonicalUnit at e1 e2
      rw [h] at e1
      rw [e1] at e2
      simpa using e2
    have hne' : ∃ q, quantityExponent q r ≠ 0 := by
      obtain ⟨t, ht⟩ := List.exists_mem_of_ne_nil r nr.nonempty
      obtain ⟨q, hqt⟩ := hq t ht
      refine ⟨q, ?_⟩
      have : quantityExponent q r = expOf t.base r := by
        refine quantityExponent_own r (fun u hu' => ?_)
        constructor
        · intro h; exact hinj u hu' t ht (by rw [h, hqt])
        · intro h; rw [h, hqt]
      rw [this, expOf_of_nodup r cr.nodup t ht]
      exact (nr.exp t ht).2
    obtain ⟨r2, hr2, cr2, nr2, _, hv2⟩ := normalize_ok s nr (fun t ht => by
      obtain ⟨e, he⟩ := (hown t ht).usable
      refine ⟨e, ?_, ?_, ?_⟩
      · rw [c22_lookup, he.1.1]
      · intro h
        exact (hown t ht).quantity.1 (by simp only [quantityOf, he.1.1, Option.map_some, h])
      · intro h
        exact (hown t ht).quantity.2 (by simp only [quantityOf, he.1.1, Option.map_some, h])) hne' hsmall'
    have heq : r2 = r := by
      refine canonical_unique cr2 cr nr2.wf nr.wf (fun ρ hρ => ?_)
      rw [hv2 ρ hρ]
      unfold value
      congr 1
      refine List.map_congr_left (fun t ht => ?_)
      rw [(hown t ht).canonical]
      by_cases hb : t.base = one
      · simp [Term.val, hb, nr.coeff t ht]
      · simp [Term.val, hb, nr.coeff t ht]
    exact getUnit_unit (g := .parsed r) (htr nr.nonempty) hone (by simp only [unitFromUnit, Given.unit, hr2, heq]) nr.nonempty none none


example : ∃ a, (Given.text c! "keV cm / hour").unit = .ok a ∧ NamesOnly a ∧
    (∀ t ∈ a, ∃ e, namedUnits.getItem t.base = .ok e ∧ e.base.quantity ≠ c! "illuminance" ∧ e.base.quantity ≠ c! "resistance") ∧
    (∃ q, quantityExponent q a ≠ 0) ∧ (∀ q, |quantityExponent q a| < 2 ^ 50) ∧ showExpr a ≠ one ∧
    getUnit .mks (some (.parsed a)) none none = .ok [⟨1, c! "J", 1⟩, ⟨1, c! "m", 1⟩, ⟨1, c! "s", -1⟩] := by
  refine ⟨[⟨1, c! "cm", 1⟩, ⟨1, c! "keV", 1⟩, ⟨1, c! "h", -1⟩], by decide +kernel, ?_, ?_, ⟨c! "energy", by decide +kernel⟩, ?_,
    by decide +kernel, by decide +kernel⟩
  · refine ⟨by simp, ?_, ?_, ?_⟩
    · intro t ht; simp only [List.mem_cons, List.not_mem_nil, or_false] at ht
      rcases ht with rfl | rfl | rfl <;> rfl
    · intro t ht; simp only [List.mem_cons, List.not_mem_nil, or_false] at ht
      rcases ht with rfl | rfl | rfl <;> exact ⟨rfl, by norm_num⟩
    · intro t ht; simp only [List.mem_cons, List.not_mem_nil, or_false] at ht
      rcases ht with rfl | rfl | rfl
      · exact Or.inl ⟨c! "cm", [], by decide +kernel, by decide +kernel, by decide +kernel, by simp, by decide +kernel⟩
      · exact Or.inl ⟨c! "keV", [], by decide +kernel, by decide +kernel, by decide +kernel, by simp, by decide +kernel⟩
      · exact Or.inl ⟨c! "h", [], by decide +kernel, by decide +kernel, by decide +kernel, by simp, by decide +kernel⟩
  · have key : ∀ b ∈ [c! "keV", c! "cm", c! "h"], (match named b with
        | some e => decide (e.base.quantity ≠ c! "illuminance" ∧ e.base.quantity ≠ c! "resistance")
        | none => false) = true := by decide +kernel
    intro t ht
    have hb : t.base ∈ [c! "keV", c! "cm", c! "h"] := by
      simp only [List.mem_cons, List.not_mem_nil, or_false] at ht ⊢
      rcases ht with rfl | rfl | rfl <;> simp
    have := key _ hb
    cases hn : named t.base with
    | none => rw [hn] at this; cases this
    | some e =>
      rw [hn] at this
      have h2 := of_decide_eq_true this
      exact ⟨e, by rw [c22_lookup, hn], h2.1, h2.2⟩
  · intro q
    have h1 : quantityOf c! "keV" = some c! "energy" := by decide +kernel
    have h2 : quantityOf c! "cm" = some c! "length" := by decide +kernel
    have h3 : quantityOf c! "h" = some c! "time" := by decide +kernel
    unfold quantityExponent
    simp only [List.filter, h1, h2, h3, Option.some.injEq]
    by_cases e1 : c! "energy" = q
    · subst e1; norm_num [show ¬ (c! "length" = c! "energy") by decide, show ¬ (c! "time" = c! "energy") by decide]
    · by_cases e2 : c! "length" = q
      · subst e2; norm_num [e1, show ¬ (c! "time" = c! "length") by decide]
      · by_cases e3 : c! "time" = q
        · subst e3; norm_num [e1, e2]
        · norm_num [e1, e2, e3]

/-! ## From a quantity -/

theorem quantity_names_plain : ∀ q ∈ quantities.map (·.1), q ≠ one ∧ q ≠ [] := by decide +kernel

/-- **C112** (part), from a quantity.  For every quantity of the tables, whatever the case of the letters of its name,
the system returns the listed unit, and that unit has the listed dimension.  Excluded are `permittivity` in mks, whose
listed dimension is wrong, and the three quantities measured in ohms, for which an exception is raised
(`c112_not_ohm`). -/
theorem c112_quantity_partial (s : System) (q name : Name) (hq : q ∈ quantities.map (·.1)) (h : (s, q) ∉ wrongRows)
    (hname : lower name = q) :
    ∃ u text d, getUnit s none none (some name) = .ok u ∧ listedUnit s q = .ok u ∧ dimensionsOf s q = .ok text ∧
      exprOfString false text = .ok d ∧ MeasuredIn s u d := by
  obtain ⟨u, text, d, h1, h2, h3, h4, _, h6⟩ := row_listed s hq h
  obtain ⟨n1, n2⟩ := quantity_names_plain q hq
  have e1 : name ≠ one := by rintro rfl; exact n1 (hname ▸ by decide +kernel)
  have e2 : name.isEmpty = false := by
    cases name with
    | nil => exact absurd hname.symm n2
    | cons => rfl
  have e3 : u.isEmpty = false := by cases u <;> simp_all
  refine ⟨u, text, d, ?_, h1, h3, h4, h6⟩
  simp only [getUnit, caseOfUnit, caseOfDimension, caseOfQuantity, e2, List.nil_append, searchLoop, e1, if_false,
    unitFromQuantity, hname, h1, Except.map, e3, Bool.false_eq_true]

example : c! "electric field" ∈ quantities.map (·.1) ∧ (System.mks, c! "electric field") ∉ wrongRows ∧
    lower c! "Electric Field" = c! "electric field" ∧
    getUnit .mks none none (some c! "Electric Field") = .ok [⟨1, c! "V", 1⟩, ⟨1, c! "m", -1⟩] := by decide +kernel

/-! ## From a dimension -/

set_option maxHeartbeats 100000000 in
theorem wrong_dimensions : ∀ r ∈ wrongRows, (match dimensionsOf r.1 r.2 with
    | .ok text => (match exprOfString false text with | .ok _ => true | .error _ => false)
    | .error _ => false) = true := by decide +kernel

theorem dimension_listed (s : System) {q : Name} (hq : q ∈ quantities.map (·.1)) :
    ∃ text d, dimensionsOf s q = .ok text ∧ exprOfString false text = .ok d := by
  by_cases h : (s, q) ∈ wrongRows
  · have := wrong_dimensions _ h
    dsimp only at this
    cases hd : dimensionsOf s q with
    | error e => rw [hd] at this; cases this
    | ok text =>
      rw [hd] at this
      cases hx : exprOfString false text with
      | error e => simp only [hx] at this; cases this
      | ok d => exact ⟨text, d, rfl, hx⟩
  · obtain ⟨_, text, d, _, _, h3, h4, _⟩ := row_listed s hq h
    exact ⟨text, d, h3, h4⟩

theorem quantitiesIn_parsed (s : System) (d : List Term) : ∀ (qs : List Name), (∀ q ∈ qs, q ∈ quantities.map (·.1)) →
    ∃ l, quantitiesIn s (.parsed d) qs = .ok l ∧ l.Sublist qs ∧ ∀ q ∈ qs, (q ∈ l ↔ ListedWith s d q)
  | [], _ => ⟨[], rfl, List.Sublist.refl _, by simp⟩
  | q :: qs, h => by
    obtain ⟨l, hl, hs, hm⟩ := quantitiesIn_parsed s d qs (fun x hx => h x (List.mem_cons_of_mem _ hx))
    obtain ⟨text, e, h1, h2⟩ := dimension_listed s (h q (by simp))
    have hiff : ListedWith s d q ↔ exprEq d e = true := by
      constructor
      · rintro ⟨_, text', e', h1', h2', he⟩
        rw [h1] at h1'; cases h1'
        rw [h2] at h2'; cases h2'
        exact he
      · intro he
        exact ⟨h q (by simp), text, e, h1, h2, he⟩
    cases he : exprEq d e with
    | true =>
      refine ⟨q :: l, ?_, hs.cons_cons q, ?_⟩
      · simp only [quantitiesIn, h1, sameDimension, h2, ofSym, he, hl, if_true]
      · intro x hx
        by_cases hxq : x = q
        · subst hxq
          simp only [List.mem_cons, true_or, true_iff]
          exact hiff.2 he
        · rw [List.mem_cons, or_iff_right hxq]
          exact hm x ((List.mem_cons.1 hx).resolve_left hxq)
    | false =>
      refine ⟨l, ?_, hs.cons q, ?_⟩
      · simp only [quantitiesIn, h1, sameDimension, h2, ofSym, he, hl, Bool.false_eq_true, if_false]
      · intro x hx
        by_cases hxs : x ∈ qs
        · exact hm x hxs
        · have hxq : x = q := (List.mem_cons.1 hx).resolve_right hxs
          subst hxq
          constructor
          · intro hxl; exact absurd (hs.subset hxl) hxs
          · intro hL
            rw [hiff, he] at hL; cases hL

/-- **C112**, the quantities of a dimension.  For every dimension, `quantities` returns, without repetition, exactly the
quantities which the table lists with that dimension in the system. -/
theorem c112_quantities (s : System) (d : List Term) :
    ∃ l, quantitiesOf s d = .ok l ∧ l.Nodup ∧ ∀ q, q ∈ l ↔ ListedWith s d q := by
  obtain ⟨l, hl, hs, hm⟩ := quantitiesIn_parsed s d (quantities.map (·.1)) (fun q hq => hq)
  have hnd : (quantities.map (·.1)).Nodup := by decide +kernel
  refine ⟨l, hl, hnd.sublist hs, fun q => ?_⟩
  constructor
  · intro h; exact (hm q (hs.subset h)).1 h
  · intro h; exact (hm q h.1).2 h

example : quantitiesOf .mks [⟨1, c! "L", 1⟩, ⟨1, c! "T", -1⟩] = .ok [c! "speed", c! "velocity"] ∧
    quantitiesOf .cgs [⟨1, c! "T", -1⟩, ⟨1, c! "L", 1⟩] = .ok [c! "conductance", c! "speed", c! "velocity"] := by decide +kernel

theorem exponent_perm (x : Name) {a b : List Term} (h : a.Perm b) : exponent x a = exponent x b := by
  unfold exponent
  exact ((h.filter _).map _).sum_eq

/-- **C112** (part), from a dimension.  If some quantity is listed with the dimension, the system returns the unit of the
first such quantity of the table, whatever quantity is given besides, and that unit has the dimension.  Excluded are
the dimensions for which the first such quantity is listed with a wrong dimension, and dimensions whose text is `1`
(`c112_one`). -/
theorem c112_dimension_partial (s : System) (d : List Term) (q : Name) (qs : List Name) (hq : quantitiesOf s d = .ok (q :: qs))
    (h : (s, q) ∉ wrongRows) (h1 : showExpr d ≠ one) (hne : d ≠ [])
    (hd : ∀ t ∈ d, fl t.exp = t.exp ∧ fl t.coeff = t.coeff) (quantity : Option Name) :
    ∃ u, getUnit s none (some (.parsed d)) quantity = .ok u ∧ listedUnit s q = .ok u ∧ MeasuredIn s u d := by
  obtain ⟨l, hl, _, hm⟩ := c112_quantities s d
  rw [hq, Except.ok.injEq] at hl
  have hL := (hm q).1 (by rw [← hl]; simp)
  obtain ⟨u, text, e, hu, hune, ht, he, hex, hmeas⟩ := row_listed s hL.1 h
  obtain ⟨_, text', e', ht', he', heq⟩ := hL
  rw [ht] at ht'; cases ht'
  rw [he] at he'; cases he'
  have hperm : d.Perm e := exprEq_perm heq (fun t ht u hu h => by
    simp only [termEq, decide_eq_true_eq] at h
    obtain ⟨h1, h2⟩ := hd t ht
    obtain ⟨h3, h4⟩ := hex u hu
    rw [h1, h3, h2, h4] at h
    cases t; cases u
    simp_all)
  have e1 : d.isEmpty = false := by cases d <;> simp_all
  have e3 : u.isEmpty = false := by cases u <;> simp_all
  refine ⟨u, ?_, hu, fun x hx => by rw [exponent_perm x hperm, hmeas x hx]⟩
  have hfrom : unitFromDimension s (.parsed d) = .ok (some u) := by
    have : quantitiesIn s (.parsed d) (quantities.map (·.1)) = .ok (q :: qs) := hq
    unfold unitFromDimension
    rw [this]
    dsimp only
    rw [hu]
  simp only [getUnit, caseOfUnit, caseOfDimension, Given.truthy, e1, Bool.not_false, if_true, List.nil_append, List.cons_append,
    searchLoop, Given.str, h1, if_false, hfrom, e3]
  rfl

example : quantitiesOf .mks [⟨1, c! "M", 1⟩, ⟨1, c! "L", -1⟩, ⟨1, c! "T", -2⟩] = .ok [c! "energy density", c! "pressure"] ∧
    (System.mks, c! "energy density") ∉ wrongRows ∧ showExpr [⟨1, c! "M", 1⟩, ⟨1, c! "L", -1⟩, ⟨1, c! "T", -2⟩] ≠ one ∧
    (∀ t ∈ [(⟨1, c! "M", 1⟩ : Term), ⟨1, c! "L", -1⟩, ⟨1, c! "T", -2⟩], fl t.exp = t.exp ∧ fl t.coeff = t.coeff) := by
  decide +kernel

/-- **C112**, no such dimension.  If no quantity is listed with the dimension, the search goes on with the quantity. -/
theorem c112_fallback (s : System) (d : List Term) (h1 : showExpr d ≠ one) (h : ∀ q, ¬ ListedWith s d q) (quantity : Option Name) :
    getUnit s none (some (.parsed d)) quantity = getUnit s none none quantity := by
  obtain ⟨l, hl, _, hm⟩ := c112_quantities s d
  have hnil : l = [] := List.eq_nil_iff_forall_not_mem.2 (fun q hq => h q ((hm q).1 hq))
  subst hnil
  have hfrom : unitFromDimension s (.parsed d) = .ok none := by
    have : quantitiesIn s (.parsed d) (quantities.map (·.1)) = .ok [] := hl
    unfold unitFromDimension
    rw [this]
  cases ht : (Given.parsed d).truthy with
  | false => simp only [getUnit, caseOfUnit, caseOfDimension, ht, Bool.false_eq_true, if_false, List.nil_append]
  | true =>
    simp only [getUnit, caseOfUnit, caseOfDimension, ht, if_true, List.nil_append, List.cons_append, searchLoop, Given.str, h1,
      if_false, hfrom]

theorem no_dimension {s : System} {d : List Term} (h : quantitiesOf s d = .ok []) (q : Name) : ¬ ListedWith s d q := by
  obtain ⟨l, hl, _, hm⟩ := c112_quantities s d
  rw [h, Except.ok.injEq] at hl
  subst hl
  intro hL
  have := (hm q).2 hL
  cases this

example : (∀ q, ¬ ListedWith .mks [⟨1, c! "L", 7⟩] q) ∧ showExpr [⟨1, c! "L", 7⟩] ≠ one ∧
    getUnit .mks none (some (.parsed [⟨1, c! "L", 7⟩])) (some c! "length") = .ok [⟨1, c! "m", 1⟩] ∧
    getUnit .mks none (some (.parsed [⟨1, c! "L", 7⟩])) none = .error .search :=
  ⟨fun q => no_dimension (by decide +kernel) q, by decide +kernel, by decide +kernel, by decide +kernel⟩

/-! ## Nothing, and the number one -/

/-- **C112**, nothing given: `SearchError`, also if all that is given is empty. -/
theorem c112_nothing (s : System) (unit dimension : Option Given) (quantity : Option Name)
    (h1 : ∀ g, unit = some g → g.truthy = false) (h2 : ∀ g, dimension = some g → g.truthy = false)
    (h3 : ∀ q, quantity = some q → q = []) : getUnit s unit dimension quantity = .error .search := by
  have e1 : caseOfUnit s unit = [] := by
    cases unit with
    | none => rfl
    | some g => simp [caseOfUnit, h1 g rfl]
  have e2 : caseOfDimension s dimension = [] := by
    cases dimension with
    | none => rfl
    | some g => simp [caseOfDimension, h2 g rfl]
  have e3 : caseOfQuantity s quantity = [] := by
    cases quantity with
    | none => rfl
    | some q => simp [caseOfQuantity, h3 q rfl]
  simp only [getUnit, e1, e2, e3, List.append_nil, searchLoop]

example : ∀ g, (some (Given.text [])) = some g → g.truthy = false := by rintro g h; cases h; rfl

/-- **C112**, the number one: given as a unit, or as a dimension when no unit is given, it is measured in the unit `1`. -/
theorem c112_one (s : System) (g : Given) (h : g.str = one) (hg : g.truthy = true) (dimension : Option Given) (quantity : Option Name) :
    getUnit s (some g) dimension quantity = .ok [⟨1, one, 1⟩] ∧ getUnit s none (some g) quantity = .ok [⟨1, one, 1⟩] := by
  constructor
  · simp only [getUnit, caseOfUnit, hg, if_true, List.cons_append, searchLoop, h, identity_unit s (mem_systems s)]
  · simp only [getUnit, caseOfUnit, caseOfDimension, hg, if_true, List.cons_append, List.nil_append, searchLoop, h,
      identity_unit s (mem_systems s)]

example : (Given.text c! "1").str = one ∧ (Given.parsed [⟨1, one, 1⟩]).str = one := by decide +kernel

/-! ## What does not hold -/

/-- **C112** is false for dimensions given as text: of two spellings of the dimension of an energy, one is found and the
other is not. -/
theorem c112_not_spelling : exprOfString false c! "M L^2 T^-2" = exprOfString false c! "L^2 M T^-2" ∧
    (∀ s ∈ [System.mks, .cgs], getUnit s none (some (.text c! "M L^2 T^-2")) none = .error .search) ∧
    getUnit .mks none (some (.text c! "L^2 M T^-2")) none = .ok [⟨1, c! "J", 1⟩] ∧
    getUnit .cgs none (some (.text c! "L^2 M T^-2")) none = .ok [⟨1, c! "erg", 1⟩] := by
  refine ⟨?_, ?_, ?_, ?_⟩ <;> decide +kernel

/-- **C112** is false for the dimension of a magnetic field in cgs, which is also that of `displacement`: the system
returns `statC m^-2`, which contains a unit of the other system, instead of `G`. -/
theorem c112_not_gauss : ∃ d, getDimension .cgs [⟨1, c! "G", 1⟩] = .ok d ∧
    getUnit .cgs none (some (.parsed d)) none = .ok [⟨1, c! "statC", 1⟩, ⟨1, c! "m", -2⟩] ∧
    getUnit .cgs none none (some c! "magnetic field") = .ok [⟨1, c! "G", 1⟩] := by
  refine ⟨[⟨1, c! "M", 1/2⟩, ⟨1, c! "L", -1/2⟩, ⟨1, c! "T", -1⟩], ?_, ?_, ?_⟩ <;> decide +kernel

/-- **C112** is false for quantities measured in ohms: the symbol of the unit is refused. -/
theorem c112_not_ohm : ∀ q ∈ [c! "impedance", c! "resistance", c! "resistivity"],
    getUnit .mks none none (some q) = .error (.raised .value) := by decide +kernel

/-- **C112** is false for names that are no quantities: the search does not end in a `KeyError`, it recurses. -/
theorem c112_not_unknown : ∀ s ∈ [System.mks, .cgs], getUnit s none none (some c! "nonsense") = .error (.raised .recursion) := by
  decide +kernel

/-- **C112** is false for units whose quantities cancel. -/
theorem c112_not_ratio : ∀ s ∈ [System.mks, .cgs], getUnit s (some (.text c! "km / m")) none none = .error (.raised .recursion) := by
  decide +kernel

/-- **C112**, `normalize` with the name of a quantity: the unit is ignored, a name of two words is taken for a product
of quantities, which fails for `electric field` and gives a mass for `mass number`. -/
theorem c112_not_named : (∀ u, normalizeUnit .mks u (some c! "energy") = .ok [⟨1, c! "J", 1⟩]) ∧
    (∀ u, normalizeUnit .mks u (some c! "electric field") = .error .recursion) ∧
    (∀ u, normalizeUnit .mks u (some c! "mass number") = .ok [⟨1, c! "kg", 1⟩]) ∧
    listedUnit .mks c! "mass number" = .ok [⟨1, one, 1⟩] := by
  have h : ∀ q, ∀ u, normalizeUnit .mks u (some q) = normalizeUnit .mks [] (some q) := fun q u => rfl
  refine ⟨fun u => ?_, fun u => ?_, fun u => ?_, by decide +kernel⟩
  · rw [h]; decide +kernel
  · rw [h]; decide +kernel
  · rw [h]; decide +kernel

end Eprem.Metric
