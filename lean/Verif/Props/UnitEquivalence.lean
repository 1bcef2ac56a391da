import Verif.Lemmas.UnitEquivalence
import Verif.Props.MetricConvert

/-!
# C85: comparison of units

`equivalent` is `Unit.__and__` and `consistent` is `Unit.__or__`.
-/

namespace Eprem.Metric

open Eprem Eprem.Symbolic

variable {K : Type} [Field K] [DecidableEq K]

/-- **C85**, a positive answer.  Two units that are found to be equivalent have the same size, whatever the sizes of the
base units, when counts have the size one; or the package converts one to the other with the factor one.  Missing: that
the factor one means equal sizes, which is false (`c85_degrees`); exponents other than multiples of a half. -/
theorem c85_sound_partial (c : Conv K) (hc : c.systems = [.mks, .cgs] ∨ c.systems = [.cgs, .mks]) (st : Cache K)
    (d : ℕ) (hd : d ∣ 2) (a b : List Term) (ha : IsUnit d a) (hb : IsUnit d b) (na : a.Nodup) (nb : b.Nodup)
    (sa : (a.map (fun t => |t.exp|)).sum < 2 ^ 45) (sb : (b.map (fun t => |t.exp|)).sum < 2 ^ 45)
    (h : (equivalent c st a b).2 = .ok true) :
    (∀ ρ, CoherentSizes ρ → ρ (c! "#") = 1 → value ρ a = value ρ b) ∨
      (conversionFactory c st (showExpr b) (showExpr a)).2 = .ok 1 := by
  have ho : c.systems ∈ Orders := by simpa [Orders] using hc
  have hd4 : d ∣ 4 := hd.trans (by norm_num)
  obtain ⟨hd0, hdle⟩ := pos_of_dvd hd4
  have hd2 : 2 * d ∣ 4 := by
    obtain ⟨k, hk⟩ := hd; exact ⟨k, by linarith⟩
  have hsmall : ∀ {u : List Term}, (u.map (fun t => |t.exp|)).sum < 2 ^ 45 → SmallExponents u := by
    intro u hu t ht
    exact lt_of_le_of_lt (mem_le_total ht) (lt_trans hu (by norm_num))
  have permv : ∀ {x y : List Term} (ρ : Name → ℝ), x.Perm y → value ρ x = value ρ y := by
    intro x y ρ hp; unfold value; exact (hp.map _).prod_eq
  unfold equivalent at h
  by_cases h1 : exprEq a b = true
  · left
    intro ρ _ _
    exact permv ρ (unit_eq_perm hd4 ha hb (hsmall sa) (hsmall sb) h1)
  rw [if_neg h1] at h
  by_cases h2 : (symmetricDifference a b).all (fun t => decide (formatTerm t ∈ unityTexts)) = true
  · left
    intro ρ _ hn
    exact symmetric_value (isUnit_iff.1 ha) (isUnit_iff.1 hb) na nb h2 hn
  rw [if_neg h2] at h
  cases hp : unitDimensionless a with
  | error e => rw [hp] at h; cases h
  | ok p =>
    rw [hp] at h
    dsimp only at h
    cases hq : unitDimensionless b with
    | error e => rw [hq] at h; cases h
    | ok q =>
      rw [hq] at h
      dsimp only at h
      by_cases hpq : p ≠ q
      · rw [if_pos hpq] at h; cases h
      rw [if_neg hpq] at h
      obtain ⟨x, x1, x2, x3, x4, x5, x6⟩ := decompose_small ho hd0 hdle (isUnit_iff.1 ha) sa
      obtain ⟨y, y1, y2, y3, y4, y5, y6⟩ := decompose_small ho hd0 hdle (isUnit_iff.1 hb) sb
      unfold decomposedEquivalent at h
      rw [x1] at h; dsimp only at h
      rw [y1] at h; dsimp only at h
      by_cases h3 : sameTerms x y = true
      · left
        intro ρ hρ _
        rw [← x6 ρ hρ, ← y6 ρ hρ]
        exact permv ρ (sameTerms_perm x4 y4 h3)
      rw [if_neg h3, x2, y2] at h
      simp only [ofSym] at h
      by_cases h4 : exprEq x y = true
      · left
        intro ρ hρ _
        rw [← x6 ρ hρ, ← y6 ρ hρ]
        exact permv ρ (unit_eq_perm hd2 x3 y3 x5 y5 h4)
      rw [if_neg h4] at h
      right
      unfold unitFactorIsOne at h
      generalize hf : conversionFactory c st (showExpr b) (showExpr a) = r at h ⊢
      obtain ⟨st', f⟩ := r
      cases f with
      | ok f =>
        simp only [Except.ok.injEq, decide_eq_true_eq] at h
        simp [h]
      | error e =>
        cases e <;> first
          | (simp only [Except.ok.injEq] at h; cases h)
          | cases h

/-- **C85**, equal units.  Units with the same dimension, not dimensionless, that have the same size whatever the sizes
of the base units are equivalent, and consistent.  Missing: dimensionless units (`c85_dimensionless`), and exponents that
are not integers. -/
theorem c85_complete_partial (c : Conv K) (hc : c.systems = [.mks, .cgs] ∨ c.systems = [.cgs, .mks]) (st : Cache K)
    (a b : List Term) (ha : IsUnit 1 a) (hb : IsUnit 1 b)
    (sa : (a.map (fun t => |t.exp|)).sum < 2 ^ 45) (sb : (b.map (fun t => |t.exp|)).sum < 2 ^ 45)
    (s : System) (x : Name) (hx : x ∈ baseDims)
    (hdim : (a.map (fun t => t.exp * (dimOf s (baseOf t.base)).exponent x)).sum ≠ 0)
    (h : ∀ ρ, CoherentSizes ρ → value ρ a = value ρ b) :
    equivalent c st a b = (st, .ok true) ∧ consistent c st a b = (st, .ok true) := by
  have ho : c.systems ∈ Orders := by simpa [Orders] using hc
  have ta := isUnit_iff.1 ha
  have tb := isUnit_iff.1 hb
  have hsmall : ∀ {u : List Term}, (u.map (fun t => |t.exp|)).sum < 2 ^ 45 → SmallIntegers u := by
    intro u hu t ht
    exact lt_of_le_of_lt (mem_le_total ht) (lt_trans hu (by norm_num))
  have key : equivalent c st a b = (st, .ok true) := by
    unfold equivalent
    by_cases h1 : exprEq a b = true
    · rw [if_pos h1]
    rw [if_neg h1]
    by_cases h2 : (symmetricDifference a b).all (fun t => decide (formatTerm t ∈ unityTexts)) = true
    · rw [if_pos h2]
    rw [if_neg h2]
    have e := dimExponent_congr ta tb s hx h
    have hdb : dimExponent s x b ≠ 0 := by rw [← e]; exact hdim
    rw [dimensionless_false ta (hsmall sa) (s := s) (x := x) hdim]
    dsimp only
    rw [dimensionless_false tb (hsmall sb) (s := s) (x := x) hdb]
    dsimp only
    rw [if_neg (by simp)]
    obtain ⟨r, r1, _⟩ := decompose_small ho one_pos (by norm_num) ta sa
    have r2 : decomposeUnit' c.systems b = .ok r := by rw [← decompose_congr ho ta tb h]; exact r1
    unfold decomposedEquivalent
    rw [r1]; dsimp only
    rw [r2]; dsimp only
    rw [if_pos]
    unfold sameTerms
    simp
  refine ⟨key, ?_⟩
  unfold consistent
  by_cases h1 : exprEq a b = true
  · rw [if_pos h1]
  · rw [if_neg h1, key]

/-- a unit is equivalent to, and consistent with, itself -/
theorem c85_reflexive (c : Conv K) (st : Cache K) (a : List Term) :
    equivalent c st a a = (st, .ok true) ∧ consistent c st a a = (st, .ok true) := by
  unfold equivalent consistent
  rw [if_pos (exprEq_refl a), if_pos (exprEq_refl a)]
  exact ⟨rfl, rfl⟩

/-- equivalent units are consistent -/
theorem c85_consistent (c : Conv K) (st : Cache K) (a b : List Term) (h : (equivalent c st a b).2 = .ok true) :
    (consistent c st a b).2 = .ok true := by
  unfold consistent
  split
  · rfl
  · generalize he : equivalent c st a b = r at h
    obtain ⟨st', f⟩ := r
    simp only at h
    subst h
    rfl

/-- **C85**, the same dimension.  If the comparison of the two units ends without an exception, and both have a dimension in
the same metric system and these are equal, then the units are consistent. -/
theorem c85_same_dimension (c : Conv K) (hc : c.systems = [.mks, .cgs] ∨ c.systems = [.cgs, .mks]) (st : Cache K)
    (a b : List Term) (v : Bool) (hv : (equivalent c st a b).2 = .ok v)
    (dims : System → Option (List Term)) (hdims : ∀ s, unitDimension s a = .ok (dims s))
    (dims' : System → Option (List Term)) (hdims' : ∀ s, unitDimension s b = .ok (dims' s))
    (s : System) (d d' : List Term) (hs : dims s = some d) (hs' : dims' s = some d') (he : exprEq d' d = true) :
    (consistent c st a b).2 = .ok true := by
  have key : ∀ ss : List System, s ∈ ss → sharedDimension a b ss = .ok true := by
    intro ss
    induction ss with
    | nil => intro h; cases h
    | cons x ss ih =>
      intro hm
      simp only [sharedDimension, hdims, hdims']
      by_cases hx : x = s
      · subst hx
        rw [hs]
        cases x
        · simp [hs', he]
        · simp [hs', he]
      · have h := ih ((List.mem_cons.1 hm).resolve_left (fun e => hx e.symm))
        cases dims x with
        | none => exact h
        | some e =>
          simp only
          split
          · rfl
          · exact h
  have hk := key c.systems (by rcases hc with h | h <;> rw [h] <;> cases s <;> simp)
  unfold consistent
  split
  · rfl
  · generalize equivalent c st a b = r at hv
    obtain ⟨st', f⟩ := r
    simp only at hv
    subst hv
    cases v
    · simp only [hk]
    · rfl

/-- **C85**, convertible units.  If the comparison of the two units ends without an exception, and the other unit converts to
this one, then the units are consistent. -/
theorem c85_convertible (c : Conv K) (st : Cache K) (a b : List Term) (st' : Cache K) (v w : Bool) (f : K)
    (hv : equivalent c st a b = (st', .ok v)) (hw : sharedDimension a b c.systems = .ok w)
    (hf : (conversionFactory c st' (showExpr b) (showExpr a)).2 = .ok f) : (consistent c st a b).2 = .ok true := by
  unfold consistent
  split
  · rfl
  · rw [hv]
    cases v
    · simp only [hw]
      cases w
      · simp only
        split
        · rfl
        · generalize conversionFactory c st' (showExpr b) (showExpr a) = r at hf
          obtain ⟨st'', g⟩ := r
          simp only at hf
          subst hf
          rfl
      · rfl
    · rfl

/-! ### examples -/

/-- what `unit_factory(a) & b` answers in a new session -/
def unitsEquivalent (c : Conv ℚ) (a b : Name) : Except MErr Bool :=
  match freshUnit a, freshUnit b with
  | .ok u, .ok v => (equivalent c [] u v).2
  | .error e, _ => .error e
  | _, .error e => .error e

/-- what `unit_factory(a) | b` answers in a new session -/
def unitsConsistent (c : Conv ℚ) (a b : Name) : Except MErr Bool :=
  match freshUnit a, freshUnit b with
  | .ok u, .ok v => (consistent c [] u v).2
  | .error e, _ => .error e
  | _, .error e => .error e

set_option maxHeartbeats 100000000 in
/-- the examples of the documentation: equivalent units -/
theorem c85_documented : ∀ c ∈ ratConvs,
    unitsEquivalent c (c! "1 / s") (c! "# / s") = .ok true ∧
    unitsEquivalent c (c! "N") (c! "kg * m / s^2") = .ok true ∧
    unitsEquivalent c (c! "J") (c! "N m") = .ok true ∧
    unitsEquivalent c (c! "kJ") (c! "J") = .ok false ∧
    unitsEquivalent c (c! "kJ") (c! "kg m^2 / s^2") = .ok false ∧
    unitsConsistent c (c! "J") (c! "erg") = .ok true ∧
    unitsConsistent c (c! "J") (c! "eV") = .ok true ∧
    unitsConsistent c (c! "J") (c! "kg") = .ok false := by decide +kernel

set_option maxHeartbeats 100000000 in
/-- **C85** is violated: degrees per second are said to be equivalent to radians per second, and steradians to
radians. -/
theorem c85_degrees : ∀ c ∈ ratConvs,
    unitsEquivalent c (c! "deg / s") (c! "rad / s") = .ok true ∧
    unitsEquivalent c (c! "rad / s") (c! "deg / s") = .ok true ∧
    unitsEquivalent c (c! "sr") (c! "rad") = .ok true := by decide +kernel

set_option maxHeartbeats 100000000 in
/-- **C85** is violated: `V A / W` and `1`, and `Hz` and `1 / s`, are said not to be equivalent. -/
theorem c85_dimensionless : ∀ c ∈ ratConvs,
    unitsEquivalent c (c! "V A / W") (c! "1") = .ok false ∧
    unitsEquivalent c (c! "Hz") (c! "1 / s") = .ok false := by decide +kernel

/-- `V A / W` has the size one for all coherent sizes -/
theorem c85_volt_ampere (ρ : Name → ℝ) (hρ : CoherentSizes ρ) :
    value ρ [⟨1, c! "V", 1⟩, ⟨1, c! "A", 1⟩, ⟨1, c! "W", -1⟩] = value ρ [⟨1, one, 1⟩] := by
  have hV := hρ.derived (c! "V", [(c! "kg", 1), (c! "m", 2), (c! "s", -3), (c! "A", -1)]) (by decide +kernel)
  have hW := hρ.derived (c! "W", [(c! "kg", 1), (c! "m", 2), (c! "s", -3)]) (by decide +kernel)
  have pk := hρ.pos (c! "kg")
  have pm := hρ.pos (c! "m")
  have ps := hρ.pos (c! "s")
  have pA := hρ.pos (c! "A")
  simp only [List.map_cons, List.map_nil, List.prod_cons, List.prod_nil, Rat.cast_neg, Rat.cast_one, Rat.cast_ofNat,
    Real.rpow_neg ps.le, Real.rpow_neg pA.le, Real.rpow_one] at hV hW
  have h1 : (c! "V" : Name) ≠ one ∧ (c! "A" : Name) ≠ one ∧ (c! "W" : Name) ≠ one := by decide
  have pW := hρ.pos (c! "W")
  simp only [value, Term.val, List.map_cons, List.map_nil, List.prod_cons, List.prod_nil, h1.1, h1.2.1, h1.2.2, if_true,
    if_false, Rat.cast_one, Rat.cast_neg, Real.rpow_neg pW.le, Real.rpow_one]
  rw [hV, hW]
  have p2 := Real.rpow_pos_of_pos pm 2
  have p3 := Real.rpow_pos_of_pos ps 3
  field_simp

set_option maxHeartbeats 100000000 in
/-- **C85** is violated: the comparison is not symmetric and may fail for units. -/
theorem c85_not_symmetric : ∀ c ∈ ratConvs,
    unitsEquivalent c (c! "MeV / nuc") (c! "J / kg") = .error .value ∧
    unitsEquivalent c (c! "J / kg") (c! "MeV / nuc") = .ok false ∧
    unitsConsistent c (c! "MeV / nuc") (c! "J / kg") = .error .value ∧
    unitsConsistent c (c! "J / kg") (c! "MeV / nuc") = .ok true := by decide +kernel

set_option maxHeartbeats 100000000 in
/-- **C85** is violated: consistent units need not be convertible, nor have the same dimension. -/
theorem c85_not_convertible : ∀ c ∈ ratConvs,
    unitsConsistent c (c! "km") (c! "Mau") = .ok true ∧
    (conversionFactory c [] (c! "Mau") (c! "km")).2 = .error .conversion ∧
    unitsConsistent c (c! "kg") (c! "nuc") = .ok true := by decide +kernel

/-! ### the hypotheses are met -/

theorem watt_second (ρ : Name → ℝ) (hρ : CoherentSizes ρ) :
    value ρ [⟨1, c! "W", 1⟩, ⟨1, c! "s", 1⟩] = value ρ [⟨1, c! "J", 1⟩] := by
  have hJ := hρ.derived (c! "J", [(c! "kg", 1), (c! "m", 2), (c! "s", -2)]) (by decide +kernel)
  have hW := hρ.derived (c! "W", [(c! "kg", 1), (c! "m", 2), (c! "s", -3)]) (by decide +kernel)
  have ps := hρ.pos (c! "s")
  simp only [List.map_cons, List.map_nil, List.prod_cons, List.prod_nil, Rat.cast_neg, Rat.cast_one, Rat.cast_ofNat,
    Real.rpow_one] at hJ hW
  have h1 : (c! "J" : Name) ≠ one ∧ (c! "s" : Name) ≠ one ∧ (c! "W" : Name) ≠ one := by decide
  simp only [value, Term.val, List.map_cons, List.map_nil, List.prod_cons, List.prod_nil, h1.1, h1.2.1, h1.2.2,
    if_false, Rat.cast_one, Real.rpow_one]
  rw [hJ, hW]
  have e : ρ (c! "s") ^ (-2 : ℝ) = ρ (c! "s") ^ (-3 : ℝ) * ρ (c! "s") := by
    have := Real.rpow_add ps (-3) 1
    rw [Real.rpow_one] at this
    rw [← this]; norm_num
  rw [e]; ring

/-- watt seconds and joules -/
example (c : Conv K) (hc : c.systems = [.mks, .cgs] ∨ c.systems = [.cgs, .mks]) (st : Cache K) :
    equivalent c st [⟨1, c! "W", 1⟩, ⟨1, c! "s", 1⟩] [⟨1, c! "J", 1⟩] = (st, .ok true) :=
  (c85_complete_partial c hc st _ _ (isUnit_of (by simp) (by decide +kernel) (by norm_num)) (isUnit_of (by simp) (by decide +kernel) (by norm_num))
    (by norm_num) (by norm_num) .mks (c! "M") (by decide) (by
      simp only [baseOf_eq]
      decide +kernel) watt_second).1

/-- kilojoules and joules have the same dimension -/
example : ∀ c ∈ ratConvs, (consistent c [] [⟨1, c! "kJ", 1⟩] [⟨1, c! "J", 1⟩]).2 = .ok true := by
  intro c hc
  have hr : ∀ c ∈ ratConvs, (equivalent c [] [⟨1, c! "kJ", 1⟩] [⟨1, c! "J", 1⟩]).2 = .ok false := by decide +kernel
  have ho : ∀ c ∈ ratConvs, c.systems = [.mks, .cgs] ∨ c.systems = [.cgs, .mks] := by
    intro c hc; fin_cases hc <;> simp
  refine c85_same_dimension c (ho c hc) [] _ _ false (hr c hc)
    (fun s => if s = .mks then some [⟨1, c! "L", 2⟩, ⟨1, c! "M", 1⟩, ⟨1, c! "T", -2⟩] else none)
    (fun s => by cases s <;> decide +kernel)
    (fun s => if s = .mks then some [⟨1, c! "L", 2⟩, ⟨1, c! "M", 1⟩, ⟨1, c! "T", -2⟩] else none)
    (fun s => by cases s <;> decide +kernel) .mks _ _ rfl rfl
    (by decide +kernel)

/-- joules convert to kilojoules -/
example : ∀ c ∈ ratConvs, (consistent c [] [⟨1, c! "kJ", 1⟩] [⟨1, c! "J", 1⟩]).2 = .ok true := by
  intro c hc
  have h1 : ∀ c ∈ ratConvs, (equivalent c [] [⟨1, c! "kJ", 1⟩] [⟨1, c! "J", 1⟩]).2 = .ok false ∧
      sharedDimension [⟨1, c! "kJ", 1⟩] [⟨1, c! "J", 1⟩] c.systems = .ok true ∧
      (conversionFactory c (equivalent c [] [⟨1, c! "kJ", 1⟩] [⟨1, c! "J", 1⟩]).1 (showExpr [⟨1, c! "J", 1⟩])
        (showExpr [⟨1, c! "kJ", 1⟩])).2 = .ok (1 / 1000) := by decide +kernel
  obtain ⟨h1, h2, h3⟩ := h1 c hc
  exact c85_convertible c [] _ _ _ false true _ (Prod.ext rfl h1) h2 h3

/-- newtons -/
example : ∀ c ∈ ratConvs, (∀ ρ, CoherentSizes ρ → ρ (c! "#") = 1 →
      value ρ [⟨1, c! "N", 1⟩] = value ρ [⟨1, c! "kg", 1⟩, ⟨1, c! "m", 1⟩, ⟨1, c! "s", -2⟩]) ∨
      (conversionFactory c [] (c! "kg m s^-2") (c! "N")).2 = .ok 1 := by
  intro c hc
  have hr : ∀ c ∈ ratConvs, (equivalent c [] [⟨1, c! "N", 1⟩] [⟨1, c! "kg", 1⟩, ⟨1, c! "m", 1⟩, ⟨1, c! "s", -2⟩]).2
      = .ok true := by decide +kernel
  have ho : ∀ c ∈ ratConvs, c.systems = [.mks, .cgs] ∨ c.systems = [.cgs, .mks] := by
    intro c hc; fin_cases hc <;> simp
  have := c85_sound_partial c (ho c hc) [] 1 (by norm_num) _ _ (isUnit_of (by simp) (by decide +kernel) (by norm_num))
    (isUnit_of (by simp) (by decide +kernel) (by norm_num)) (by decide) (by decide) (by norm_num) (by norm_num) (hr c hc)
  have e1 : showExpr [⟨1, c! "kg", 1⟩, ⟨1, c! "m", 1⟩, ⟨1, c! "s", -2⟩] = c! "kg m s^-2" := by decide +kernel
  have e2 : showExpr [⟨1, c! "N", 1⟩] = c! "N" := by decide +kernel
  rw [e1, e2] at this
  exact this

end Eprem.Metric
