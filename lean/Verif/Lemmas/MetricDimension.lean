import Verif.Model.MetricDimension
import Verif.Spec.Dimension
import Verif.Lemmas.Halves
import Verif.Lemmas.MetricSize
import Verif.Props.MetricNames

/-! # Lemmas for the dimension of a unit -/

namespace Eprem.Metric

open Eprem Eprem.Symbolic

/-- the canonical unit of the quantity of every base unit, in each system, is not `cd` unless the base unit is the
candela or the lumen -/
theorem canonical_cd : ∀ s ∈ [System.mks, System.cgs], unitsOf s c! "time" = .ok c! "s" := by decide +kernel

/-- a unit is defined in a system exactly when it has the same base unit as the canonical unit of its quantity -/
theorem isDefinedIn_eq {n : Name} {e : Entry} (h : named n = some e) (s : System) :
    isDefinedIn e s = match unitsOf s e.base.quantity with
      | .error x => .error x
      | .ok can => .ok (decide (∃ r, named can = some r ∧ e.base = r.base)) := by
  obtain ⟨p, hp, hn, rfl⟩ := named_mem h
  unfold isDefinedIn isFundamentalIn
  cases hu : unitsOf s p.2.base.quantity with
  | error x => simp [bind, Except.bind]
  | ok can =>
    simp only [bind, Except.bind, pure, Except.pure]
    by_cases hf : p.2.symbol = can ∨ p.2.name = can
    · have hcan : can ∈ p.1 := by
        rcases hf with hf | hf
        · rw [← hf]; exact (symbol_name_mem p hp).1
        · rw [← hf]; exact (symbol_name_mem p hp).2
      have hnc : ∃ r, named can = some r ∧ p.2.base = r.base := by
        by_cases hcd : can = c! "cd"
        · subst hcd
          rcases cd_entries p hp hcan with h' | h'
          · rw [h'] at hu
            have := canonical_cd s (by cases s <;> simp)
            have hq : centiday.base.quantity = c! "time" := by decide
            rw [hq, this] at hu
            cases hu
          · exact ⟨_, named_cd, by rw [h']⟩
        · exact ⟨_, named_table p hp can hcan hcd, rfl⟩
      simp [hf, hnc]
    · simp only [hf, decide_false, Bool.false_eq_true, if_false]
      cases hc : named can with
      | none => simp
      | some r => simp

/-- the unscaled unit of an entry -/
def bare (e : Entry) : Entry := ⟨basePrefix, e.base⟩

theorem base_mem {n : Name} {e : Entry} (h : named n = some e) : e.base ∈ baseUnits := by
  obtain ⟨p, hp, _, rfl⟩ := named_mem h
  obtain ⟨u, hu, hp⟩ := List.mem_flatMap.1 hp
  unfold unitItems at hp
  split at hp
  · simp only [List.mem_singleton] at hp; rw [hp]; exact hu
  · obtain ⟨q, _, hq⟩ := List.mem_map.1 hp
    split at hq <;> (rw [← hq]; exact hu)

set_option maxHeartbeats 100000000 in
theorem named_base : ∀ u ∈ baseUnits, named u.symbol = some ⟨basePrefix, u⟩ := by decide +kernel

theorem isDefinedIn_bare {n : Name} {e : Entry} (h : named n = some e) (s : System) :
    isDefinedIn e s = isDefinedIn (bare e) s := by
  rw [isDefinedIn_eq h, isDefinedIn_eq (e := bare e) (named_base _ (base_mem h))]; rfl

theorem allowedIn_bare {n : Name} {e : Entry} (h : named n = some e) : allowedIn e = allowedIn (bare e) := by
  unfold allowedIn; rw [isDefinedIn_bare h, isDefinedIn_bare h]

theorem dimensions_bare {n : Name} {e : Entry} (h : named n = some e) (s : System) :
    dimensions e s = dimensions (bare e) s := by
  unfold dimensions; rw [isDefinedIn_bare h, isDefinedIn_bare h]; rfl

/-- what the loop looks up for a unit -/
def lookedUp (s : System) (e : Entry) : Except MErr (Bool × List Term) :=
  match allowedIn e with
  | .error err => .error err
  | .ok (m, c) =>
    match dimensions e (if m = true ∧ c = true then s else if m = true then .mks else .cgs) with
    | .error err => .error err
    | .ok none => .error .value
    | .ok (some d) => .ok ((match s with | .mks => m | .cgs => c), d)

theorem dimensionLoop_cons (s : System) (t : Term) (rest x : List Term) (found : Bool) :
    dimensionLoop s (t :: rest) x found = match namedUnit t.base with
      | .error err => .error err
      | .ok e => match lookedUp s e with
        | .error err => .error err
        | .ok (b, d) => match exprPow d t.exp with
          | .error err => .error (.symbolic err)
          | .ok p => match exprMul x p with
            | .error err => .error (.symbolic err)
            | .ok x' => dimensionLoop s rest x' (found || b) := by
  conv => lhs; unfold dimensionLoop
  unfold lookedUp
  cases namedUnit t.base with
  | error err => rfl
  | ok e =>
    simp only
    cases allowedIn e with
    | error err => rfl
    | ok mc =>
      obtain ⟨m, c⟩ := mc
      simp only
      cases dimensions e (if m = true ∧ c = true then s else if m = true then .mks else .cgs) with
      | error err => rfl
      | ok d => cases d <;> rfl

/-- the terms of a dimension, in the specification -/
def specTerms (d : DimExp) : List Term := d.map (fun p => ⟨1, p.1, p.2⟩)

def okRow (s : System) (u : BaseUnit) : Bool :=
  match lookedUp s ⟨basePrefix, u⟩ with
  | .error _ => false
  | .ok (b, d) => decide (b = (dimIn s u.symbol).isSome) &&
      decide (d = [⟨1, one, 1⟩] ∧ dimOf s u.symbol = [] ∨ d.Perm (specTerms (dimOf s u.symbol)))

set_option maxHeartbeats 100000000 in
theorem okRows : ∀ s ∈ [System.mks, System.cgs], ∀ u ∈ baseUnits, u.symbol ≠ c! "Ω" → u.symbol ≠ c! "lx" →
    okRow s u = true := by decide +kernel

def specRow (d : DimExp) : Bool :=
  decide ((d.map Prod.fst).Nodup) && d.all (fun p => decide (p.2 ≠ 0 ∧ (2 * p.2).den = 1 ∧ |(2 * p.2).num| ≤ 8 ∧ p.1 ∈ baseDims))

theorem specRows : ∀ s ∈ [System.mks, System.cgs], ∀ u ∈ baseUnits, specRow (dimOf s u.symbol) = true := by decide +kernel

theorem baseDims_valid : ∀ b ∈ baseDims, ValidName b := by
  have h : ∀ b ∈ baseDims, b ≠ [] ∧ (∀ x ∈ b, isLetter x = true) ∧ ¬ ['s', 'q', 'r', 't'] <+: b := by decide +kernel
  intro b hb
  obtain ⟨h1, h2, h3⟩ := h b hb
  exact ⟨b, [], by simp, h1, h2, by simp, h3⟩

theorem specTerms_value (ρ : Name → ℝ) (d : DimExp) (h : ∀ p ∈ d, p.1 ∈ baseDims) :
    value ρ (specTerms d) = dimValue ρ d := by
  unfold specTerms dimValue value
  rw [List.map_map]
  congr 1
  refine List.map_congr_left ?_
  intro p hp
  have : p.1 ≠ one := by
    intro he
    have := h p hp
    rw [he] at this
    revert this; decide
  simp [Term.val, this]

theorem value_perm {ρ : Name → ℝ} {a b : List Term} (h : a.Perm b) : value ρ a = value ρ b := by
  unfold value; exact (h.map _).prod_eq

/-- what the loop looks up is the specified dimension -/
theorem lookedUp_spec {n : Name} {e : Entry} (h : named n = some e) (s : System) (hΩ : e.base.symbol ≠ c! "Ω")
    (hlx : e.base.symbol ≠ c! "lx") : ∃ d, lookedUp s e = .ok ((dimIn s e.base.symbol).isSome, d) ∧ Halves d ∧
      (∀ t ∈ d, ∃ z : ℤ, t.exp = z / 2 ∧ |z| ≤ 8) ∧ ∀ ρ, value ρ d = dimValue ρ (dimOf s e.base.symbol) := by
  have hs : s ∈ [System.mks, System.cgs] := by cases s <;> simp
  have hb := base_mem h
  have h1 := okRows s hs _ hb hΩ hlx
  have h2 := specRows s hs _ hb
  have heq : lookedUp s e = lookedUp s ⟨basePrefix, e.base⟩ := by
    unfold lookedUp
    rw [allowedIn_bare h]
    simp only [dimensions_bare h]
    rfl
  unfold okRow at h1
  rw [heq]
  cases hl : lookedUp s ⟨basePrefix, e.base⟩ with
  | error err => rw [hl] at h1; cases h1
  | ok bd =>
    obtain ⟨b, d⟩ := bd
    rw [hl] at h1
    simp only [Bool.and_eq_true, decide_eq_true_eq] at h1
    obtain ⟨hb', hd⟩ := h1
    simp only [specRow, Bool.and_eq_true, decide_eq_true_eq, List.all_eq_true] at h2
    obtain ⟨hnd, hall⟩ := h2
    refine ⟨d, by rw [hb'], ?_⟩
    rcases hd with ⟨rfl, hd⟩ | hd
    · refine ⟨⟨by simp, by simp, ?_, ?_⟩, ?_, ?_⟩
      · intro t ht; simp only [List.mem_singleton] at ht; subst ht; exact ⟨⟨2, by norm_num⟩, one_ne_zero⟩
      · intro t ht; simp only [List.mem_singleton] at ht; subst ht; exact Or.inr ⟨rfl, rfl⟩
      · intro t ht; simp only [List.mem_singleton] at ht; subst ht; exact ⟨2, by norm_num, by norm_num⟩
      · intro ρ; rw [hd]; simp [value, dimValue, Term.val]
    · have key : ∀ t ∈ d, ∃ p ∈ dimOf s e.base.symbol, t = ⟨1, p.1, p.2⟩ := by
        intro t ht
        obtain ⟨p, hp, rfl⟩ := List.mem_map.1 (hd.mem_iff.1 ht)
        exact ⟨p, hp, rfl⟩
      have half : ∀ q : ℚ, (2 * q).den = 1 → q = ((2 * q).num : ℤ) / 2 := by
        intro q hq
        have := Rat.num_div_den (2 * q)
        rw [hq] at this
        have h3 : ((2 * q).num : ℚ) = 2 * q := by rw [← this]; simp
        rw [h3]; ring
      have hne : d ≠ [] := by
        rintro rfl
        have h0 := hd.symm.eq_nil
        have hl' := hl
        have hx : ∀ s ∈ [System.mks, System.cgs], ∀ u ∈ baseUnits, (match lookedUp s ⟨basePrefix, u⟩ with
          | .ok (_, []) => false | _ => true) = true := by decide +kernel
        have := hx s hs _ hb
        rw [hl] at this
        cases this
      refine ⟨⟨hne, ?_, ?_, ?_⟩, ?_, ?_⟩
      · intro t ht; obtain ⟨p, _, rfl⟩ := key t ht; rfl
      · intro t ht; obtain ⟨p, hp, rfl⟩ := key t ht
        exact ⟨⟨_, half _ (hall p hp).2.1⟩, (hall p hp).1⟩
      · intro t ht; obtain ⟨p, hp, rfl⟩ := key t ht
        exact Or.inl (baseDims_valid _ (hall p hp).2.2.2)
      · intro t ht; obtain ⟨p, hp, rfl⟩ := key t ht
        exact ⟨_, half _ (hall p hp).2.1, (hall p hp).2.2.1⟩
      · intro ρ
        rw [value_perm hd, specTerms_value _ _ (fun p hp => (hall p hp).2.2.2)]

theorem dimensionLoop_spec (s : System) : ∀ (u x : List Term) (found : Bool), Halves x →
    (∀ t ∈ u, ∃ e, ∃ z : ℤ, named t.base = some e ∧ e.base.symbol ≠ c! "Ω" ∧ e.base.symbol ≠ c! "lx" ∧ t.exp = z ∧ z ≠ 0 ∧
      |z| < 2 ^ 49) →
    ∃ d, dimensionLoop s u x found = .ok (d, found || u.any (fun t => match named t.base with
        | some e => (dimIn s e.base.symbol).isSome
        | none => false)) ∧
      ∀ ρ, Positive ρ → value ρ d = value ρ x * (u.map (fun t => match named t.base with
        | some e => dimValue ρ (dimOf s e.base.symbol) ^ (t.exp : ℝ)
        | none => 1)).prod
  | [], x, found, hx, _ => ⟨x, by simp [dimensionLoop], fun ρ _ => by simp⟩
  | t :: u, x, found, hx, hu => by
    obtain ⟨e, z, hn, hΩ, hlx, hz, hz0, hzb⟩ := hu t (by simp)
    obtain ⟨d, hd, hh, hb, hv⟩ := lookedUp_spec hn s hΩ hlx
    obtain ⟨p, hp, hph, hpv⟩ := halves_pow hh hz0 (by
      intro w hw
      obtain ⟨y, hy, hyb⟩ := hb w hw
      refine ⟨y, hy, ?_⟩
      rw [abs_mul]
      have := abs_nonneg z
      nlinarith)
    obtain ⟨x', hx', hxh, hxv⟩ := halves_mul hx hph
    obtain ⟨r, hr, hrv⟩ := dimensionLoop_spec s u x' (found || (dimIn s e.base.symbol).isSome) hxh
      (fun w hw => hu w (by simp [hw]))
    refine ⟨r, ?_, ?_⟩
    · rw [dimensionLoop_cons]
      have : namedUnit t.base = .ok e := by unfold namedUnit; rw [hn]
      simp only [this, hd, hz, hp, hx', hr]
      simp [hn, Bool.or_assoc]
    · intro ρ hρ
      rw [hrv ρ hρ, hxv ρ hρ, hpv ρ hρ, hv ρ, List.map_cons, List.prod_cons, hn, hz]
      simp only [Rat.cast_intCast, Real.rpow_intCast]
      ring

end Eprem.Metric
