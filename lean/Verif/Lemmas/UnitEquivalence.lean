import Verif.Model.UnitEquivalence
import Verif.Props.UnitProducts
import Verif.Props.MetricDimension

/-! # Lemmas for the comparison of units -/

namespace Eprem.Metric

open Eprem Eprem.Symbolic

/-! ### the decomposition of a unit, term by term -/

/-- the definition of a unit, if it is a derived unit, raised to a power -/
def expandTerm (t : Term) : List Term :=
  match derivedUnits.find? (fun p => decide (p.1 = t.base)) with
  | none => [t]
  | some p => p.2.map (fun q => ⟨1, q.1, q.2 * t.exp⟩)

/-- a unit in terms of units that are not derived -/
def expandUnit (u : List Term) : List Term := u.flatMap expandTerm

set_option maxHeartbeats 100000000 in
theorem keepsItself_table : ∀ p ∈ namedTable, baseIsValid p.2.symbol = true → p.2.base.symbol ≠ c! "lx" →
    ∀ o ∈ Orders, (match decomposed p.2 o with
      | .ok (some ts) => decide (ts = [⟨1, p.2.symbol, 1⟩])
      | _ => true) = true → derivedUnits.find? (fun q => decide (q.1 = p.2.symbol)) = none := by decide +kernel

set_option maxHeartbeats 100000000 in
theorem not_ohm_table : ∀ p ∈ namedTable, baseIsValid p.2.symbol = true → p.2.base.symbol ≠ c! "Ω" := by decide +kernel

theorem derived_keys : (derivedUnits.map Prod.fst).Nodup := by decide +kernel

theorem derived_flat : ∀ p ∈ derivedUnits, ∀ q ∈ p.2,
    derivedUnits.find? (fun r => decide (r.1 = q.1)) = none ∧ q.1 ≠ one ∧ |q.2| ≤ 4 := by decide +kernel

theorem derived_length : ∀ p ∈ derivedUnits, p.2.length ≤ 4 ∧ p.1 ≠ one := by decide +kernel

theorem derived_find {p : Name × List (Name × ℚ)} (hp : p ∈ derivedUnits) :
    derivedUnits.find? (fun r => decide (r.1 = p.1)) = some p := by
  have : ∀ p ∈ derivedUnits, derivedUnits.find? (fun r => decide (r.1 = p.1)) = some p := by decide +kernel
  exact this p hp

theorem decomposeTerm_form {o : List System} (ho : o ∈ Orders) {d : ℕ} {t : Term} (ht : UnitTerm d t) :
    ∃ ts, decomposeTerm o t = .ok ts ∧ ts.Perm (expandTerm t) := by
  obtain ⟨e, hs, hl⟩ := ht.symbol
  have hok := okD hs hl ho
  have hself : (match decomposed e o with
      | .ok (some ts) => decide (ts = [⟨1, e.symbol, 1⟩])
      | _ => true) = true → expandTerm t = [t] := by
    intro h
    obtain ⟨h1, h2, h3⟩ := hs
    obtain ⟨p, hp, _, rfl⟩ := named_mem h1
    have := keepsItself_table p hp (by rw [h2]; exact h3) hl o ho h
    unfold expandTerm
    rw [h2] at this
    rw [this]
  unfold decomposeTerm
  rw [hs.1]
  simp only
  unfold okDecomposed at hok
  cases hdec : decomposed e o with
  | error x =>
    rw [hdec] at hok hself
    have := hself rfl
    cases x <;> first
      | exact ⟨[t], rfl, by rw [this]⟩
      | (exfalso; revert hok; simp)
  | ok r =>
    cases r with
    | none =>
      rw [hdec] at hself
      exact ⟨[t], rfl, by rw [hself rfl]⟩
    | some ts =>
      rw [hdec] at hok hself
      simp only at hok ⊢
      rw [Bool.or_eq_true] at hok
      have hb : t.base ≠ [] := by
        intro h0; have := hs.2.2; rw [h0] at this; simp [baseIsValid, one] at this
      rcases hok with hok | hok
      · have hts := of_decide_eq_true hok
        have hte : (⟨1, t.base, 1 * t.exp⟩ : Term) = t := by
          have := ht.coeff
          cases t; simp_all
        refine ⟨[t], ?_, by rw [hself hok]⟩
        rw [hts, hs.2.1, mapTerms_eq (g := fun x => ⟨1, x.base, x.exp * t.exp⟩)]
        · simp only [List.map_cons, List.map_nil, hte, ofSym]
        · intro x hx
          rw [List.mem_singleton] at hx
          subst hx
          exact term_pow_one (x := ⟨1, t.base, 1⟩) rfl hb one_ne_zero ht.exp.2
      · simp only [Bool.and_eq_true, decide_eq_true_eq, List.all_eq_true, List.any_eq_true] at hok
        obtain ⟨⟨hne, hall⟩, p, hp, hp1, hp2⟩ := hok
        have hterm : ∀ x ∈ ts, x.coeff = 1 ∧ (2 * x.exp).den = 1 ∧ x.exp ≠ 0 ∧ asSymbol x = .ok x ∧ x.base ≠ one ∧
            (named x.base).map (fun e => e.base.symbol) ≠ some (c! "lx") := by
          intro x hx
          have := hall x hx
          unfold okTerm at this
          exact of_decide_eq_true this
        have hbne : ∀ x ∈ ts, x.base ≠ [] := by
          intro x hx h0
          obtain ⟨e, he⟩ := (asSymbol_iff (hterm x hx).1 (hterm x hx).2.2.1).1 (hterm x hx).2.2.2.1
          have := he.2.2; rw [h0] at this; simp [baseIsValid, one] at this
        refine ⟨ts.map (fun x => ⟨1, x.base, x.exp * t.exp⟩), ?_, ?_⟩
        · rw [mapTerms_eq (g := fun x => ⟨1, x.base, x.exp * t.exp⟩)]
          · rfl
          · intro x hx
            exact term_pow_one (hterm x hx).1 (hbne x hx) (hterm x hx).2.2.1 ht.exp.2
        · have hf := derived_find hp
          rw [hp1, hs.2.1] at hf
          unfold expandTerm
          rw [hf]
          have := (hp2.symm.map (fun x : Term => (⟨1, x.base, x.exp * t.exp⟩ : Term)))
          rw [List.map_map] at this
          exact this

theorem decomposeTerms_form {o : List System} (ho : o ∈ Orders) {d : ℕ} : ∀ {u : List Term}, (∀ t ∈ u, UnitTerm d t) →
    ∃ ts, decomposeTerms o u = .ok ts ∧ ts.Perm (expandUnit u)
  | [], _ => ⟨[], rfl, by simp [expandUnit]⟩
  | t :: u, h => by
    obtain ⟨ps, p1, p2⟩ := decomposeTerm_form ho (h t (by simp))
    obtain ⟨qs, q1, q2⟩ := decomposeTerms_form ho (fun x hx => h x (List.mem_cons_of_mem _ hx))
    refine ⟨ps ++ qs, ?_, ?_⟩
    · unfold decomposeTerms
      rw [p1]; simp only; rw [q1]
    · unfold expandUnit at q2 ⊢
      rw [List.flatMap_cons]
      exact p2.append q2

theorem expandTerm_ne {d : ℕ} {t : Term} (ht : UnitTerm d t) : expandTerm t ≠ [] := by
  unfold expandTerm
  cases h : derivedUnits.find? (fun p => decide (p.1 = t.base)) with
  | none => simp
  | some p =>
    have hp := List.mem_of_find?_eq_some h
    have : ∀ p ∈ derivedUnits, p.2 ≠ [] := by decide +kernel
    simpa using this p hp

theorem expandTerm_mem {d : ℕ} {t x : Term} (ht : UnitTerm d t) (hx : x ∈ expandTerm t) :
    x.coeff = 1 ∧ (x.base = one → x.exp = 1) ∧ x.base ≠ [] ∧ x.exp ≠ 0 ∧
      derivedUnits.find? (fun p => decide (p.1 = x.base)) = none := by
  unfold expandTerm at hx
  cases h : derivedUnits.find? (fun p => decide (p.1 = t.base)) with
  | none =>
    rw [h] at hx
    rw [List.mem_singleton] at hx
    subst hx
    obtain ⟨e, hs, _⟩ := ht.symbol
    refine ⟨ht.coeff, ht.number, ?_, ht.exp.2, h⟩
    intro h0; have := hs.2.2; rw [h0] at this; simp [baseIsValid, one] at this
  | some p =>
    rw [h] at hx
    obtain ⟨q, hq, rfl⟩ := List.mem_map.1 hx
    have hp := List.mem_of_find?_eq_some h
    obtain ⟨h1, h2, _⟩ := derived_flat p hp q hq
    have h3 : ∀ p ∈ derivedUnits, ∀ q ∈ p.2, q.1 ≠ [] ∧ q.2 ≠ 0 := by decide +kernel
    exact ⟨rfl, fun h => absurd h h2, (h3 p hp q hq).1, mul_ne_zero (h3 p hp q hq).2 ht.exp.2, h1⟩

theorem expandUnit_mem {d : ℕ} {u : List Term} (hu : UnitTerms d u) {x : Term} (hx : x ∈ expandUnit u) :
    x.coeff = 1 ∧ (x.base = one → x.exp = 1) ∧ x.base ≠ [] ∧ x.exp ≠ 0 ∧
      derivedUnits.find? (fun p => decide (p.1 = x.base)) = none := by
  obtain ⟨t, ht, hxt⟩ := List.mem_flatMap.1 hx
  exact expandTerm_mem (hu.terms t ht) hxt

theorem expandUnit_ne {d : ℕ} {u : List Term} (hu : UnitTerms d u) : expandUnit u ≠ [] := by
  obtain ⟨t, ht⟩ := List.exists_mem_of_ne_nil _ hu.nonempty
  obtain ⟨x, hx⟩ := List.exists_mem_of_ne_nil _ (expandTerm_ne (hu.terms t ht))
  intro h
  have : x ∈ expandUnit u := List.mem_flatMap.2 ⟨t, ht, hx⟩
  rw [h] at this; simp at this

theorem expand_value {ρ : Name → ℝ} (hρ : CoherentSizes ρ) {d : ℕ} {t : Term} (ht : UnitTerm d t) :
    value ρ (expandTerm t) = t.val ρ := by
  unfold expandTerm
  cases h : derivedUnits.find? (fun p => decide (p.1 = t.base)) with
  | none => simp [value]
  | some p =>
    have hp := List.mem_of_find?_eq_some h
    have hb : p.1 = t.base := by simpa using List.find?_some h
    have hv := coherent_value hρ hp hb (List.Perm.refl _) (by
      intro x hx
      obtain ⟨q, hq, rfl⟩ := List.mem_map.1 hx
      exact (derived_flat p hp q hq).2.1)
    have hpw := value_pow hρ.pos t.exp (p.2.map (fun q => (⟨1, q.1, q.2⟩ : Term)))
      (by intro x hx; obtain ⟨q, _, rfl⟩ := List.mem_map.1 hx; rfl)
    rw [List.map_map, hv] at hpw
    have h1 : t.base ≠ one := hb ▸ (derived_length p hp).2
    simp only
    refine Eq.trans hpw ?_
    unfold Term.val
    rw [ht.coeff, if_neg h1]
    simp

theorem expandUnit_value {ρ : Name → ℝ} (hρ : CoherentSizes ρ) {d : ℕ} : ∀ {u : List Term}, (∀ t ∈ u, UnitTerm d t) →
    value ρ (expandUnit u) = value ρ u
  | [], _ => by simp [expandUnit]
  | t :: u, h => by
    have ih := expandUnit_value hρ (u := u) (fun x hx => h x (List.mem_cons_of_mem _ hx))
    unfold expandUnit at ih ⊢
    rw [List.flatMap_cons, value_append, ih, expand_value hρ (h t (by simp))]
    simp [value]

/-- the decomposition of a unit is the reduced form of its expansion -/
theorem decompose_reduce {o : List System} (ho : o ∈ Orders) {d : ℕ} {u : List Term} (hu : UnitTerms d u) :
    decomposeUnit' o u = ofSym (reduce (expandUnit u)) := by
  obtain ⟨ts, h1, h2⟩ := decomposeTerms_form ho hu.terms
  unfold decomposeUnit'
  rw [h1]
  simp only
  congr 1
  have hb : ∀ t ∈ expandUnit u, t.base ≠ [] := fun t ht => (expandUnit_mem hu ht).2.2.1
  have hne := expandUnit_ne hu
  refine reduce_congr ?_ hne (fun t ht => hb t (h2.mem_iff.1 ht)) hb (coefOf_perm h2) (fun x _ => expOf_perm x h2)
  intro h0
  rw [h0] at h2
  exact hne (List.nil_perm.1 h2)

/-! ### sizes that make one unit twice as large -/

/-- Sizes of all units from sizes of the units that are not derived. -/
noncomputable def extendSizes (σ : Name → ℝ) (n : Name) : ℝ :=
  match derivedUnits.find? (fun p => decide (p.1 = n)) with
  | none => σ n
  | some p => (p.2.map (fun q => σ q.1 ^ (q.2 : ℝ))).prod

theorem extendSizes_coherent {σ : Name → ℝ} (hσ : ∀ n, 0 < σ n) : CoherentSizes (extendSizes σ) := by
  have hin : ∀ p ∈ derivedUnits, ∀ q ∈ p.2, extendSizes σ q.1 = σ q.1 := by
    intro p hp q hq
    unfold extendSizes
    rw [(derived_flat p hp q hq).1]
  constructor
  · intro n
    unfold extendSizes
    cases derivedUnits.find? (fun p => decide (p.1 = n)) with
    | none => exact hσ n
    | some p =>
      apply List.prod_pos
      intro x hx
      obtain ⟨q, _, rfl⟩ := List.mem_map.1 hx
      exact Real.rpow_pos_of_pos (hσ _) _
  · intro p hp
    have h1 : extendSizes σ p.1 = (p.2.map (fun q => σ q.1 ^ (q.2 : ℝ))).prod := by
      unfold extendSizes
      rw [derived_find hp]
    rw [h1]
    congr 1
    refine List.map_congr_left ?_
    intro q hq
    rw [hin p hp q hq]

theorem value_two (b : Name) (hb : b ≠ one) {ρ : Name → ℝ} (hρ : ρ b = 2) : ∀ (ts : List Term),
    (∀ t ∈ ts, t.coeff = 1) → (∀ t ∈ ts, t.base ≠ b → t.base ≠ one → ρ t.base = 1) →
    value ρ ts = (2 : ℝ) ^ ((expOf b ts : ℚ) : ℝ)
  | [], _, _ => by simp [value]
  | t :: ts, hc, h1 => by
    have ih := value_two b hb hρ ts (fun u hu => hc u (by simp [hu])) (fun u hu => h1 u (by simp [hu]))
    have e : value ρ (t :: ts) = t.val ρ * value ρ ts := by simp [value]
    rw [e, ih, expOf_cons]
    push_cast
    rw [Real.rpow_add (by norm_num)]
    congr 1
    unfold Term.val
    rw [hc t (by simp)]
    by_cases h2 : t.base = b
    · have : t.base ≠ one := h2 ▸ hb
      rw [if_neg this, if_pos h2, h2, hρ]; simp
    · rw [if_neg h2]
      by_cases h3 : t.base = one
      · rw [if_pos h3]; simp
      · rw [if_neg h3, h1 t (by simp) h2 h3]; simp

theorem two_rpow_inj {x y : ℚ} (h : (2 : ℝ) ^ (x : ℝ) = (2 : ℝ) ^ (y : ℝ)) : x = y := by
  have := (Real.rpow_right_inj (x := 2) (by norm_num) (by norm_num)).1 h
  exact_mod_cast this

/-- units that have the same size for every assignment of sizes have the same decomposition -/
theorem decompose_congr {o : List System} (ho : o ∈ Orders) {d : ℕ} {a b : List Term} (ha : UnitTerms d a)
    (hb : UnitTerms d b) (h : ∀ ρ, CoherentSizes ρ → value ρ a = value ρ b) :
    decomposeUnit' o a = decomposeUnit' o b := by
  rw [decompose_reduce ho ha, decompose_reduce ho hb]
  congr 1
  have hca : ∀ t ∈ expandUnit a, t.coeff = 1 := fun t ht => (expandUnit_mem ha ht).1
  have hcb : ∀ t ∈ expandUnit b, t.coeff = 1 := fun t ht => (expandUnit_mem hb ht).1
  refine reduce_congr (expandUnit_ne ha) (expandUnit_ne hb) (fun t ht => (expandUnit_mem ha ht).2.2.1)
    (fun t ht => (expandUnit_mem hb ht).2.2.1) ?_ ?_
  · rw [coefOf_one hca, coefOf_one hcb]
  · intro x hx
    cases hxd : derivedUnits.find? (fun p => decide (p.1 = x)) with
    | some p =>
      have hp : p.1 = x := by simpa using List.find?_some hxd
      have hno : ∀ {u : List Term}, UnitTerms d u → x ∉ (expandUnit u).map Term.base := by
        intro u hu hm
        obtain ⟨t, ht, rfl⟩ := List.mem_map.1 hm
        rw [(expandUnit_mem hu ht).2.2.2.2] at hxd
        cases hxd
      rw [expOf_of_not_mem _ _ (hno ha), expOf_of_not_mem _ _ (hno hb)]
    | none =>
      let σ : Name → ℝ := fun n => if n = x then 2 else 1
      have hσ : ∀ n, 0 < σ n := by intro n; simp only [σ]; split <;> norm_num
      have hρ := extendSizes_coherent hσ
      have hx2 : extendSizes σ x = 2 := by
        unfold extendSizes; rw [hxd]; simp [σ]
      have ho : ∀ {u : List Term}, UnitTerms d u → ∀ t ∈ expandUnit u, t.base ≠ x → t.base ≠ one →
          extendSizes σ t.base = 1 := by
        intro u hu t ht h1 _
        unfold extendSizes
        rw [(expandUnit_mem hu ht).2.2.2.2]
        simp [σ, h1]
      have := h _ hρ
      rw [← expandUnit_value hρ ha.terms, ← expandUnit_value hρ hb.terms, value_two x hx hx2 _ hca (ho ha),
        value_two x hx hx2 _ hcb (ho hb)] at this
      exact two_rpow_inj this

/-! ### dimensions -/

/-- The exponent of a base dimension in the dimension of a unit. -/
def dimExponent (s : System) (x : Name) (u : List Term) : ℚ :=
  (u.map (fun t => t.exp * (dimOf s (baseOf t.base)).exponent x)).sum

theorem dimValue_two (x : Name) : ∀ d : DimExp,
    dimValue (fun n => if n = x then 2 else 1) d = (2 : ℝ) ^ ((d.exponent x : ℚ) : ℝ)
  | [] => by simp [dimValue, DimExp.exponent]
  | p :: d => by
    have ih := dimValue_two x d
    unfold dimValue DimExp.exponent at ih ⊢
    rw [List.map_cons, List.prod_cons, ih]
    by_cases h : p.1 = x
    · simp only [h, if_true]
      rw [List.filter_cons_of_pos (by simpa using h), List.map_cons, List.sum_cons]
      push_cast
      rw [Real.rpow_add (by norm_num)]
    · simp only [h, if_false]
      rw [List.filter_cons_of_neg (by simpa using h)]
      simp

/-- sizes of units that count the exponent of a base dimension -/
noncomputable def dimSizes (s : System) (x : Name) (n : Name) : ℝ := (2 : ℝ) ^ (((dimOf s (baseOf n)).exponent x : ℚ) : ℝ)

/-- the base unit that a name refers to, looked up in the table -/
def baseName (n : Name) : Name := match named n with | some e => e.base.symbol | none => n

theorem baseOf_eq (n : Name) : baseOf n = baseName n := by
  unfold baseOf baseName
  have h := c22_lookup n
  cases hn : named n with
  | none => rw [hn] at h; rw [h]; rfl
  | some e => rw [hn] at h; rw [h]; rfl

set_option maxHeartbeats 100000000 in
theorem derived_dims : ∀ p ∈ derivedUnits, ∀ s ∈ [System.mks, .cgs], ∀ x ∈ baseDims,
    (dimOf s (baseName p.1)).exponent x = (p.2.map (fun q => q.2 * (dimOf s (baseName q.1)).exponent x)).sum := by
  decide +kernel

theorem prod_two_rpow {α : Type} (l : List α) (f : α → ℚ) :
    (l.map (fun q => (2 : ℝ) ^ ((f q : ℚ) : ℝ))).prod = (2 : ℝ) ^ (((l.map f).sum : ℚ) : ℝ) := by
  induction l with
  | nil => simp
  | cons a l ih =>
    rw [List.map_cons, List.prod_cons, ih, List.map_cons, List.sum_cons]
    push_cast
    rw [Real.rpow_add (by norm_num)]

theorem dimSizes_coherent (s : System) {x : Name} (hx : x ∈ baseDims) : CoherentSizes (dimSizes s x) := by
  constructor
  · intro n; unfold dimSizes; exact Real.rpow_pos_of_pos (by norm_num) _
  · intro p hp
    have h := derived_dims p hp s (by cases s <;> simp) x hx
    have e : ∀ q : Name × ℚ, dimSizes s x q.1 ^ (q.2 : ℝ) =
        (2 : ℝ) ^ ((q.2 * (dimOf s (baseName q.1)).exponent x : ℚ) : ℝ) := by
      intro q
      unfold dimSizes
      rw [← Real.rpow_mul (by norm_num), baseOf_eq]
      push_cast
      rw [mul_comm]
    simp only [e]
    rw [prod_two_rpow, ← h]
    unfold dimSizes
    rw [baseOf_eq]

theorem value_dimSizes (s : System) (x : Name) : ∀ {u : List Term}, (∀ t ∈ u, t.coeff = 1) →
    value (dimSizes s x) u = (2 : ℝ) ^ ((dimExponent s x u : ℚ) : ℝ)
  | [], _ => by simp [value, dimExponent]
  | t :: u, h => by
    have ih := value_dimSizes s x (u := u) (fun v hv => h v (by simp [hv]))
    have e : value (dimSizes s x) (t :: u) = t.val (dimSizes s x) * value (dimSizes s x) u := by simp [value]
    rw [e, ih]
    unfold dimExponent
    rw [List.map_cons, List.sum_cons, Rat.cast_add, Real.rpow_add (by norm_num)]
    congr 1
    unfold Term.val
    rw [h t (by simp)]
    split
    next hb =>
      have h1 : (dimOf s (baseOf one)).exponent x = 0 := by
        rw [baseOf_eq]
        have hn : baseName one = c! "1" := by decide +kernel
        have : ∀ s ∈ [System.mks, .cgs], dimOf s (c! "1") = [] := by decide +kernel
        rw [hn, this s (by cases s <;> simp)]; rfl
      rw [hb, h1]; simp
    · unfold dimSizes
      rw [← Real.rpow_mul (by norm_num)]
      push_cast
      simp only [one_mul]
      rw [mul_comm]

/-- units with integral exponents that a double can hold -/
def SmallIntegers (u : List Term) : Prop := ∀ t ∈ u, |t.exp| < 2 ^ 49

theorem dimension_hyps {u : List Term} (hu : UnitTerms 1 u) (hs : SmallIntegers u) :
    ∀ t ∈ u, (∃ e, namedUnits.getItem t.base = .ok e) ∧ baseOf t.base ≠ c! "Ω" ∧ baseOf t.base ≠ c! "lx" ∧
      ∃ z : ℤ, t.exp = z ∧ z ≠ 0 ∧ |z| < 2 ^ 49 := by
  intro t ht
  have h := hu.terms t ht
  obtain ⟨e, ⟨h1, h2, h3⟩, hl⟩ := h.symbol
  have hb := baseOf_named h1
  obtain ⟨z, hz⟩ := h.exp.1
  have hz' : t.exp = z := by rw [hz]; simp
  refine ⟨found_of_named _ (by rw [h1]; rfl), ?_, by rw [hb]; exact hl, z, hz', ?_, ?_⟩
  · rw [hb]
    obtain ⟨p, hp, _, rfl⟩ := named_mem h1
    exact not_ohm_table p hp (by rw [h2]; exact h3)
  · intro h0
    have := h.exp.2
    rw [hz', h0] at this
    exact this (by simp)
  · have := hs t ht
    rw [hz'] at this
    exact_mod_cast this

/-- an expression that equals one has no symbols -/
theorem isDimensionOne_value {d : List Term} (h : isDimensionOne (some d) = true) (ρ : Name → ℝ) :
    value ρ d = value (fun _ => 1) d := by
  have hb : ∀ t ∈ d, t.base = one := by
    intro t ht
    obtain ⟨u, hu, hub⟩ := exprEq_mem h ht
    rw [List.mem_singleton] at hu
    rw [← hub, hu]; rfl
  unfold value
  congr 1
  refine List.map_congr_left ?_
  intro t ht
  unfold Term.val
  rw [if_pos (hb t ht), if_pos (hb t ht)]

theorem unitDimension_ok (s : System) {u : List Term} (hu : UnitTerms 1 u) (hs : SmallIntegers u) :
    ∃ r, unitDimension s u = .ok r ∧ (isDimensionOne r = true → ∀ x, dimExponent s x u = 0) := by
  have hyp := dimension_hyps hu hs
  by_cases hd : ∃ t ∈ u, (dimIn s (baseOf t.base)).isSome
  · obtain ⟨d, h1, h2⟩ := c25_dimension_partial s u hyp hd
    refine ⟨some d, by unfold unitDimension; rw [h1], ?_⟩
    intro h x
    have e : ∀ ρ : Name → ℝ, Positive ρ → value ρ d = value (fun _ => 1) d := fun ρ _ => isDimensionOne_value h ρ
    have p1 : Positive (fun n : Name => if n = x then (2 : ℝ) else 1) := by
      intro n; dsimp only; split <;> norm_num
    have p2 : Positive (fun _ : Name => (1 : ℝ)) := fun _ => one_pos
    have e1 := h2 _ p1
    have e2 := h2 _ p2
    rw [e _ p1] at e1
    rw [e1] at e2
    have o : (u.map (fun t => dimValue (fun _ => (1 : ℝ)) (dimOf s (baseOf t.base)) ^ (t.exp : ℝ))).prod = 1 := by
      apply List.prod_eq_one
      intro y hy
      obtain ⟨t, _, rfl⟩ := List.mem_map.1 hy
      have : dimValue (fun _ => (1 : ℝ)) (dimOf s (baseOf t.base)) = 1 := by simp [dimValue]
      rw [this, Real.one_rpow]
    rw [o] at e2
    have e3 : (u.map (fun t => dimValue (fun n : Name => if n = x then (2 : ℝ) else 1) (dimOf s (baseOf t.base)) ^ (t.exp : ℝ))).prod
        = (2 : ℝ) ^ ((dimExponent s x u : ℚ) : ℝ) := by
      unfold dimExponent
      rw [← prod_two_rpow]
      congr 1
      refine List.map_congr_left ?_
      intro t _
      rw [dimValue_two, ← Real.rpow_mul (by norm_num)]
      push_cast
      rw [mul_comm]
    rw [e3] at e2
    have : (2 : ℝ) ^ ((dimExponent s x u : ℚ) : ℝ) = (2 : ℝ) ^ (((0 : ℚ)) : ℝ) := by rw [e2]; simp
    exact two_rpow_inj this
  · refine ⟨none, ?_, by simp [isDimensionOne]⟩
    have := c25_no_dimension s u hyp (by
      intro t ht
      cases hm : dimIn s (baseOf t.base) with
      | none => rfl
      | some d => exact absurd ⟨t, ht, by rw [hm]; rfl⟩ hd)
    unfold unitDimension
    rw [this]

theorem dimensionless_false {s : System} {x : Name} {u : List Term} (hu : UnitTerms 1 u) (hs : SmallIntegers u)
    (h : dimExponent s x u ≠ 0) : unitDimensionless u = .ok false := by
  obtain ⟨m, m1, m2⟩ := unitDimension_ok .mks hu hs
  obtain ⟨g, g1, g2⟩ := unitDimension_ok .cgs hu hs
  unfold unitDimensionless
  rw [m1]; dsimp only; rw [g1]; dsimp only
  congr 1
  rw [Bool.and_eq_false_iff]
  cases s with
  | mks => left; by_contra hc; exact h (m2 (by simpa using hc) x)
  | cgs => right; by_contra hc; exact h (g2 (by simpa using hc) x)

theorem dimExponent_congr {d : ℕ} {a b : List Term} (ha : UnitTerms d a) (hb : UnitTerms d b) (s : System) {x : Name}
    (hx : x ∈ baseDims) (h : ∀ ρ, CoherentSizes ρ → value ρ a = value ρ b) : dimExponent s x a = dimExponent s x b := by
  have := h _ (dimSizes_coherent s hx)
  rw [value_dimSizes s x (fun t ht => (ha.terms t ht).coeff), value_dimSizes s x (fun t ht => (hb.terms t ht).coeff)] at this
  exact two_rpow_inj this

/-! ### terms that differ by counts -/

theorem showNatAux_ne (f n : ℕ) : showNatAux (f + 1) n ≠ [] := by
  unfold showNatAux; split <;> simp

theorem showRat_ne (q : ℚ) : showRat q ≠ [] := by
  have h : ∀ z, showInt z ≠ [] := by
    intro z; unfold showInt showNat; split
    · simp
    · exact showNatAux_ne _ _
  unfold showRat
  split
  · exact h _
  · simp

theorem unity_term {d : ℕ} {t : Term} (ht : UnitTerm d t) (h : formatTerm t ∈ unityTexts) :
    t = ⟨1, one, 1⟩ ∨ t = ⟨1, c! "#", 1⟩ := by
  have hc := ht.coeff
  obtain ⟨e, hs, _⟩ := ht.symbol
  by_cases hb : t.base = one
  · left
    have he := ht.number hb
    cases t; simp_all
  · right
    have hf : formatTerm t = t.base ++ (if t.exp = 1 then [] else '^' :: showRat t.exp) := by
      unfold formatTerm formatCoefficient
      rw [if_neg hb, if_pos ⟨hb, hc⟩]; simp
    have hne : t.base ≠ [] := by
      intro h0; have := hs.2.2; rw [h0] at this; simp [baseIsValid, one] at this
    obtain ⟨y, ys, hy⟩ := List.exists_cons_of_ne_nil hne
    rw [hf, hy] at h
    by_cases he : t.exp = 1
    · rw [if_pos he] at h
      simp only [unityTexts, List.mem_cons, List.not_mem_nil, or_false, List.append_nil, ← hy] at h
      rcases h with h | h
      · cases t; simp_all
      · exact absurd h hb
    · rw [if_neg he] at h
      simp [unityTexts] at h

theorem value_filter {ρ : Name → ℝ} {p : Term → Bool} : ∀ {u : List Term}, (∀ t ∈ u, p t = false → t.val ρ = 1) →
    value ρ (u.filter p) = value ρ u
  | [], _ => rfl
  | t :: u, h => by
    have ih := value_filter (ρ := ρ) (p := p) (u := u) (fun v hv => h v (by simp [hv]))
    have e : value ρ (t :: u) = t.val ρ * value ρ u := by simp [value]
    rw [e, List.filter_cons]
    split
    · rw [← ih]; simp [value]
    next hp => rw [ih, h t (by simp) (by simpa using hp), one_mul]

theorem symmetric_value {d : ℕ} {a b : List Term} (ha : UnitTerms d a) (hb : UnitTerms d b) (na : a.Nodup) (nb : b.Nodup)
    (h : (symmetricDifference a b).all (fun t => decide (formatTerm t ∈ unityTexts)) = true) {ρ : Name → ℝ}
    (h1 : ρ (c! "#") = 1) : value ρ a = value ρ b := by
  have hval : ∀ t : Term, t = ⟨1, one, 1⟩ ∨ t = ⟨1, c! "#", 1⟩ → t.val ρ = 1 := by
    rintro t (rfl | rfl)
    · simp [Term.val]
    · have : (c! "#" : Name) ≠ one := by decide
      simp [Term.val, this, h1]
  rw [List.all_eq_true] at h
  have ea : value ρ (a.filter (fun t => decide (t ∈ b))) = value ρ a := by
    apply value_filter
    intro t ht hm
    apply hval
    refine unity_term (ha.terms t ht) ?_
    have := h t (by unfold symmetricDifference; rw [List.mem_append, List.mem_filter]; left; exact ⟨ht, by simpa using hm⟩)
    simpa using this
  have eb : value ρ (b.filter (fun t => decide (t ∈ a))) = value ρ b := by
    apply value_filter
    intro t ht hm
    apply hval
    refine unity_term (hb.terms t ht) ?_
    have := h t (by unfold symmetricDifference; rw [List.mem_append, List.mem_filter, List.mem_filter]; right; exact ⟨ht, by simpa using hm⟩)
    simpa using this
  rw [← ea, ← eb]
  have hp : (a.filter (fun t => decide (t ∈ b))).Perm (b.filter (fun t => decide (t ∈ a))) := by
    rw [List.perm_ext_iff_of_nodup (na.filter _) (nb.filter _)]
    intro t
    simp only [List.mem_filter, decide_eq_true_eq]
    tauto
  unfold value
  exact (hp.map _).prod_eq

/-! ### bounds of the exponents of decomposed units -/

/-- the sum of the absolute values of the exponents -/
def totalExponent (u : List Term) : ℚ := (u.map (fun t => |t.exp|)).sum

theorem totalExponent_expandTerm (t : Term) : totalExponent (expandTerm t) ≤ 16 * |t.exp| := by
  unfold expandTerm
  have h0 := abs_nonneg t.exp
  cases h : derivedUnits.find? (fun p => decide (p.1 = t.base)) with
  | none => simp only [totalExponent, List.map_cons, List.map_nil, List.sum_cons, List.sum_nil]; linarith
  | some p =>
    have hp := List.mem_of_find?_eq_some h
    have hl : ∀ p ∈ derivedUnits, (p.2.map (fun q => |q.2|)).sum ≤ 16 := by decide +kernel
    have := hl p hp
    have e : totalExponent (p.2.map (fun q => (⟨1, q.1, q.2 * t.exp⟩ : Term))) = (p.2.map (fun q => |q.2|)).sum * |t.exp| := by
      unfold totalExponent
      rw [List.map_map, ← List.sum_map_mul_right]
      congr 1
      refine List.map_congr_left ?_
      intro q _
      simp [abs_mul]
    rw [e]
    exact mul_le_mul_of_nonneg_right this h0

theorem totalExponent_expand : ∀ u : List Term, totalExponent (expandUnit u) ≤ 16 * totalExponent u
  | [] => by simp [totalExponent, expandUnit]
  | t :: u => by
    have ih := totalExponent_expand u
    have h := totalExponent_expandTerm t
    have e : totalExponent (expandUnit (t :: u)) = totalExponent (expandTerm t) + totalExponent (expandUnit u) := by
      unfold totalExponent expandUnit; rw [List.flatMap_cons, List.map_append, List.sum_append]
    have e2 : totalExponent (t :: u) = |t.exp| + totalExponent u := by simp [totalExponent]
    rw [e, e2]; linarith

theorem expOf_le (b : Name) : ∀ u : List Term, |expOf b u| ≤ totalExponent u
  | [] => by simp [totalExponent]
  | t :: u => by
    have ih := expOf_le b u
    have e2 : totalExponent (t :: u) = |t.exp| + totalExponent u := by simp [totalExponent]
    rw [expOf_cons, e2]
    refine le_trans (abs_add_le _ _) (add_le_add ?_ ih)
    split
    · exact le_rfl
    · simp

theorem mem_le_total {u : List Term} {t : Term} (ht : t ∈ u) : |t.exp| ≤ totalExponent u := by
  unfold totalExponent
  exact List.single_le_sum (by intro x hx; obtain ⟨y, _, rfl⟩ := List.mem_map.1 hx; exact abs_nonneg _) _ (List.mem_map_of_mem ht)

/-- the decomposition of a unit whose exponents a double can hold -/
theorem decompose_small {o : List System} (ho : o ∈ Orders) {d : ℕ} (hd : 0 < d) (hd4 : d ≤ 4) {u : List Term}
    (hu : UnitTerms d u) (hs : totalExponent u < 2 ^ 45) : ∃ r, decomposeUnit' o u = .ok r ∧ exprOfTerms r = .ok r ∧
      IsUnit (2 * d) r ∧ r.Nodup ∧ SmallExponents r ∧ ∀ ρ, CoherentSizes ρ → value ρ r = value ρ u := by
  obtain ⟨r, h1, h2, h3, h4, h5⟩ := decomposeUnit_ok ho hd hd4 hu.nonempty hu.terms
  have hr := decompose_reduce ho hu
  rw [h1] at hr
  have hw : WF (expandUnit u) := by
    intro t ht
    obtain ⟨c1, _, c3, c4, _⟩ := expandUnit_mem hu ht
    exact ⟨by rw [c1]; exact one_ne_zero, c3, c4⟩
  have hrr : reduce (expandUnit u) = .ok r := by
    cases hq : reduce (expandUnit u) with
    | error e => rw [hq] at hr; cases hr
    | ok q => rw [hq] at hr; simp only [ofSym, Except.ok.injEq] at hr; rw [hr]
  obtain ⟨s1, _, _, _, s5, _, _⟩ := reduce_spec (expandUnit_ne hu) hw hrr
  refine ⟨r, h1, h2, unitTerms_of h3 h4, List.Nodup.of_map _ s1.nodup, ?_, h5⟩
  intro t ht
  by_cases hb : t.base = one
  · rw [(s1.number t ht hb).1]; norm_num
  · have := s5 t.base hb
    rw [expOf_of_nodup r s1.nodup t ht] at this
    rw [this]
    refine lt_of_le_of_lt (expOf_le _ _) (lt_of_le_of_lt (totalExponent_expand u) ?_)
    have : (16 : ℚ) * totalExponent u < 16 * 2 ^ 45 := by linarith
    refine lt_trans this (by norm_num)

theorem sameTerms_perm {x y : List Term} (nx : x.Nodup) (ny : y.Nodup) (h : sameTerms x y = true) : x.Perm y := by
  unfold sameTerms at h
  simp only [Bool.and_eq_true, List.all_eq_true, decide_eq_true_eq] at h
  rw [List.perm_ext_iff_of_nodup nx ny]
  exact fun t => ⟨h.1 t, h.2 t⟩

end Eprem.Metric
