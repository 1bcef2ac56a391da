import Verif.Lemmas.Stars
import Verif.Lemmas.UnitPower
import Verif.Lemmas.ObservableAlgebra

/-!
# Compound names of observables (C102): the terms, and the quantities that they make
-/

namespace Eprem.Symbolic.Stars

open Eprem.Symbolic

/-- The terms of a compound name: the names with powers that are not zero, or the number one. -/
theorem expression_terms {x : Expr} (h : x.Ok) : ∃ vs : List Term, (vs.map Term.base).Nodup ∧
    (∀ v, v ∈ vs ↔ v.coeff = 1 ∧ v.base ∈ x.names ∧ v.exp = x.power v.base 1 ∧ v.exp ≠ 0) ∧
    expression x.text = .ok (if vs = [] then [⟨1, one, 1⟩] else vs) := by
  have hc : ∀ t ∈ x.flat 1 none ++ [⟨1, one, 1⟩], t.coeff = 1 ∧ t.base ≠ [] := by
    intro t ht
    rcases List.mem_append.1 ht with ht | ht
    · exact ⟨(Expr.flat_base x h 1 none t ht).1, (Expr.flat_base x h 1 none t ht).2.2⟩
    · rw [List.mem_singleton] at ht
      subst ht
      exact ⟨rfl, by simp [one]⟩
  obtain ⟨vs, hP, hr⟩ := reduce_eq (x.flat 1 none ++ [⟨1, one, 1⟩]) (by simp) (fun t ht => (hc t ht).2)
  have h1 : coefOf (x.flat 1 none ++ [⟨1, one, 1⟩]) = 1 := coefOf_ones (fun t ht => (hc t ht).1)
  refine ⟨vs, hP.nodup, ?_, ?_⟩
  · intro v
    rw [hP.mem]
    have he : v.base ≠ one → expOf v.base (x.flat 1 none ++ [⟨1, one, 1⟩]) = x.power v.base 1 := by
      intro hb
      rw [expOf_append, Expr.flat_power v.base hb x, expOf_cons, if_neg (Ne.symm hb)]
      simp [opSign]
    constructor
    · rintro ⟨a, b, c, d⟩
      rw [he b] at d
      refine ⟨a, ?_, d, c⟩
      by_contra hn
      rw [Expr.power_names v.base x hn 1] at d
      exact c d
    · rintro ⟨a, b, c, d⟩
      have hb := Expr.names_letter x h _ b
      exact ⟨a, hb, d, by rw [he hb]; exact c⟩
  · rw [expression_text h, hr, h1]
    unfold assemble
    split
    · rfl
    · rw [if_pos rfl]

end Eprem.Symbolic.Stars

namespace Eprem.Observable

open Eprem Eprem.Metric Eprem.Symbolic

variable {A κ ν : Type} [DecidableEq κ]

/-- What is known about a product of powers of quantities. -/
structure Product (env : Name → Quantity A κ ν) (ts : List Term) (q : Quantity A κ ν) : Prop where
  unit : QuarterUnit q.unit
  weight : weight q.unit ≤ (ts.map (fun t => |t.exp| * weight (env t.base).unit)).sum
  size : ∀ ρ, CoherentSizes ρ → value ρ q.unit = (ts.map (fun t => value ρ (env t.base).unit ^ (t.exp : ℝ))).prod
  nodup : q.dims.Nodup
  dims : ∀ d, d ∈ q.dims ↔ ∃ t ∈ ts, d ∈ (env t.base).dims

/-- The quantities that terms name, with units and powers for which units can be multiplied. -/
structure Factors (look : Name → Except QErr (Quantity A κ ν)) (env : Name → Quantity A κ ν) (ts : List Term) : Prop where
  found : ∀ t ∈ ts, look t.base = .ok (env t.base)
  unit : ∀ t ∈ ts, QuarterUnit (env t.base).unit
  exp : ∀ t ∈ ts, ∃ n : ℤ, t.exp = n ∧ n ≠ 0
  dims : ∀ t ∈ ts, (env t.base).dims.Nodup

theorem qPow_quarter {p : Quantity A κ ν} (hu : QuarterUnit p.unit) {e : ℚ} (he : ∃ n : ℤ, e = n ∧ n ≠ 0) :
    ∃ q, qPow p false e = .ok q ∧ QuarterUnit q.unit ∧ weight q.unit ≤ |e| * weight p.unit ∧ q.dims = p.dims ∧
      ∀ ρ, CoherentSizes ρ → value ρ q.unit = value ρ p.unit ^ (e : ℝ) := by
  obtain ⟨n, rfl, hn⟩ := he
  obtain ⟨r, h1, h2, h3, h4⟩ := unitPow_quarter hu n hn
  refine ⟨⟨fun user => match p.operator user with
      | .error e => .error e
      | .ok _ => .error .type, r, p.dims⟩, by simp only [qPow, h1]; rfl, h2, h3, rfl, ?_⟩
  intro ρ hρ
  have : (((n : ℚ) : ℝ)) = ((n : ℤ) : ℝ) := by norm_cast
  rw [this, Real.rpow_intCast]
  exact h4 ρ hρ

theorem sum_nonneg_weights (env : Name → Quantity A κ ν) (ts : List Term) :
    0 ≤ (ts.map (fun t => |t.exp| * weight (env t.base).unit)).sum := by
  apply List.sum_nonneg
  intro y hy
  obtain ⟨t, _, rfl⟩ := List.mem_map.1 hy
  exact mul_nonneg (abs_nonneg _) (weight_nonneg _)

theorem multiply_terms {order : List System} (ho : order ∈ Orders) {look : Name → Except QErr (Quantity A κ ν)}
    {env : Name → Quantity A κ ν} : (ts : List Term) → Factors look env ts → ∀ (done : List Term) (this : Quantity A κ ν),
    Product env done this → ((done ++ ts).map (fun t => |t.exp| * weight (env t.base).unit)).sum < 2 ^ 50 →
    (∀ q, buildTerms.multiplyTerms order look (fun _ => false) this ts = .ok q → Product env (done ++ ts) q) ∧
    (∀ e, buildTerms.multiplyTerms order look (fun _ => false) this ts = .error e → e = .value)
  | [], _, done, this, hp, _ => by
    constructor
    · intro q hq
      cases hq
      simpa using hp
    · intro e he; cases he
  | t :: ts, hF, done, this, hp, hw => by
    have hF' : Factors look env ts :=
      ⟨fun u hu => hF.found u (List.mem_cons_of_mem _ hu), fun u hu => hF.unit u (List.mem_cons_of_mem _ hu),
       fun u hu => hF.exp u (List.mem_cons_of_mem _ hu), fun u hu => hF.dims u (List.mem_cons_of_mem _ hu)⟩
    obtain ⟨p, hp1, hp2, hp3, hp4, hp5⟩ := qPow_quarter (hF.unit t List.mem_cons_self) (hF.exp t List.mem_cons_self)
    have hsplit : (done ++ t :: ts) = (done ++ [t]) ++ ts := by simp
    have hlt : weight this.unit + weight p.unit < 2 ^ 50 := by
      rw [hsplit, List.map_append, List.sum_append, List.map_append, List.sum_append] at hw
      simp only [List.map_cons, List.map_nil, List.sum_cons, List.sum_nil, add_zero] at hw
      have := sum_nonneg_weights env ts
      have := hp.weight
      linarith
    obtain ⟨u, hu1, hu2, hu3, hu4⟩ := unitMul_quarter ho hp.unit hp2 hlt
    simp only [buildTerms.multiplyTerms, hF.found t List.mem_cons_self, hp1, qMul, hu1]
    cases hd : Numeric.dimsOr this.dims p.dims with
    | error e =>
      constructor
      · intro q hq; cases hq
      · intro e he; cases he; rfl
    | ok d =>
      obtain ⟨hm, hn⟩ := dimsOr_ok hp.nodup (by rw [hp4]; exact hF.dims t List.mem_cons_self) hd
      have hM := Container.c09_merge_ok _ _ d hp.nodup (by rw [hp4]; exact hF.dims t List.mem_cons_self) hm
      have hnew : Product env (done ++ [t]) (qApply (times order) this p u d) := by
        refine ⟨hu2, ?_, ?_, hn, ?_⟩
        · rw [List.map_append, List.sum_append]
          simp only [List.map_cons, List.map_nil, List.sum_cons, List.sum_nil, add_zero]
          have := hp.weight
          change weight u ≤ _
          linarith
        · intro ρ hρ
          change value ρ u = _
          rw [hu4 ρ hρ, hp.size ρ hρ, hp5 ρ hρ, List.map_append, List.prod_append]
          simp
        · intro x
          change x ∈ d ↔ _
          rw [hM.mem, hp.dims, hp4]
          simp [or_and_right, exists_or]
      obtain ⟨i1, i2⟩ := multiply_terms ho ts hF' (done ++ [t]) _ hnew (by rw [← hsplit]; exact hw)
      rw [hsplit]
      exact ⟨i1, i2⟩

/-- The quantity that terms make. -/
theorem build_product {order : List System} (ho : order ∈ Orders) {look : Name → Except QErr (Quantity A κ ν)}
    {env : Name → Quantity A κ ν} {ts : List Term} (hne : ts ≠ []) (hF : Factors look env ts)
    (hw : (ts.map (fun t => |t.exp| * weight (env t.base).unit)).sum < 2 ^ 50) :
    (∀ q, buildTerms order look (fun _ => false) ts = .ok q → Product env ts q) ∧
    (∀ e, buildTerms order look (fun _ => false) ts = .error e → e = .value) := by
  cases ts with
  | nil => exact absurd rfl hne
  | cons t ts =>
    have hF' : Factors look env ts :=
      ⟨fun u hu => hF.found u (List.mem_cons_of_mem _ hu), fun u hu => hF.unit u (List.mem_cons_of_mem _ hu),
       fun u hu => hF.exp u (List.mem_cons_of_mem _ hu), fun u hu => hF.dims u (List.mem_cons_of_mem _ hu)⟩
    simp only [buildTerms, hF.found t List.mem_cons_self]
    by_cases h1 : ts = [] ∧ t.exp = 1
    · rw [if_pos h1]
      constructor
      · intro q hq
        cases hq
        rw [h1.1]
        refine ⟨hF.unit t List.mem_cons_self, ?_, ?_, hF.dims t List.mem_cons_self, ?_⟩
        · simp [h1.2]
        · intro ρ _; simp [h1.2]
        · intro d; simp
      · intro e he; cases he
    · rw [if_neg h1]
      obtain ⟨p, hp1, hp2, hp3, hp4, hp5⟩ := qPow_quarter (hF.unit t List.mem_cons_self) (hF.exp t List.mem_cons_self)
      simp only [hp1]
      have hp : Product env [t] p := by
        refine ⟨hp2, by simpa using hp3, ?_, by rw [hp4]; exact hF.dims t List.mem_cons_self, ?_⟩
        · intro ρ hρ; simpa using hp5 ρ hρ
        · intro d; simp [hp4]
      exact multiply_terms ho ts hF' [t] p hp hw

end Eprem.Observable
