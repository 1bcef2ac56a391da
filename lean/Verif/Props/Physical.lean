import Verif.Lemmas.Physical
import Verif.Props.Axes
import Verif.Props.NamedArray
import Verif.Props.Transpose
import Mathlib.Analysis.Real.Pi.Irrational
import Mathlib.Analysis.SpecialFunctions.Pow.Real

/-!
# Arithmetic of physical objects (C36) and comparisons (C37)
-/

namespace Eprem.Physical

open Eprem Eprem.Symbolic Eprem.Metric Eprem.Numeric Eprem.Measured

variable {κ ν : Type} [DecidableEq κ]

/-! ## C36: sums -/

/-- **C36**, sums and differences.  If a sum is computed, then the units of the operands are equal, the sum has this unit, and
at every position it shows the sum of the amounts that the operands show there. -/
theorem c36_sum (same inside : ν → ν → Bool) (a b r : Operand κ ν ℝ) (d : ℕ) (hd : d ∣ 4) (ha : GoodUnit d a.unit)
    (hb : GoodUnit d b.unit) :
    (additive same inside (· + ·) a b = .ok r → exprEq a.unit b.unit = true ∧ r.unit = a.unit ∧
      ∀ ρ p, Valid p r.shape → r.shown ρ p = a.shown ρ p + b.shown ρ p) ∧
    (additive same inside (· - ·) a b = .ok r → exprEq a.unit b.unit = true ∧ r.unit = a.unit ∧
      ∀ ρ p, Valid p r.shape → r.shown ρ p = a.shown ρ p - b.shown ρ p) := by
  refine ⟨fun h => ?_, fun h => ?_⟩
  all_goals
    obtain ⟨h1, h2, h3⟩ := additive_shows h
    refine ⟨h1, h2, fun ρ p hp => ?_⟩
    rw [shown_eq, shown_eq, shown_eq, h3 p hp, h2, ← value_equal hd ha hb h1 ρ]
    ring

/-- **C36**, sums and differences of operands with different units are refused; in particular, a number is only added to
operands without a unit. -/
theorem c36_sum_units {K : Type} [Field K] [DecidableEq K] (same inside : ν → ν → Bool) (f : K → K → K)
    (a b : Operand κ ν K) (h : exprEq a.unit b.unit = false) : ∃ e, additive same inside f a b = .error e := by
  cases hr : additive same inside f a b with
  | error e => exact ⟨e, rfl⟩
  | ok r => rw [(additive_shows hr).1] at h; cases h

theorem good_unit_one (n : Name) (h : ([⟨1, n, 1⟩] : List Term).all (fun t => decide (t.coeff = 1 ∧ (1 * t.exp).den = 1 ∧
    t.exp ≠ 0 ∧ (t.base = one → t.exp = 1) ∧ baseIsValid t.base = true ∧
    (named t.base).map (fun e => (e.symbol, decide (e.base.symbol = c! "lx"))) = some (t.base, false))) = true) :
    GoodUnit 1 [⟨1, n, 1⟩] := by
  refine ⟨isUnit_of (by simp) (by simpa using h) (by norm_num), ?_⟩
  intro t ht
  rw [List.mem_singleton] at ht
  subst ht
  norm_num

/-- the metre and the newton are units for which the theorems hold -/
theorem good_metre : GoodUnit 1 [⟨1, c! "m", 1⟩] := good_unit_one _ (by decide +kernel)
theorem good_newton : GoodUnit 1 [⟨1, c! "N", 1⟩] := good_unit_one _ (by decide +kernel)

/-- a vector and a tensor in metres, and their sum; the hypotheses on units hold for every product of unit symbols -/
example (same inside : ν → ν → Bool) (p q : Nat → ℝ) : ∃ r : Operand κ ν ℝ, additive same inside (· + ·)
    (.object .vector ⟨⟨[3], p⟩, [⟨1, c! "m", 1⟩]⟩) (.object .tensor ⟨⟨[2, 1], q⟩, [⟨1, c! "m", 1⟩]⟩) = .ok r ∧
    r.shape = [2, 3] := by
  have hu : exprEq [⟨1, c! "m", 1⟩] [⟨1, c! "m", 1⟩] = true := by decide +kernel
  obtain ⟨z, hz, hs⟩ : ∃ z, zipData (fun a b : ℝ => a + b) ⟨[3], p⟩ ⟨[2, 1], q⟩ = .ok z ∧ z.shape = [2, 3] := ⟨_, rfl, rfl⟩
  refine ⟨.object .tensor ⟨z, [⟨1, c! "m", 1⟩]⟩, ?_, hs⟩
  simp only [additive, additiveMeasured, hz, hu, if_true]
  show create .tensor z _ = _
  simp [create, ND.ndim, hs]

/-- units that differ -/
example : exprEq [⟨1, c! "m", 1⟩] [⟨1, c! "s", 1⟩] = false := by decide +kernel

theorem create_wf {K : Type} [Field K] [DecidableEq K] {k : Kind} {d : ND K} {u : List Term} {r : Operand κ ν K}
    (h : create k d u = .ok r) : r.WF ∧ r.isMeasurement = false ∧ (k ≠ .scalar → r.shape = d.shape) ∧
      (k = .scalar → r.shape = []) := by
  unfold create at h
  cases k with
  | scalar =>
    simp only at h
    split at h
    · cases h; simp [Operand.WF, Operand.isMeasurement, Operand.shape]
    · cases h
  | vector =>
    simp only at h
    split at h
    next hn => cases h; exact ⟨hn, rfl, fun _ => rfl, fun h => by cases h⟩
    · cases h
  | tensor =>
    simp only at h
    split at h
    · cases h
    next hn => cases h; exact ⟨fun hc => hn (by have : d.shape = [] := hc; simp [ND.ndim, this]), rfl, fun _ => rfl, fun h => by cases h⟩
  | measurement => cases h

theorem newArray_wf {K : Type} [Field K] [DecidableEq K] {d : ND K} {u : List Term} {axes : Dict κ ν} {r : Operand κ ν K}
    (hw : axes.WF) (h : newArray d u axes = .ok r) : r.WF ∧ r.axes? = some axes := by
  obtain ⟨h1, rfl⟩ := newArray_inv h
  have hk := dimensions_nodup hw
  refine ⟨⟨⟨?_, h1⟩, ?_⟩, rfl⟩
  · show (dimensions axes.keys).Nodup
    rw [hk]; exact hw
  · exact hk.symm

theorem commonShape_nil {s r : List Nat} (h : CommonShape s [1] r) (hs : s ≠ []) : CommonShape s [] r := by
  have hl : s.length ≠ 0 := fun h0 => hs (List.length_eq_zero_iff.1 h0)
  refine ⟨by rw [h.length]; simp; omega, fun k => ?_⟩
  have h1 : fromEnd [1] k = 1 := by cases k <;> simp [fromEnd]
  have h2 : fromEnd [] k = 1 := by simp [fromEnd]
  have := h.axis k
  rwa [h1, ← h2] at this

theorem _root_.Eprem.Numeric.CommonShape.symm {s t r : List Nat} (h : CommonShape s t r) : CommonShape t s r := by
  refine ⟨by rw [h.length, max_comm], fun k => ?_⟩
  rcases h.axis k with ⟨h1, h2⟩ | ⟨h1, h2⟩ | ⟨h1, h2⟩
  · exact .inl ⟨h1.symm, by rw [h2, h1]⟩
  · exact .inr (.inr ⟨h1, h2⟩)
  · exact .inr (.inl ⟨h1, h2⟩)

theorem wf_axes {K : Type} {x : Arr κ ν K} (h : x.WF) : x.axes.WF := by
  unfold Dict.WF; rw [h.axes]; exact h.named.nodup

theorem kindOf_scalar {k l : Kind} (h : kindOf k l = .scalar) :
    (k = .scalar ∨ k = .measurement) ∧ (l = .scalar ∨ l = .measurement) := by
  revert h; cases k <;> cases l <;> decide

/-! ## C36: products and quotients -/

/-- The orders in which the package may try the metric systems. -/
theorem combineUnits_ok {order : List System} {times : Bool} {u v w : List Term}
    (h : combineUnits order times u v = .ok w) :
    (times = true → unitMul order u v = .ok w) ∧ (times = false → unitDiv order u v = .ok w) := by
  unfold combineUnits at h
  cases times
  · simp only [Bool.false_eq_true, if_false] at h
    split at h
    · cases h
    next hw => cases h; exact ⟨nofun, fun _ => hw⟩
  · simp only [if_true] at h
    split at h
    · cases h
    next hw => cases h; exact ⟨fun _ => hw, nofun⟩

theorem goodUnit_mono {d : ℕ} (hd : d ∣ 4) {u : List Term} (h : GoodUnit d u) : IsUnit (2 * d) u := h.1.mono (by norm_num)

theorem combineUnits_value {order : List System} (ho : order = [.mks, .cgs] ∨ order = [.cgs, .mks]) {d : ℕ} (hd : d ∣ 4)
    {times : Bool} {u v w : List Term} (hu : GoodUnit d u) (hv : GoodUnit d v) (h : combineUnits order times u v = .ok w) :
    IsUnit (2 * d) w ∧ ∀ ρ, CoherentSizes ρ →
      value ρ w = if times then value ρ u * value ρ v else value ρ u / value ρ v := by
  obtain ⟨h1, h2⟩ := combineUnits_ok h
  cases times
  · obtain ⟨r, hr, hi, hval⟩ := c71_div_partial order ho d hd u v hu.1 hv.1 hu.2 hv.2
    rw [h2 rfl] at hr
    cases hr
    exact ⟨hi, fun ρ hρ => by rw [hval ρ hρ]; rfl⟩
  · obtain ⟨r, hr, hi, hval⟩ := c71_mul_partial order ho d hd u v hu.1 hv.1 hu.2 hv.2
    rw [h1 rfl] at hr
    cases hr
    exact ⟨hi, fun ρ hρ => by rw [hval ρ hρ]; rfl⟩

theorem numberUnits_value {order : List System} (ho : order = [.mks, .cgs] ∨ order = [.cgs, .mks]) {d : ℕ} (hd : d ∣ 4)
    {times : Bool} {v w : List Term} (hv : GoodUnit d v) (h : numberUnits order times v = .ok w) :
    IsUnit (2 * d) w ∧ ∀ ρ, CoherentSizes ρ → value ρ w = if times then value ρ v else 1 / value ρ v := by
  unfold numberUnits at h
  cases times
  · obtain ⟨r, hr, hi, hval⟩ := c71_inv_partial order ho d hd v hv.1
    rw [if_neg (by simp), hr] at h
    cases h
    exact ⟨hi, fun ρ hρ => by rw [hval ρ hρ]; rfl⟩
  · rw [if_pos rfl] at h
    cases h
    exact ⟨goodUnit_mono hd hv, fun ρ hρ => rfl⟩

/-- What a product or quotient shows, if not both operands are arrays. -/
theorem multiplicative_value {order : List System} (ho : order = [.mks, .cgs] ∨ order = [.cgs, .mks]) {d : ℕ} (hd : d ∣ 4)
    {times : Bool} {f : ℝ → ℝ → ℝ} {a b r : Operand κ ν ℝ} (ha : GoodUnit d a.unit) (hb : GoodUnit d b.unit)
    (hn : ¬ (a.isArray = true ∧ b.isArray = true)) (h : multiplicative order times f a b = .ok r) :
    IsUnit (2 * d) r.unit ∧ (∀ p, Valid p r.shape → r.num p = f (a.num p) (b.num p)) ∧
      ∀ ρ, CoherentSizes ρ →
        value ρ r.unit = if times then value ρ a.unit * value ρ b.unit else value ρ a.unit / value ρ b.unit := by
  have h1 : ∀ ρ, value ρ unitless = 1 := fun ρ => by simp [unitless, value_unit]
  unfold multiplicative at h
  split at h
  · cases h
  next x b _ =>
    split at h
    · cases h
    next u hu =>
      obtain ⟨h2, h3⟩ := withNumber_shows h
      obtain ⟨h4, h5⟩ := numberUnits_value ho hd hb hu
      refine ⟨h2 ▸ h4, h3, fun ρ hρ => ?_⟩
      rw [h2, h5 ρ hρ]
      simp only [Operand.unit, h1, one_mul]
  next a y _ =>
    obtain ⟨h2, h3⟩ := withNumber_shows h
    refine ⟨h2 ▸ goodUnit_mono hd ha, h3, fun ρ hρ => ?_⟩
    rw [h2]
    simp only [Operand.unit, h1, mul_one, div_one, ite_self]
  next a b _ _ _ =>
    split at h
    · cases h
    next u hu =>
      obtain ⟨h2, h3⟩ := multiplyMeasured_shows h hn
      obtain ⟨h4, h5⟩ := combineUnits_value ho hd ha hb hu
      exact ⟨h2 ▸ h4, h3, fun ρ hρ => by rw [h2, h5 ρ hρ]⟩

/-- **C36**, products and quotients, if at most one operand is an array.  At every position the result shows the product
(quotient) of the amounts that the operands show there, for all sizes of units for which the derived units have the sizes
that their definitions give them. -/
theorem c36_product (order : List System) (ho : order = [.mks, .cgs] ∨ order = [.cgs, .mks]) (a b r : Operand κ ν ℝ)
    (d : ℕ) (hd : d ∣ 4) (ha : GoodUnit d a.unit) (hb : GoodUnit d b.unit)
    (hn : ¬ (a.isArray = true ∧ b.isArray = true)) :
    (multiplicative order true (· * ·) a b = .ok r → IsUnit (2 * d) r.unit ∧ ∀ ρ, CoherentSizes ρ → ∀ p, Valid p r.shape →
      r.shown ρ p = a.shown ρ p * b.shown ρ p) ∧
    (multiplicative order false (· / ·) a b = .ok r → IsUnit (2 * d) r.unit ∧ ∀ ρ, CoherentSizes ρ → ∀ p, Valid p r.shape →
      r.shown ρ p = a.shown ρ p / b.shown ρ p) := by
  refine ⟨fun h => ?_, fun h => ?_⟩
  all_goals
    obtain ⟨h1, h2, h3⟩ := multiplicative_value ho hd ha hb hn h
    refine ⟨h1, fun ρ hρ p hp => ?_⟩
    rw [shown_eq, shown_eq, shown_eq, h2 p hp, h3 ρ hρ]
  · simp only [if_true]; ring
  · simp only [Bool.false_eq_true, if_false]; rw [div_mul_div_comm]

theorem metre_newton : unitMul [.mks, .cgs] [⟨1, c! "m", 1⟩] [⟨1, c! "N", 1⟩] =
    .ok [⟨1, c! "m", 2⟩, ⟨1, c! "kg", 1⟩, ⟨1, c! "s", -2⟩] := by decide +kernel

/-- three metres times a vector of forces -/
example (p : Nat → ℝ) : ∃ r : Operand κ ν ℝ, multiplicative [.mks, .cgs] true (· * ·)
    (.object .scalar ⟨⟨[], fun _ => 3⟩, [⟨1, c! "m", 1⟩]⟩) (.object .vector ⟨⟨[2], p⟩, [⟨1, c! "N", 1⟩]⟩) = .ok r ∧
    r.shape = [2] := by
  obtain ⟨z, hz, hs⟩ : ∃ z, zipData (fun a b : ℝ => a * b) ⟨[], fun _ => 3⟩ ⟨[2], p⟩ = .ok z ∧ z.shape = [2] := ⟨_, rfl, rfl⟩
  refine ⟨.object .vector ⟨z, [⟨1, c! "m", 2⟩, ⟨1, c! "kg", 1⟩, ⟨1, c! "s", -2⟩]⟩, ?_, hs⟩
  simp only [multiplicative, Operand.unit, combineUnits, if_true, metre_newton, multiplyMeasured, hz]
  show create .vector z _ = _
  simp [create, ND.ndim, hs]

/-! ## C36: products of arrays -/

theorem multiplicative_dims {α β γ : Type} {f : α → β → γ} {a : Named κ α} {b : Named κ β} {r : Named κ γ}
    (ha : WellNamed a) (hb : WellNamed b) (h : Numeric.multiplicative f a b = .ok r) :
    Container.merge a.dims b.dims = .ok r.dims := by
  unfold Numeric.multiplicative at h
  split at h
  · cases h
  · cases h
  next ds x y hm =>
    split at h
    · cases h
    next z hz =>
      unfold remesh at hm
      split at hm
      · cases hm
      next ds' hu =>
        split at hm
        · cases hm
        · simp only at hm
          split at hm
          · cases hm
          · split at hm
            · cases hm
            · cases hm
              unfold unionDims at hu
              split at hu
              · cases hu
              · unfold dimsOr at hu
                split at hu
                · cases hu
                next m hmm =>
                  have hM := Container.c09_merge_ok _ _ _ ha.nodup hb.nodup hmm
                  rw [dimensions_nodup hM.nodup] at hu
                  cases hu
                  obtain ⟨_, h2, _⟩ := arrayFactory_ok h hM.nodup
                  rw [hmm, h2]

theorem read_of_has {α : Type} (a : Named κ α) {pos : κ → Nat} (h : a.Has pos) : a.read pos = a.at pos := by
  unfold Named.read
  congr 1
  funext d
  split
  next hd => have := h d 1 hd; omega
  · rfl

theorem data_wellNamed {K : Type} [Field K] [DecidableEq K] {a : PArr κ K} (h : WellNamed a.raw) : WellNamed a.data :=
  ⟨h.nodup, h.length⟩

/-- **C36**, products and quotients of two arrays, by the names of their axes.  The result has the axes of both operands
(the second operand decides about axes that both have), and at every named position it holds the product (quotient) of the
amounts of the operands at that position. -/
theorem c36_product_arrays (order : List System) (ho : order = [.mks, .cgs] ∨ order = [.cgs, .mks]) (a b : Arr κ ν ℝ)
    (wa : a.WF) (wb : b.WF) (r : Operand κ ν ℝ) (d : ℕ) (hd : d ∣ 4) (ha : GoodUnit d a.arr.unit)
    (hb : GoodUnit d b.arr.unit) :
    (multiplicative order true (· * ·) (.array a) (.array b) = .ok r → ∃ c, r = .array c ∧ c.WF ∧
      IsUnit (2 * d) c.arr.unit ∧ Container.IsMerge a.axes.keys b.axes.keys c.axes.keys ∧
      (∀ k, c.axes.get? k = match b.axes.get? k with | some v => some v | none => a.axes.get? k) ∧
      ∀ ρ, CoherentSizes ρ → ∀ pos, c.arr.raw.Has pos → c.amount ρ pos = a.amount ρ pos * b.amount ρ pos) ∧
    (multiplicative order false (· / ·) (.array a) (.array b) = .ok r → ∃ c, r = .array c ∧ c.WF ∧
      IsUnit (2 * d) c.arr.unit ∧ Container.IsMerge a.axes.keys b.axes.keys c.axes.keys ∧
      (∀ k, c.axes.get? k = match b.axes.get? k with | some v => some v | none => a.axes.get? k) ∧
      ∀ ρ, CoherentSizes ρ → ∀ pos, c.arr.raw.Has pos → c.amount ρ pos = a.amount ρ pos / b.amount ρ pos) := by
  have key : ∀ (times : Bool) (f : ℝ → ℝ → ℝ), multiplicative order times f (.array a) (.array b) = .ok r →
      ∃ c, r = .array c ∧ c.WF ∧ IsUnit (2 * d) c.arr.unit ∧ Container.IsMerge a.axes.keys b.axes.keys c.axes.keys ∧
      (∀ k, c.axes.get? k = match b.axes.get? k with | some v => some v | none => a.axes.get? k) ∧
      (∀ ρ, CoherentSizes ρ → value ρ c.arr.unit =
        if times then value ρ a.arr.unit * value ρ b.arr.unit else value ρ a.arr.unit / value ρ b.arr.unit) ∧
      ∀ pos, c.arr.raw.Has pos → c.arr.data.read pos = f (a.arr.data.read pos) (b.arr.data.read pos) := by
    intro times f h
    simp only [multiplicative] at h
    split at h
    · cases h
    next u hu =>
      obtain ⟨h4, h5⟩ := combineUnits_value ho hd ha hb hu
      simp only [multiplyMeasured] at h
      split at h
      · cases h
      next dat hdat =>
        have wda := data_wellNamed wa.named
        have wdb := data_wellNamed wb.named
        have hC := c31_aligned f _ _ _ wda wdb hdat
        have hdims := multiplicative_dims wda wdb hdat
        have hno : ¬ Container.OrderConflict a.axes.keys b.axes.keys := by
          rw [wa.axes, wb.axes]
          intro hc
          obtain ⟨e, he⟩ := (Container.c09_merge_fails_iff _ _ wa.named.nodup wb.named.nodup).2 hc
          have : Container.merge a.arr.raw.dims b.arr.raw.dims = .ok dat.dims := hdims
          rw [he] at this; cases this
        obtain ⟨axes, hm, hk, hM, hg⟩ := Axes.union_aux a.axes b.axes (wf_axes wa) (wf_axes wb) hno
        rw [hm] at h
        simp only at h
        have hkd : axes.keys = dat.dims := by
          rw [wa.axes, wb.axes] at hk
          have : Container.merge a.arr.raw.dims b.arr.raw.dims = .ok dat.dims := hdims
          exact Except.ok.inj (hk.symm.trans this)
        obtain ⟨h6, rfl⟩ := newArray_inv h
        have hwx : axes.WF := by unfold Dict.WF; rw [hkd]; exact hC.named.nodup
        have hdk := dimensions_nodup hwx
        refine ⟨_, rfl, ?_, h4, hM, hg, fun ρ hρ => h5 ρ hρ, fun pos hp => ?_⟩
        · refine ⟨⟨?_, h6⟩, hdk.symm⟩
          show (dimensions axes.keys).Nodup
          rw [hdk]; exact hwx
        · have hraw : (⟨dat.data, dimensions axes.keys, false⟩ : Named κ ℝ) = ⟨dat.data, dat.dims, false⟩ := by
            rw [hdk, hkd]
          have hp' : dat.Has pos := by
            have : (⟨dat.data, dimensions axes.keys, false⟩ : Named κ ℝ).Has pos := hp
            rw [hraw] at this
            exact this
          rw [← hC.element pos hp', ← read_of_has _ hp']
          show (PArr.data (PArr.new (⟨dat.data, dimensions axes.keys, false⟩ : Named κ ℝ) u)).read pos = _
          rw [hraw]
          exact one_mul _
  refine ⟨fun h => ?_, fun h => ?_⟩
  all_goals
    obtain ⟨c, h1, h2, h3, h4, h5, h6, h7⟩ := key _ _ h
    refine ⟨c, h1, h2, h3, h4, h5, fun ρ hρ pos hp => ?_⟩
    unfold Arr.amount
    rw [h7 pos hp, h6 ρ hρ]
  · simp only [if_true]; ring
  · simp only [Bool.false_eq_true, if_false]; rw [div_mul_div_comm]

/-- arrays with axes x and y -/
example (p q : Nat → ℝ) (v w : ν) : ∃ r : Operand String ν ℝ, multiplicative [.mks, .cgs] true (· * ·)
    (.array ⟨PArr.new ⟨⟨[2], p⟩, ["x"], false⟩ [⟨1, c! "m", 1⟩], [("x", v)]⟩)
    (.array ⟨PArr.new ⟨⟨[3], q⟩, ["y"], false⟩ [⟨1, c! "N", 1⟩], [("y", w)]⟩) = .ok r ∧ r.shape = [2, 3] ∧
    (⟨PArr.new ⟨⟨[2], p⟩, ["x"], false⟩ [⟨1, c! "m", 1⟩], [("x", v)]⟩ : Arr String ν ℝ).WF := by
  obtain ⟨z, hz, hs⟩ : ∃ z, Numeric.multiplicative (fun a b : ℝ => a * b)
      (PArr.new (⟨⟨[2], p⟩, ["x"], false⟩ : Named String ℝ) [⟨1, c! "m", 1⟩]).data
      (PArr.new (⟨⟨[3], q⟩, ["y"], false⟩ : Named String ℝ) [⟨1, c! "N", 1⟩]).data = .ok z ∧ z.data.shape = [2, 3] :=
    ⟨_, rfl, rfl⟩
  refine ⟨.array ⟨PArr.new ⟨z.data, ["x", "y"], false⟩ [⟨1, c! "m", 2⟩, ⟨1, c! "kg", 1⟩, ⟨1, c! "s", -2⟩],
    [("x", v), ("y", w)]⟩, ?_, hs, ⟨⟨by simp [PArr.new], rfl⟩, rfl⟩⟩
  have hm : Axes.merge [("x", v)] [("y", w)] = .ok [("x", v), ("y", w)] := rfl
  have hd : dimensions (Dict.keys [("x", v), ("y", w)]) = ["x", "y"] := rfl
  simp only [multiplicative, Operand.unit, PArr.new, combineUnits, if_true, metre_newton, multiplyMeasured]
  simp only [PArr.new] at hz
  simp only [hz, hm, newArray, arrayFactory, hd]
  rw [if_pos (by show 2 = z.data.shape.length; rw [hs]; rfl)]
  rfl

/-! ## C36: shapes and classes of the results -/

theorem shape_create {K : Type} [Field K] [DecidableEq K] {f : K → K → K} {k l : Kind} {x y : Obj K} {d : ND K}
    {u : List Term} {r : Operand κ ν K} (hz : zipData f x.data y.data = .ok d) (hc : create (kindOf k l) d u = .ok r)
    (wx : (.object k x : Operand κ ν K).WF) (wy : (.object l y : Operand κ ν K).WF) (hk : k ≠ .measurement)
    (hl : l ≠ .measurement) : r.WF ∧ CommonShape x.data.shape y.data.shape r.shape := by
  obtain ⟨h1, _, h3, h4⟩ := create_wf hc
  refine ⟨h1, ?_⟩
  by_cases hs : kindOf k l = .scalar
  · obtain ⟨h5, h6⟩ := kindOf_scalar hs
    have h5 := h5.resolve_right hk
    have h6 := h6.resolve_right hl
    subst h5 h6
    have e1 : x.data.shape = [] := wx
    have e2 : y.data.shape = [] := wy
    rw [h4 hs, e1, e2]
    exact ⟨rfl, fun k => .inl ⟨rfl, rfl⟩⟩
  · rw [h3 hs]
    exact (zip_spread (zipData_inv hz)).1

theorem shape_array {K : Type} [Field K] [DecidableEq K] {f : K → K → K} {x y d : ND K} {u : List Term} {axes : Dict κ ν}
    {r : Operand κ ν K} (hz : ND.zip f x y = .ok d) (hc : newArray d u axes = .ok r) (hw : axes.WF) :
    r.WF ∧ r.axes? = some axes ∧ CommonShape x.shape y.shape r.shape := by
  obtain ⟨h1, h2⟩ := newArray_wf hw hc
  refine ⟨h1, h2, ?_⟩
  rw [(newArray_num hc).2.1]
  exact (zip_spread hz).1

theorem withNumber_wf {K : Type} [Field K] [DecidableEq K] {f : K → K} {u : List Term} {a r : Operand κ ν K}
    (wa : a.WF) (h : withNumber f u a = .ok r) : r.WF ∧ r.shape = a.shape ∧ r.axes? = a.axes? := by
  unfold withNumber at h
  split at h
  next a =>
    obtain ⟨h1, h2⟩ := newArray_wf (wf_axes wa) h
    exact ⟨h1, (newArray_num h).2.1, h2⟩
  next k o =>
    obtain ⟨h1, _, h3, h4⟩ := create_wf h
    have h5 : r.shape = o.data.shape := by
      by_cases hs : k = .scalar
      · subst hs
        have : o.data.shape = [] := wa
        rw [h4 rfl, this]
      · exact h3 hs
    refine ⟨h1, h5, ?_⟩
    unfold create at h
    cases k <;> simp only at h
    case measurement => cases h
    all_goals
      split at h
      all_goals cases h <;> rfl
  · cases h

theorem commonShape_scalar (s : List Nat) : CommonShape s [] s := by
  refine ⟨by simp, fun k => .inr (.inr ⟨by simp [fromEnd], rfl⟩)⟩

theorem kindOf_measurement {k : Kind} (hk : k ≠ .measurement) :
    kindOf k .measurement = k ∧ kindOf .measurement k = k := by revert hk; cases k <;> decide

theorem addNumber_shape {K : Type} [Field K] [DecidableEq K] {k : Kind} {x : Obj K} {s : List Nat} {d : ND K}
    {u : List Term} {r : Operand κ ν K} (hk : k ≠ .measurement) (wx : (.object k x : Operand κ ν K).WF)
    (hs : CommonShape x.data.shape [1] d.shape) (hc : create k d u = .ok r) :
    r.WF ∧ CommonShape x.data.shape [] r.shape := by
  obtain ⟨h1, _, h3, h4⟩ := create_wf hc
  refine ⟨h1, ?_⟩
  by_cases hks : k = .scalar
  · subst hks
    have : x.data.shape = [] := wx
    rw [h4 rfl, this]; exact commonShape_scalar _
  · rw [h3 hks]
    refine commonShape_nil hs ?_
    intro h0
    cases k with
    | scalar => exact hks rfl
    | vector => have : x.data.shape.length = 1 := wx; rw [h0] at this; cases this
    | tensor => exact wx h0
    | measurement => exact hk rfl

theorem addArray_shape {K : Type} [Field K] [DecidableEq K] {x : Arr κ ν K} {d : ND K}
    {u : List Term} {r : Operand κ ν K} (wx : x.WF) (hs : CommonShape x.arr.raw.data.shape [1] d.shape)
    (hc : newArray d u x.axes = .ok r) :
    r.WF ∧ CommonShape x.arr.raw.data.shape [] r.shape := by
  obtain ⟨h1, _⟩ := newArray_wf (wf_axes wx) hc
  refine ⟨h1, ?_⟩
  rw [(newArray_num hc).2.1]
  refine commonShape_nil hs ?_
  intro h0
  have h2 := (newArray_inv hc).1
  rw [dimensions_nodup (wf_axes wx), wx.axes, wx.named.length, h0] at h2
  have h3 := hs.length
  have : d.shape.length = 0 := h2.symm
  rw [h0] at h3
  simp [this] at h3

theorem addMeasured_shape {K : Type} [Field K] [DecidableEq K] {same inside : ν → ν → Bool} {f : K → K → K}
    {a b r : Operand κ ν K} (wa : a.WF) (wb : b.WF) (ma : a.isMeasurement = false) (mb : b.isMeasurement = false)
    (h : additiveMeasured same inside f a b = .ok r) : r.WF ∧ CommonShape a.shape b.shape r.shape := by
  unfold additiveMeasured at h
  split at h
  next x y =>
    unfold addArrays at h
    split at h
    · cases h
    next d hd =>
      obtain ⟨_, hz⟩ := additive_zip hd
      split at h
      · split at h
        · obtain ⟨h1, _, h3⟩ := shape_array hz h (wf_axes wa)
          exact ⟨h1, h3⟩
        · split at h
          · cases h
          · cases h
          next axes hax =>
            split at h
            · cases h
            next hr =>
              have hk := (Axes.c74_add _ _ _ _ _ (wf_axes wa) hax).1
              have hw : axes.WF := by unfold Dict.WF; rw [hk]; exact wf_axes wa
              obtain ⟨h1, _, h3⟩ := shape_array hz h hw
              exact ⟨h1, h3⟩
      · cases h
  next x k y =>
    split at h
    · cases h
    · split at h
      · cases h
      next d hd =>
        split at h
        · obtain ⟨h1, _, h3⟩ := shape_array (zipData_inv hd) h (wf_axes wa)
          exact ⟨h1, h3⟩
        · cases h
  next k x y =>
    split at h
    · cases h
    · split at h
      · cases h
      next d hd =>
        split at h
        · obtain ⟨h1, _, h3⟩ := shape_array (zipData_inv hd) h (wf_axes wb)
          exact ⟨h1, h3⟩
        · cases h
  next k x l y =>
    split at h
    · cases h
    next d hd =>
      split at h
      · exact shape_create hd h wa wb (by rintro rfl; cases ma) (by rintro rfl; cases mb)
      · cases h
  · cases h

/-- **C36**, shapes of sums and differences.  A sum has the common shape of its operands (numbers have no axes), and is again
a scalar without axes, a vector with one axis, a tensor with axes or an array whose axes have the names of its
dimensions. -/
theorem c36_sum_shape {K : Type} [Field K] [DecidableEq K] (same inside : ν → ν → Bool) (f : K → K → K)
    (a b r : Operand κ ν K) (wa : a.WF) (wb : b.WF) (ma : a.isMeasurement = false) (mb : b.isMeasurement = false)
    (h : additive same inside f a b = .ok r) : r.WF ∧ CommonShape a.shape b.shape r.shape := by
  cases a with
  | number x => cases b with
    | number y => cases h
    | object k o =>
      simp only [additive] at h
      split at h
      · simp only [additiveMeasured] at h
        split at h
        · cases h
        next d hd =>
          split at h
          · rw [(kindOf_measurement (by rintro rfl; cases mb)).2] at h
            have hs := (zip_spread (zipData_inv hd)).1.symm
            obtain ⟨h1, h2⟩ := addNumber_shape (s := []) (by rintro rfl; cases mb) wb hs h
            exact ⟨h1, h2.symm⟩
          · cases h
      · cases h
    | array c =>
      simp only [additive] at h
      split at h
      · simp only [additiveMeasured] at h
        rw [if_neg (by decide)] at h
        split at h
        · cases h
        next d hd =>
          split at h
          · have hs := (zip_spread (zipData_inv hd)).1.symm
            obtain ⟨h1, h2⟩ := addArray_shape wb hs h
            exact ⟨h1, h2.symm⟩
          · cases h
      · cases h
  | object k o => cases b with
    | number y =>
      simp only [additive] at h
      split at h
      · simp only [additiveMeasured] at h
        split at h
        · cases h
        next d hd =>
          split at h
          · rw [(kindOf_measurement (by rintro rfl; cases ma)).1] at h
            have hs := (zip_spread (zipData_inv hd)).1
            exact addNumber_shape (s := []) (by rintro rfl; cases ma) wa hs h
          · cases h
      · cases h
    | object l y => exact addMeasured_shape (same := same) (inside := inside) wa wb ma mb h
    | array c => exact addMeasured_shape (same := same) (inside := inside) wa wb ma mb h
  | array c => cases b with
    | number y =>
      simp only [additive] at h
      split at h
      · simp only [additiveMeasured] at h
        rw [if_neg (by decide)] at h
        split at h
        · cases h
        next d hd =>
          split at h
          · have hs := (zip_spread (zipData_inv hd)).1
            exact addArray_shape wa hs h
          · cases h
      · cases h
    | object l y => exact addMeasured_shape (same := same) (inside := inside) wa wb ma mb h
    | array c => exact addMeasured_shape (same := same) (inside := inside) wa wb ma mb h

/-- **C36**, shapes of products and quotients, if at most one operand is an array. -/
theorem c36_product_shape {K : Type} [Field K] [DecidableEq K] (order : List System) (times : Bool) (f : K → K → K)
    (a b r : Operand κ ν K) (wa : a.WF) (wb : b.WF) (ma : a.isMeasurement = false) (mb : b.isMeasurement = false)
    (hn : ¬ (a.isArray = true ∧ b.isArray = true)) (h : multiplicative order times f a b = .ok r) :
    r.WF ∧ CommonShape a.shape b.shape r.shape := by
  unfold multiplicative at h
  split at h
  · cases h
  next x b _ =>
    split at h
    · cases h
    · obtain ⟨h1, h2, _⟩ := withNumber_wf wb h
      exact ⟨h1, h2 ▸ (commonShape_scalar _).symm⟩
  next a y _ =>
    obtain ⟨h1, h2, _⟩ := withNumber_wf wa h
    exact ⟨h1, h2 ▸ commonShape_scalar _⟩
  next a b _ _ _ =>
    split at h
    · cases h
    · unfold multiplyMeasured at h
      split at h
      · exact absurd ⟨rfl, rfl⟩ hn
      next x k y =>
        split at h
        · cases h
        next d hd =>
          obtain ⟨h1, _, h3⟩ := shape_array (zipData_inv hd) h (wf_axes wa)
          exact ⟨h1, h3⟩
      next k x y =>
        split at h
        · cases h
        next d hd =>
          obtain ⟨h1, _, h3⟩ := shape_array (zipData_inv hd) h (wf_axes wb)
          exact ⟨h1, h3⟩
      next k x l y =>
        split at h
        · cases h
        next d hd => exact shape_create hd h wa wb (by rintro rfl; cases ma) (by rintro rfl; cases mb)
      · cases h

end Eprem.Physical
