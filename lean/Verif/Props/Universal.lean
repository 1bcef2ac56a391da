import Verif.Model.Universal
import Verif.Spec.Units
import Verif.Spec.MetricValues
import Verif.Props.MetricDimension

/-!
# Universal constants (C60, C78)
-/

namespace Eprem.Universal

open Eprem Eprem.Symbolic Eprem.Metric

/-- The number. -/
noncomputable def Value.real (x : Value) : ℝ := (x.q : ℝ) * Real.pi ^ x.piPower

/-- Mechanical units as powers of ten, gram, centimeter, second and kelvin. -/
def mechanical : List (Name × List ℚ) := [
  (c! "1", [0, 0, 0, 0, 0]), (c! "g", [0, 1, 0, 0, 0]), (c! "kg", [3, 1, 0, 0, 0]), (c! "cm", [0, 0, 1, 0, 0]),
  (c! "m", [2, 0, 1, 0, 0]), (c! "s", [0, 0, 0, 1, 0]), (c! "K", [0, 0, 0, 0, 1]),
  (c! "J", [7, 1, 2, -2, 0]), (c! "erg", [0, 1, 2, -2, 0]), (c! "W", [7, 1, 2, -3, 0]), (c! "dyn", [0, 1, 1, -2, 0])]

/-- Powers of ten and of base units. -/
noncomputable def power (ρ : Name → ℝ) (l : List ℚ) : ℝ :=
  (List.zipWith (fun b e => b ^ ((e : ℚ) : ℝ)) [10, ρ (c! "g"), ρ (c! "cm"), ρ (c! "s"), ρ (c! "K")] l).prod

theorem power_five (ρ : Name → ℝ) (a b c d e : ℚ) : power ρ [a, b, c, d, e] =
    10 ^ (a : ℝ) * (ρ (c! "g") ^ (b : ℝ) * (ρ (c! "cm") ^ (c : ℝ) * (ρ (c! "s") ^ (d : ℝ) * ρ (c! "K") ^ (e : ℝ)))) := by
  simp [power]

theorem power_mul {ρ : Name → ℝ} (hρ : ∀ u, 0 < ρ u) (a b c d e a' b' c' d' e' z : ℚ) :
    power ρ [a', b', c', d', e'] ^ (z : ℝ) * power ρ [a, b, c, d, e] =
      power ρ [a' * z + a, b' * z + b, c' * z + c, d' * z + d, e' * z + e] := by
  simp only [power_five]
  have h1 := hρ (c! "g")
  have h2 := hρ (c! "cm")
  have h3 := hρ (c! "s")
  have h4 := hρ (c! "K")
  have h0 : (0 : ℝ) < 10 := by norm_num
  have key : ∀ {x : ℝ}, 0 < x → ∀ p q : ℚ, x ^ ((p * z + q : ℚ) : ℝ) = (x ^ (p : ℝ)) ^ (z : ℝ) * x ^ (q : ℝ) := by
    intro x hx p q
    rw [← Real.rpow_mul hx.le, ← Real.rpow_add hx]
    push_cast
    rfl
  rw [key h0, key h1, key h2, key h3, key h4]
  rw [Real.mul_rpow (by positivity) (by positivity), Real.mul_rpow (by positivity) (by positivity),
    Real.mul_rpow (by positivity) (by positivity), Real.mul_rpow (by positivity) (by positivity)]
  ring

/-- The exponents of a unit. -/
def exponents : List Term → Option (List ℚ)
  | [] => some [0, 0, 0, 0, 0]
  | t :: u => match Dict.get? mechanical t.base, exponents u with
    | some [a', b', c', d', e'], some [a, b, c, d, e] =>
      if t.coeff = 1 then some [a' * t.exp + a, b' * t.exp + b, c' * t.exp + c, d' * t.exp + d, e' * t.exp + e] else none
    | _, _ => none

/-- The sizes of the base units of mass and length in the two systems: a kilogram is 1000 grams, a meter 100 centimeters. -/
structure Metric (ρ : Name → ℝ) : Prop extends CoherentSizes ρ where
  kilogram : ρ (c! "kg") = 1000 * ρ (c! "g")
  meter : ρ (c! "m") = 100 * ρ (c! "cm")

theorem mechanical_size {ρ : Name → ℝ} (h : Metric ρ) : ∀ p ∈ mechanical, p.1 ≠ one → ρ p.1 = power ρ p.2 := by
  have h1 := h.pos (c! "g")
  have h2 := h.pos (c! "cm")
  have h3 := h.pos (c! "s")
  have hd := h.derived
  have hJ := hd _ (List.mem_of_getElem? (i := 1) rfl)
  have hW := hd _ (List.mem_of_getElem? (i := 2) rfl)
  have hdyn := hd _ (List.mem_of_getElem? (i := 14) rfl)
  have herg := hd _ (List.mem_of_getElem? (i := 15) rfl)
  simp only [List.map_cons, List.map_nil, List.prod_cons, List.prod_nil, h.kilogram, h.meter] at hJ hW hdyn herg
  have t2 : ((10 : ℝ) ^ ((2 : ℚ) : ℝ)) = 100 := by
    rw [show ((2 : ℚ) : ℝ) = ((2 : ℕ) : ℝ) by norm_num, Real.rpow_natCast]; norm_num
  have t3 : ((10 : ℝ) ^ ((3 : ℚ) : ℝ)) = 1000 := by
    rw [show ((3 : ℚ) : ℝ) = ((3 : ℕ) : ℝ) by norm_num, Real.rpow_natCast]; norm_num
  have t7 : ((10 : ℝ) ^ ((7 : ℚ) : ℝ)) = 10000000 := by
    rw [show ((7 : ℚ) : ℝ) = ((7 : ℕ) : ℝ) by norm_num, Real.rpow_natCast]; norm_num
  have q2 : (100 * ρ (c! "cm")) ^ ((2 : ℚ) : ℝ) = 10000 * ρ (c! "cm") ^ ((2 : ℚ) : ℝ) := by
    rw [show ((2 : ℚ) : ℝ) = ((2 : ℕ) : ℝ) by norm_num, Real.rpow_natCast, Real.rpow_natCast]; ring
  have z0 : ∀ x : ℝ, x ^ ((0 : ℚ) : ℝ) = 1 := by intro x; simp
  have z1 : ∀ x : ℝ, x ^ ((1 : ℚ) : ℝ) = x := by intro x; simp
  simp only [q2, z1, mul_one] at hJ hW hdyn herg
  simp only [mechanical, List.forall_mem_cons, power_five, z0, z1, t2, t3, t7, mul_one, one_mul]
  refine ⟨fun h => absurd rfl h, fun _ => trivial, fun _ => h.kilogram, fun _ => trivial, fun _ => h.meter, fun _ => trivial,
    fun _ => trivial, fun _ => ?_, fun _ => ?_, fun _ => ?_, fun _ => ?_, nofun⟩
  · rw [hJ]; ring
  · rw [herg]
  · rw [hW]; ring
  · rw [hdyn]

theorem value_exponents {ρ : Name → ℝ} (h : Metric ρ) : ∀ {u : List Term} {l : List ℚ}, exponents u = some l →
    value ρ u = power ρ l ∧ l.length = 5
  | [], l, hu => by
    cases hu
    simp [value, power_five]
  | t :: u, l, hu => by
    unfold exponents at hu
    split at hu
    next a' b' c' d' e' a b c d e hb hrec =>
      split at hu
      next hc =>
        cases hu
        obtain ⟨hv, -⟩ := value_exponents h hrec
        refine ⟨?_, rfl⟩
        rw [← power_mul h.pos]
        have : value ρ (t :: u) = Term.val ρ t * value ρ u := by simp [value]
        rw [this, hv]
        congr 1
        have hm := Dict.mem_of_get? hb
        unfold Term.val
        rw [hc]
        by_cases ho : t.base = one
        · rw [if_pos ho]
          rw [ho] at hb
          have : Dict.get? mechanical one = some [0, 0, 0, 0, 0] := by decide +kernel
          rw [this] at hb
          cases hb
          simp [power_five]
        · rw [if_neg ho]
          rw [mechanical_size h _ hm ho]
          simp
      next => cases hu
    next => cases hu

theorem amount_ratio {x y : Constant} {k k' f : ℚ} {r : List ℚ} (hk : exponents x.unit = some (k :: r))
    (hk' : exponents y.unit = some (k' :: r)) (hd : k.den = 1) (hd' : k'.den = 1) (hp : x.value.piPower = y.value.piPower)
    (hq : x.value.q * 10 ^ k.num = f * (y.value.q * 10 ^ k'.num)) {ρ : Name → ℝ} (hρ : Metric ρ) :
    x.value.real * value ρ x.unit = f * (y.value.real * value ρ y.unit) := by
  obtain ⟨v1, l1⟩ := value_exponents hρ hk
  obtain ⟨v2, l2⟩ := value_exponents hρ hk'
  rw [v1, v2]
  match r, l1 with
  | [b, c, d, e], _ =>
    rw [power_five, power_five]
    have t : ∀ z : ℚ, z.den = 1 → (10 : ℝ) ^ (z : ℝ) = ((10 ^ z.num : ℚ) : ℝ) := by
      intro z hz
      have : (z : ℝ) = ((z.num : ℤ) : ℝ) := by
        conv_lhs => rw [← Rat.num_div_den z, hz]
        simp
      rw [this, Real.rpow_intCast]
      push_cast
      rfl
    rw [t k hd, t k' hd']
    have hq' : ((x.value.q * 10 ^ k.num : ℚ) : ℝ) = ((f * (y.value.q * 10 ^ k'.num) : ℚ) : ℝ) := by rw [hq]
    rw [Rat.cast_mul, Rat.cast_mul, Rat.cast_mul] at hq'
    unfold Value.real
    rw [hp]
    linear_combination (Real.pi ^ y.value.piPower * (ρ (c! "g") ^ (b : ℝ) * (ρ (c! "cm") ^ (c : ℝ) *
      (ρ (c! "s") ^ (d : ℝ) * ρ (c! "K") ^ (e : ℝ))))) * hq'

/-- Is the amount in the mks system `f` times the amount in the cgs system, by powers of ten? -/
def agrees (f : ℚ) (name : Name) : Bool :=
  match getConstant (c! "mks") name, getConstant (c! "cgs") name with
  | .ok x, .ok y => match exponents x.unit, exponents y.unit with
    | some (k :: r), some (k' :: r') => decide (r = r' ∧ k.den = 1 ∧ k'.den = 1 ∧ x.value.piPower = y.value.piPower ∧
        x.value.q * 10 ^ k.num = f * (y.value.q * 10 ^ k'.num) ∧ x.quantity = y.quantity ∧ x.info = y.info)
    | _, _ => false
  | _, _ => false

theorem agrees_amounts {f : ℚ} {name : Name} (h : agrees f name = true) :
    ∃ x y, getConstant (c! "mks") name = .ok x ∧ getConstant (c! "cgs") name = .ok y ∧ x.quantity = y.quantity ∧
      x.info = y.info ∧ ∀ ρ, Metric ρ → x.value.real * value ρ x.unit = f * (y.value.real * value ρ y.unit) := by
  unfold agrees at h
  split at h
  next x y hx hy =>
    split at h
    next k r k' r' hk hk' =>
      obtain ⟨hr, hd, hd', hp, hq, h1, h2⟩ := of_decide_eq_true h
      subst hr
      exact ⟨x, y, hx, hy, h1, h2, fun ρ hρ => amount_ratio hk hk' hd hd' hp hq hρ⟩
    next => cases h
  next => cases h

/-- The constants whose units in the two systems have different dimensions. -/
def electric : List Name := [c! "e", c! "epsilon0", c! "mu0"]

set_option maxHeartbeats 100000000 in
theorem rows : constants.keys.all (fun n => decide (n ∈ electric) || decide (n = c! "c1") || agrees 1 n) = true := by decide +kernel

/-- **C60**: every constant, apart from the three with electromagnetic units and the first radiation constant, has exactly the
same amount in both systems: number times size of the unit, whatever the sizes of gram, centimeter, second and kelvin.  In
particular, all units are understood. -/
theorem c60_agree_partial (name : Name) (hn : name ∈ constants.keys) (he : name ∉ electric) (hc : name ≠ c! "c1") :
    ∃ x y, getConstant (c! "mks") name = .ok x ∧ getConstant (c! "cgs") name = .ok y ∧ x.quantity = y.quantity ∧
      x.info = y.info ∧ ∀ ρ, Metric ρ → x.value.real * value ρ x.unit = y.value.real * value ρ y.unit := by
  have h := List.all_eq_true.1 rows name hn
  simp only [he, hc, decide_false, Bool.false_or] at h
  obtain ⟨x, y, hx, hy, h1, h2, h3⟩ := agrees_amounts h
  exact ⟨x, y, hx, hy, h1, h2, fun ρ hρ => by rw [h3 ρ hρ]; simp⟩

example : (c! "G") ∈ constants.keys ∧ (c! "G") ∉ electric ∧ (c! "G") ≠ c! "c1" ∧ constants.keys.length = 23 := by decide +kernel

set_option maxHeartbeats 100000000 in
/-- **C60** fails for the first radiation constant: its amount in the cgs system is too small by a factor of 10^11. -/
theorem c60_not_c1 : ∃ x y, getConstant (c! "mks") (c! "c1") = .ok x ∧ getConstant (c! "cgs") (c! "c1") = .ok y ∧
    ∀ ρ, Metric ρ → x.value.real * value ρ x.unit = 10 ^ 11 * (y.value.real * value ρ y.unit) := by
  obtain ⟨x, y, hx, hy, h1, h2, h3⟩ := agrees_amounts (f := 10 ^ 11) (name := c! "c1") (by decide +kernel)
  exact ⟨x, y, hx, hy, fun ρ hρ => by rw [h3 ρ hρ]; norm_num⟩

/-- The constant `name` has this value and unit in the system. -/
def HasValue (system name : Name) (q : ℚ) (n : ℕ) (unit : Name) : Prop :=
  ∃ x, getConstant system name = .ok x ∧ x.value = ⟨q, n⟩ ∧ freshUnit unit = .ok x.unit

/-- A decidable version. -/
def hasValue (system name : Name) (q : ℚ) (n : ℕ) (unit : Name) : Bool :=
  match getConstant system name, freshUnit unit with
  | .ok x, .ok u => decide (x.value = ⟨q, n⟩ ∧ u = x.unit)
  | _, _ => false

theorem hasValue_iff {system name unit : Name} {q : ℚ} {n : ℕ} (h : hasValue system name q n unit = true) :
    HasValue system name q n unit := by
  unfold hasValue at h
  split at h
  next x u hx hu =>
    obtain ⟨h1, h2⟩ := of_decide_eq_true h
    exact ⟨x, hx, h1, by rw [hu, h2]⟩
  next => cases h

set_option maxHeartbeats 100000000 in
/-- **C60**, electromagnetic constants: the numbers are related by the factors between the SI and the Gaussian units, up to
half a unit of the fifth digit; exactly for the permeability. -/
theorem c60_electric : ∀ p ∈ [((c! "e"), (c! "C"), (c! "statC")), ((c! "epsilon0"), (c! "F / m"), (c! "1")),
      ((c! "mu0"), (c! "H / m"), (c! "1"))],
    ∃ q n q' n' g, HasValue (c! "mks") p.1 q n p.2.1 ∧ HasValue (c! "cgs") p.1 q' n' p.2.2 ∧ (p.2, g) ∈ gaussian ∧
      |(⟨q, n⟩ : Value).real * g.factor - (⟨q', n'⟩ : Value).real| ≤ (⟨q', n'⟩ : Value).real / 20000 ∧
      (p.1 = c! "mu0" → (⟨q, n⟩ : Value).real * g.factor = (⟨q', n'⟩ : Value).real) := by
  have hpi1 := Real.pi_gt_d6
  have hpi2 := Real.pi_lt_d6
  have hpi := Real.pi_pos
  simp only [List.forall_mem_cons]
  refine ⟨⟨16022 / 10 ^ 23, 0, 48032 / 10 ^ 14, 0, _, hasValue_iff (by decide +kernel), hasValue_iff (by decide +kernel),
      List.mem_of_getElem? (i := 6) rfl, ?_, fun h => absurd h (by decide)⟩,
    ⟨88542 / 10 ^ 16, 0, 10 / 10 ^ 1, 0, _, hasValue_iff (by decide +kernel), hasValue_iff (by decide +kernel),
      List.mem_of_getElem? (i := 18) rfl, ?_, fun h => absurd h (by decide)⟩,
    ⟨4 / 10 ^ 7, 1, 10 / 10 ^ 1, 0, _, hasValue_iff (by decide +kernel), hasValue_iff (by decide +kernel),
      List.mem_of_getElem? (i := 17) rfl, ?_, fun _ => ?_⟩, nofun⟩
  · simp only [Value.real, Gaussian.factor, lightCgs]
    rw [abs_le]
    constructor <;> norm_num
  · simp only [Value.real, Gaussian.factor, lightCgs]
    rw [abs_le]
    norm_num
    constructor <;> nlinarith
  · simp only [Value.real, Gaussian.factor, lightCgs]
    have : (Real.pi : ℝ) ≠ 0 := hpi.ne'
    norm_num
    field_simp
    norm_num
  · simp only [Value.real, Gaussian.factor, lightCgs]
    have : (Real.pi : ℝ) ≠ 0 := hpi.ne'
    norm_num
    field_simp
    norm_num

/-- The name of a system. -/
def systemName : System → Name
  | .mks => c! "mks"
  | .cgs => c! "cgs"

/-- **C60**: there are no other constants, and other names and systems are refused. -/
theorem c60_unknown (system name : Name) : (name ∉ constants.keys → getConstant system name = .error .key) ∧
    (name ∈ constants.keys → (∀ s, system.map Char.toLower ≠ systemName s) → getConstant system name = .error .key) ∧
    (∀ s, system.map Char.toLower = systemName s → getConstant system name = getConstant (systemName s) name) := by
  refine ⟨?_, ?_, ?_⟩
  · intro h
    have : constants.get? name = none := Dict.get?_eq_none.2 h
    simp only [getConstant, this]
  · intro h hs
    obtain ⟨d, hd⟩ := Dict.get?_isSome.2 h
    have h1 := hs .mks
    have h2 := hs .cgs
    simp only [systemName] at h1 h2
    simp only [getConstant, hd, systemOf, h1, h2, if_false]
  · intro s hs
    have : systemOf system = systemOf (systemName s) := by
      unfold systemOf
      simp only [hs]
      cases s <;> rfl
    unfold getConstant
    rw [this]

/-! ## Dimensions -/

/-- The exponent of a base dimension in a unit. -/
def unitExponent (s : System) (x : Name) (u : List Term) : ℚ :=
  (u.map (fun t => t.exp * DimExp.exponent x (dimOf s (match named t.base with | some e => e.base.symbol | none => [])))).sum

/-- The unit of the constant and the unit of its quantity have the same dimension. -/
def sameDimension (s : System) (name : Name) : Bool :=
  match getConstant (systemName s) name with
  | .error _ => false
  | .ok x => match unitsOf s x.quantity with
    | .error _ => false
    | .ok un => match exprOfString false un with
      | .error _ => false
      | .ok u => (x.unit ++ u).all (fun t => (named t.base).isSome) &&
        baseDims.all (fun b => decide (unitExponent s b x.unit = unitExponent s b u))

set_option maxHeartbeats 100000000 in
theorem dimensions_mks : constants.keys.all (sameDimension .mks) = true := by decide +kernel

set_option maxHeartbeats 100000000 in
theorem dimensions_cgs : constants.keys.all (sameDimension .cgs) = true := by decide +kernel

/-- **C78**: in both systems the unit of every constant has the physical dimension of the unit that the system uses for the
quantity of the constant. -/
theorem c78_dimension (s : System) (name : Name) (hn : name ∈ constants.keys) :
    ∃ x un u, getConstant (systemName s) name = .ok x ∧ unitsOf s x.quantity = .ok un ∧ exprOfString false un = .ok u ∧
      (∀ t ∈ x.unit ++ u, ∃ e, namedUnits.getItem t.base = .ok e) ∧
      ∀ b ∈ baseDims, (x.unit.map (fun t => t.exp * DimExp.exponent b (dimOf s (baseOf t.base)))).sum =
        (u.map (fun t => t.exp * DimExp.exponent b (dimOf s (baseOf t.base)))).sum := by
  have h : sameDimension s name = true := by
    cases s
    · exact List.all_eq_true.1 dimensions_mks name hn
    · exact List.all_eq_true.1 dimensions_cgs name hn
  unfold sameDimension at h
  split at h
  next => cases h
  next x hx =>
    split at h
    next => cases h
    next un hun =>
      split at h
      next => cases h
      next u hu =>
        simp only [Bool.and_eq_true, List.all_eq_true, decide_eq_true_eq] at h
        obtain ⟨h1, h2⟩ := h
        have key : ∀ b, ∀ l : List Term, (∀ t ∈ l, (named t.base).isSome = true) →
            (l.map (fun t => t.exp * DimExp.exponent b (dimOf s (baseOf t.base)))).sum = unitExponent s b l := by
          intro b l hl
          unfold unitExponent
          congr 1
          refine List.map_congr_left ?_
          intro t ht
          have := hl t ht
          cases hn : named t.base with
          | none => rw [hn] at this; cases this
          | some e => rw [baseOf_named hn]
        refine ⟨x, un, u, hx, hun, hu, ?_, ?_⟩
        · intro t ht
          rw [c22_lookup]
          have := h1 t ht
          cases hn : named t.base with
          | none => rw [hn] at this; cases this
          | some e => exact ⟨e, rfl⟩
        · intro b hb
          rw [key b x.unit (fun t ht => h1 t (List.mem_append_left _ ht)),
            key b u (fun t ht => h1 t (List.mem_append_right _ ht))]
          exact h2 b hb

/-! ## Sizes -/

/-- Sizes as powers of ten, if gram, centimeter, second, ampere and candela have size 1. -/
def tens : List (Name × ℚ) := [
  (c! "kg", 3), (c! "m", 2), (c! "N", 5), (c! "J", 7), (c! "W", 7), (c! "Pa", 1), (c! "V", 7), (c! "Ω", 7), (c! "S", -7),
  (c! "F", -7), (c! "H", 7), (c! "Wb", 7), (c! "T", 3), (c! "lx", -4), (c! "Gy", 4)]

def tensOf (n : Name) : ℚ := (Dict.get? tens n).getD 0

/-- There are such sizes. -/
theorem metric_sizes : Metric (fun n => (10 : ℝ) ^ ((tensOf n : ℚ) : ℝ)) := by
  have key : ∀ l : List (Name × ℚ), (l.map (fun q => ((10 : ℝ) ^ ((tensOf q.1 : ℚ) : ℝ)) ^ ((q.2 : ℚ) : ℝ))).prod =
      10 ^ (((l.map (fun q => tensOf q.1 * q.2)).sum : ℚ) : ℝ) := by
    intro l
    induction l with
    | nil => simp
    | cons q l ih =>
      rw [List.map_cons, List.prod_cons, ih, List.map_cons, List.sum_cons, ← Real.rpow_mul (by norm_num),
        ← Real.rpow_add (by norm_num)]
      push_cast
      rfl
  have hd : ∀ p ∈ derivedUnits, tensOf p.1 = (p.2.map (fun q => tensOf q.1 * q.2)).sum := by decide +kernel
  refine ⟨⟨fun u => by positivity, ?_⟩, ?_, ?_⟩
  · intro p hp
    rw [key, hd p hp]
  · have h1 : tensOf (c! "kg") = 3 := by decide
    have h2 : tensOf (c! "g") = 0 := by decide
    simp only [h1, h2]
    rw [show ((3 : ℚ) : ℝ) = ((3 : ℕ) : ℝ) by norm_num, Real.rpow_natCast]
    norm_num
  · have h1 : tensOf (c! "m") = 2 := by decide
    have h2 : tensOf (c! "cm") = 0 := by decide
    simp only [h1, h2]
    rw [show ((2 : ℚ) : ℝ) = ((2 : ℕ) : ℝ) by norm_num, Real.rpow_natCast]
    norm_num

end Eprem.Universal
