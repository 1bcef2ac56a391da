import Verif.Spec.ObservableAlgebra
import Verif.Lemmas.Observable
import Verif.Lemmas.UnitAlgebra

/-! # Lemmas for the algebra of observable quantities -/

namespace Eprem.Observable

open Eprem Eprem.Symbolic Eprem.Metric Eprem.Numeric Eprem.Measured Eprem.Physical

variable {A κ ν ι : Type} [DecidableEq κ] {G : Grid κ ν}

theorem newArray_unscaled {d : ND ℝ} {u : List Term} {axes : Dict κ ν} {r : Operand κ ν ℝ} (h : newArray d u axes = .ok r) :
    Unscaled r := by
  unfold newArray at h
  cases hf : arrayFactory d axes.keys with
  | error e => rw [hf] at h; cases h
  | ok x => rw [hf] at h; cases h; rintro a ⟨⟩; rfl

theorem additive_unscaled {same inside : ν → ν → Bool} {f : ℝ → ℝ → ℝ} {x y : Arr κ ν ℝ} {r : Operand κ ν ℝ}
    (h : Physical.additive same inside f (.array x) (.array y) = .ok r) : Unscaled r := by
  have h : addArrays same inside f x y = .ok r := h
  unfold addArrays at h
  split at h
  · cases h
  · split at h
    · split at h
      · exact newArray_unscaled h
      · split at h
        · cases h
        · cases h
        · split at h
          · cases h
          · exact newArray_unscaled h
    · cases h

theorem multiplicative_unscaled {o : List System} {tm : Bool} {f : ℝ → ℝ → ℝ} {x y : Arr κ ν ℝ} {r : Operand κ ν ℝ}
    (h : Physical.multiplicative o tm f (.array x) (.array y) = .ok r) : Unscaled r := by
  unfold Physical.multiplicative at h
  simp only [multiplyMeasured] at h
  split at h
  · cases h
  · split at h
    · cases h
    · split at h
      · cases h
      · exact newArray_unscaled h

theorem OnGrid.isArray {dims : List κ} {u : List Term} {h : (κ → Nat) → ℝ} {r : Operand κ ν ℝ} (hr : OnGrid G dims u h r) :
    ∃ c, r = .array c := by
  obtain ⟨_, c, rfl, _⟩ := hr
  exact ⟨c, rfl⟩

/-- what is known of a quantity that was built -/
structure Built (G : Grid κ ν) (user : A) (W : ℚ) (amount : (Name → ℝ) → (κ → Nat) → ℝ) (direct : Prop)
    (q : Quantity A κ ν) : Prop where
  nodup : q.dims.Nodup
  observed : ∀ r, q.operator user = .ok r → ∃ u h, OnGrid G q.dims u h r ∧ QuarterUnit u ∧ weight u ≤ W ∧
    (∀ ρ, CoherentSizes ρ → ∀ p, h p * value ρ u = amount ρ p) ∧ Unscaled r
  succeeds : direct → ∃ r, q.operator user = .ok r ∧ r.unit = q.unit

theorem OnGrid.unit_eq {dims : List κ} {u : List Term} {h : (κ → Nat) → ℝ} {r : Operand κ ν ℝ} (hr : OnGrid G dims u h r) :
    r.unit = u := by
  obtain ⟨_, c, rfl, _, _, _, _, hu, _⟩ := hr
  exact hu

theorem dimsOr_ok {a b d : List κ} (ha : a.Nodup) (hb : b.Nodup) (h : dimsOr a b = .ok d) :
    Container.merge a b = .ok d ∧ d.Nodup := by
  unfold dimsOr at h
  cases hm : Container.merge a b with
  | error e => rw [hm] at h; cases h
  | ok m =>
    have hM := Container.c09_merge_ok a b m ha hb hm
    rw [hm] at h
    simp only [dimensions_nodup hM.nodup, Except.ok.injEq] at h
    subst h
    exact ⟨rfl, hM.nodup⟩

theorem qApply_inv {f : Operand κ ν ℝ → Operand κ ν ℝ → Except PErr (Operand κ ν ℝ)} {p q : Quantity A κ ν} {u : List Term}
    {d : List κ} {user : A} {r : Operand κ ν ℝ} (h : (qApply f p q u d).operator user = .ok r) :
    ∃ x y, p.operator user = .ok x ∧ q.operator user = .ok y ∧ f x y = .ok r := by
  unfold qApply at h
  simp only at h
  cases hx : p.operator user with
  | error e => rw [hx] at h; cases h
  | ok x =>
    cases hy : q.operator user with
    | error e => rw [hx, hy] at h; cases h
    | ok y =>
      rw [hx, hy] at h
      dsimp only at h
      cases hf : f x y with
      | error e => rw [hf] at h; cases h
      | ok z => rw [hf] at h; simp only [ofPhysical, Except.ok.injEq] at h; exact ⟨x, y, rfl, rfl, by rw [hf, h]⟩

theorem qApply_ok {f : Operand κ ν ℝ → Operand κ ν ℝ → Except PErr (Operand κ ν ℝ)} {p q : Quantity A κ ν} {u : List Term}
    {d : List κ} {user : A} {x y r : Operand κ ν ℝ} (hx : p.operator user = .ok x) (hy : q.operator user = .ok y)
    (h : f x y = .ok r) : (qApply f p q u d).operator user = .ok r := by
  unfold qApply
  simp only [hx, hy, h, ofPhysical]

theorem value_of_eq {u v : List Term} (hu : QuarterUnit u) (hv : QuarterUnit v) (hw : weight u + weight v < 2 ^ 50)
    (he : exprEq u v = true) (ρ : Name → ℝ) : value ρ v = value ρ u := by
  have hp := quarter_eq_perm hu hv hw he
  unfold value
  exact (hp.symm.map _).prod_eq

theorem built_sum {same inside : ν → ν → Bool} (hr : ∀ x, same x x = true) (f : ℝ → ℝ → ℝ)
    (hf : ∀ a b v : ℝ, f a b * v = f (a * v) (b * v)) {user : A} {W V : ℚ} (hW : W + V < 2 ^ 50)
    {am bm : (Name → ℝ) → (κ → Nat) → ℝ} {d e : Prop} {p q : Quantity A κ ν} (hp : Built G user W am d p)
    (hq : Built G user V bm e q) (he : equalMetadata p q = true) :
    Built G user (W + V) (fun ρ x => f (am ρ x) (bm ρ x)) (d ∧ e) (qApply (Physical.additive same inside f) p q p.unit p.dims) := by
  unfold equalMetadata at he
  simp only [Bool.and_eq_true, decide_eq_true_eq] at he
  obtain ⟨he, hd⟩ := he
  refine ⟨hp.nodup, ?_, ?_⟩
  · intro r hr'
    obtain ⟨x, y, hx, hy, hz⟩ := qApply_inv hr'
    obtain ⟨u, g, ga, gb, gc, gd, _⟩ := hp.observed x hx
    obtain ⟨v, h, ha, hb, hc, hdd, _⟩ := hq.observed y hy
    have hv0 := weight_nonneg v
    obtain ⟨h1, _, _⟩ := additive_shows hz
    rw [ga.unit_eq, ha.unit_eq] at h1
    obtain ⟨z, z1, z2⟩ := add_grid (same := same) (inside := inside) hr f ga (hd ▸ ha) h1
    rw [hz, Except.ok.injEq] at z1
    subst z1
    refine ⟨u, _, z2, gb, by linarith [weight_nonneg v], fun ρ hρ pos => ?_, ?_⟩
    · rw [hf, gd ρ hρ pos, ← value_of_eq gb hb (by linarith) h1, hdd ρ hρ pos]
    · obtain ⟨x', rfl⟩ := ga.isArray
      obtain ⟨y', rfl⟩ := ha.isArray
      exact additive_unscaled hz
  · rintro ⟨h1, h2⟩
    obtain ⟨x, hx, ux⟩ := hp.succeeds h1
    obtain ⟨y, hy, uy⟩ := hq.succeeds h2
    obtain ⟨u, g, ga, gb, gc, gd, _⟩ := hp.observed x hx
    obtain ⟨v, h, ha, hb, hc, hdd, _⟩ := hq.observed y hy
    have e1 : u = p.unit := ga.unit_eq.symm.trans ux
    have e2 : v = q.unit := ha.unit_eq.symm.trans uy
    obtain ⟨z, z1, z2⟩ := add_grid (same := same) (inside := inside) hr f ga (hd ▸ ha) (by rw [e1, e2]; exact he)
    exact ⟨z, qApply_ok hx hy z1, z2.unit_eq.trans e1⟩

theorem built_product {o : List System} (tm : Bool) (f : ℝ → ℝ → ℝ)
    (hu : ∀ {a b : List Term}, QuarterUnit a → QuarterUnit b → weight a + weight b < 2 ^ 50 →
      ∃ r, combineUnits o tm a b = .ok r ∧ QuarterUnit r ∧ weight r ≤ weight a + weight b ∧
        ∀ ρ, CoherentSizes ρ → value ρ r = f (value ρ a) (value ρ b))
    (hf : ∀ a b v w : ℝ, f a b * f v w = f (a * v) (b * w)) {user : A} {W V : ℚ} (hW : W + V < 2 ^ 50)
    {am bm : (Name → ℝ) → (κ → Nat) → ℝ} {d e : Prop} {p q : Quantity A κ ν} (hp : Built G user W am d p)
    (hq : Built G user V bm e q) {w : List Term} (hw : combineUnits o tm p.unit q.unit = .ok w) {dims : List κ}
    (hd : dimsOr p.dims q.dims = .ok dims) :
    Built G user (W + V) (fun ρ x => f (am ρ x) (bm ρ x)) (d ∧ e) (qApply (multiplicative o tm f) p q w dims) := by
  obtain ⟨hm, hn⟩ := dimsOr_ok hp.nodup hq.nodup hd
  refine ⟨hn, ?_, ?_⟩
  · intro r hr'
    obtain ⟨x, y, hx, hy, hz⟩ := qApply_inv hr'
    obtain ⟨u, g, ga, gb, gc, gd, _⟩ := hp.observed x hx
    obtain ⟨v, h, ha, hb, hc, hdd, _⟩ := hq.observed y hy
    obtain ⟨s, s1, s2, s3, s4⟩ := hu gb hb (by linarith)
    obtain ⟨z, z1, z2⟩ := mul_grid o tm f ga ha hm s1
    rw [hz, Except.ok.injEq] at z1
    subst z1
    refine ⟨s, _, z2, s2, by linarith, fun ρ hρ pos => ?_, ?_⟩
    · rw [s4 ρ hρ, hf, gd ρ hρ pos, hdd ρ hρ pos]
    · obtain ⟨x', rfl⟩ := ga.isArray
      obtain ⟨y', rfl⟩ := ha.isArray
      exact multiplicative_unscaled hz
  · rintro ⟨h1, h2⟩
    obtain ⟨x, hx, ux⟩ := hp.succeeds h1
    obtain ⟨y, hy, uy⟩ := hq.succeeds h2
    obtain ⟨u, g, ga, gb, gc, gd, _⟩ := hp.observed x hx
    obtain ⟨v, h, ha, hb, hc, hdd, _⟩ := hq.observed y hy
    have e1 : u = p.unit := ga.unit_eq.symm.trans ux
    have e2 : v = q.unit := ha.unit_eq.symm.trans uy
    obtain ⟨z, z1, z2⟩ := mul_grid o tm f ga ha hm (by rw [e1, e2]; exact hw)
    exact ⟨z, qApply_ok hx hy z1, z2.unit_eq⟩

theorem combine_mul_quarter {o : List System} (ho : o ∈ Orders) {a b : List Term} (ha : QuarterUnit a) (hb : QuarterUnit b)
    (h : weight a + weight b < 2 ^ 50) : ∃ r, combineUnits o true a b = .ok r ∧ QuarterUnit r ∧
      weight r ≤ weight a + weight b ∧ ∀ ρ, CoherentSizes ρ → value ρ r = value ρ a * value ρ b := by
  obtain ⟨r, h1, h2⟩ := unitMul_quarter ho ha hb h
  exact ⟨r, by simp [combineUnits, h1], h2⟩

theorem combine_div_quarter {o : List System} (ho : o ∈ Orders) {a b : List Term} (ha : QuarterUnit a) (hb : QuarterUnit b)
    (h : weight a + weight b < 2 ^ 50) : ∃ r, combineUnits o false a b = .ok r ∧ QuarterUnit r ∧
      weight r ≤ weight a + weight b ∧ ∀ ρ, CoherentSizes ρ → value ρ r = value ρ a / value ρ b := by
  obtain ⟨r, h1, h2⟩ := unitDiv_quarter ho ha hb h
  exact ⟨r, by simp [combineUnits, h1], h2⟩

theorem total_nonneg (env : ι → Quantity A κ ν) (x : Compound ι) : 0 ≤ total env x := by
  unfold total
  apply List.sum_nonneg
  intro y hy
  obtain ⟨i, _, rfl⟩ := List.mem_map.1 hy
  exact weight_nonneg _

theorem total_append {env : ι → Quantity A κ ν} {x y : Compound ι} (l : List ι) (h : l = x.leaves ++ y.leaves) :
    (l.map (fun i => weight (env i).unit)).sum = total env x + total env y := by
  rw [h, List.map_append, List.sum_append]; rfl

theorem built_compound {c : Conv ℝ} (ho : c.systems ∈ Orders) {same inside : ν → ν → Bool} (hr : ∀ x, same x x = true)
    {env : ι → Quantity A κ ν} {user : A} {g : ι → (κ → Nat) → ℝ} :
    ∀ (x : Compound ι) (st : Cache ℝ), total env x < 2 ^ 50 →
      (∀ i ∈ x.leaves, QuarterUnit (env i).unit ∧ ∃ a, (env i).operator user = .ok a ∧
        OnGrid G (env i).dims (env i).unit (g i) a ∧ Unscaled a) →
      ∀ q, (build c same inside env st x).2 = .ok q →
      Built G user (total env x) (fun ρ p => x.amount (fun i => g i p * value ρ (env i).unit)) x.Direct q ∧
        (x.Direct → QuarterUnit q.unit ∧ weight q.unit ≤ total env x)
  | .leaf i, st, hw, hl, q, hq => by
    simp only [build, Except.ok.injEq] at hq
    subst hq
    obtain ⟨h1, a, h2, h3, h4⟩ := hl i (by simp [Compound.leaves])
    have e : total env (.leaf i) = weight (env i).unit := by simp [total, Compound.leaves]
    refine ⟨⟨h3.nodup, ?_, fun _ => ⟨a, h2, h3.unit_eq⟩⟩, fun _ => ⟨h1, e.ge⟩⟩
    intro r hr
    rw [h2, Except.ok.injEq] at hr
    subst hr
    exact ⟨_, _, h3, h1, e.ge, fun ρ _ p => rfl, h4⟩
  | .add x y, st, hw, hl, q, hq => by
    have e : total env (.add x y) = total env x + total env y := total_append _ rfl
    rw [e] at hw ⊢
    have px := total_nonneg env x
    have py := total_nonneg env y
    simp only [build] at hq
    have ix := built_compound (inside := inside) ho hr x st (by linarith)
      (fun i hi => hl i (List.mem_append_left _ hi))
    generalize hX : build c same inside env st x = X at hq ix
    obtain ⟨st1, (ex | p)⟩ := X
    · cases hq
    have iy := built_compound (inside := inside) ho hr y st1 (by linarith)
      (fun i hi => hl i (List.mem_append_right _ hi))
    simp only at hq
    generalize hY : build c same inside env st1 y = Y at hq iy
    obtain ⟨st2, (ey | p')⟩ := Y
    · cases hq
    simp only [qAdd] at hq
    split at hq
    next he =>
      cases hq
      obtain ⟨bx, dx⟩ := ix p rfl
      obtain ⟨by', dy⟩ := iy p' rfl
      refine ⟨built_sum hr (fun a b => a + b) (fun a b v => add_mul a b v) hw bx by' he, fun hd => ?_⟩
      obtain ⟨h1, h2⟩ := dx hd.1
      exact ⟨h1, le_trans h2 (by linarith)⟩
    · cases hq
  | .sub x y, st, hw, hl, q, hq => by
    have e : total env (.sub x y) = total env x + total env y := total_append _ rfl
    rw [e] at hw ⊢
    have px := total_nonneg env x
    have py := total_nonneg env y
    simp only [build] at hq
    have ix := built_compound (inside := inside) ho hr x st (by linarith)
      (fun i hi => hl i (List.mem_append_left _ hi))
    generalize hX : build c same inside env st x = X at hq ix
    obtain ⟨st1, (ex | p)⟩ := X
    · cases hq
    have iy := built_compound (inside := inside) ho hr y st1 (by linarith)
      (fun i hi => hl i (List.mem_append_right _ hi))
    simp only at hq
    generalize hY : build c same inside env st1 y = Y at hq iy
    obtain ⟨st2, (ey | p')⟩ := Y
    · cases hq
    simp only [qSub] at hq
    split at hq
    next he =>
      cases hq
      obtain ⟨bx, dx⟩ := ix p rfl
      obtain ⟨by', dy⟩ := iy p' rfl
      refine ⟨built_sum hr (fun a b => a - b) (fun a b v => sub_mul a b v) hw bx by' he, fun hd => ?_⟩
      obtain ⟨h1, h2⟩ := dx hd.1
      exact ⟨h1, le_trans h2 (by linarith)⟩
    · cases hq
  | .mul x y, st, hw, hl, q, hq => by
    have e : total env (.mul x y) = total env x + total env y := total_append _ rfl
    rw [e] at hw ⊢
    have px := total_nonneg env x
    have py := total_nonneg env y
    simp only [build] at hq
    have ix := built_compound (inside := inside) ho hr x st (by linarith)
      (fun i hi => hl i (List.mem_append_left _ hi))
    generalize hX : build c same inside env st x = X at hq ix
    obtain ⟨st1, (ex | p)⟩ := X
    · cases hq
    have iy := built_compound (inside := inside) ho hr y st1 (by linarith)
      (fun i hi => hl i (List.mem_append_right _ hi))
    simp only at hq
    generalize hY : build c same inside env st1 y = Y at hq iy
    obtain ⟨st2, (ey | p')⟩ := Y
    · cases hq
    simp only [qMul] at hq
    cases hu : unitMul c.systems p.unit p'.unit with
    | error e => rw [hu] at hq; cases hq
    | ok w =>
      cases hd : dimsOr p.dims p'.dims with
      | error e => rw [hu, hd] at hq; cases hq
      | ok dims =>
        rw [hu, hd] at hq
        cases hq
        obtain ⟨bx, dx⟩ := ix p rfl
        obtain ⟨by', dy⟩ := iy p' rfl
        refine ⟨built_product true (fun a b => a * b) (fun ha hb h => combine_mul_quarter ho ha hb h)
          (fun a b v w => mul_mul_mul_comm a b v w) hw bx by' (by simp [combineUnits, hu]) hd, fun hd => ?_⟩
        obtain ⟨h1, h2⟩ := dx hd.1
        obtain ⟨h3, h4⟩ := dy hd.2
        obtain ⟨w', hw1, hw2, hw3, _⟩ := unitMul_quarter ho h1 h3 (by linarith)
        rw [hu, Except.ok.injEq] at hw1
        subst hw1
        exact ⟨hw2, le_trans hw3 (by linarith)⟩
  | .div x y, st, hw, hl, q, hq => by
    have e : total env (.div x y) = total env x + total env y := total_append _ rfl
    rw [e] at hw ⊢
    have px := total_nonneg env x
    have py := total_nonneg env y
    simp only [build] at hq
    have ix := built_compound (inside := inside) ho hr x st (by linarith)
      (fun i hi => hl i (List.mem_append_left _ hi))
    generalize hX : build c same inside env st x = X at hq ix
    obtain ⟨st1, (ex | p)⟩ := X
    · cases hq
    have iy := built_compound (inside := inside) ho hr y st1 (by linarith)
      (fun i hi => hl i (List.mem_append_right _ hi))
    simp only at hq
    generalize hY : build c same inside env st1 y = Y at hq iy
    obtain ⟨st2, (ey | p')⟩ := Y
    · cases hq
    simp only [qDiv] at hq
    cases hu : unitDiv c.systems p.unit p'.unit with
    | error e => rw [hu] at hq; cases hq
    | ok w =>
      cases hd : dimsOr p.dims p'.dims with
      | error e => rw [hu, hd] at hq; cases hq
      | ok dims =>
        rw [hu, hd] at hq
        cases hq
        obtain ⟨bx, dx⟩ := ix p rfl
        obtain ⟨by', dy⟩ := iy p' rfl
        refine ⟨built_product false (fun a b => a / b) (fun ha hb h => combine_div_quarter ho ha hb h)
          (fun a b v w => div_mul_div_comm a b v w) hw bx by' (by simp [combineUnits, hu]) hd, fun hd => ?_⟩
        obtain ⟨h1, h2⟩ := dx hd.1
        obtain ⟨h3, h4⟩ := dy hd.2
        obtain ⟨w', hw1, hw2, hw3, _⟩ := unitDiv_quarter ho h1 h3 (by linarith)
        rw [hu, Except.ok.injEq] at hw1
        subst hw1
        exact ⟨hw2, le_trans hw3 (by linarith)⟩
  | .convert x new, st, hw, hl, q, hq => by
    have e : total env (.convert x new) = total env x := rfl
    rw [e] at hw ⊢
    simp only [build] at hq
    have ix := built_compound (inside := inside) ho hr x st hw hl
    generalize hX : build c same inside env st x = X at hq ix
    obtain ⟨st1, (ex | p)⟩ := X
    · cases hq
    obtain ⟨bx, dx⟩ := ix p rfl
    refine ⟨?_, fun hd => hd.elim⟩
    simp only [qWithunit] at hq
    split at hq
    · cases hq
      exact ⟨bx.nodup, bx.observed, fun hd => hd.elim⟩
    · generalize consistent c st1 p.unit new = Z at hq
      obtain ⟨st2, (ez | b)⟩ := Z
      · cases hq
      · cases b
        · cases hq
        · cases hq
          exact ⟨bx.nodup, bx.observed, fun hd => hd.elim⟩

/-- the printed name of a unit can be read -/
theorem quarter_fresh {u : List Term} (hu : QuarterUnit u) : ∃ w, freshUnit (showExpr u) = .ok w := by
  have hU := isUnit_iff.1 hu.unit
  have hF := hU.frac
  have hrow : ∀ t ∈ u, Row t := by
    intro t ht
    have hc := hF.coeff t ht
    refine ⟨⟨by rw [hc]; norm_num, (hF.exp t ht).2, (hF.base t ht).symm, by rw [hc]; norm_num, by rw [hc]; exact fl_one, ?_,
      fun _ => .inl hc⟩, fun _ => hc⟩
    exact le_trans (frac_den (by norm_num) (hF.exp t ht).1) (by norm_num)
  obtain ⟨r, _, _, _, hr, _, _⟩ := reduce_ok hF.nonempty hF.wf
  have hN : Frac 4 r := reduce_frac (by norm_num) hF.nonempty hF.coeff hF.exp (fun t ht => (hF.base t ht).imp id And.left) hr
  obtain ⟨_, _, _, _, _, s6, _⟩ := reduce_spec hF.nonempty hF.wf hr
  have hs : ∀ t ∈ r, Usable t.base := by
    intro t ht
    by_cases h1 : t.base = one
    · rw [h1]; exact usable_one
    · obtain ⟨x, hx, hxb⟩ := List.mem_map.1 (s6 t ht h1)
      rw [← hxb]
      exact (hU.terms x hx).symbol
  refine ⟨r, ?_⟩
  unfold freshUnit
  rw [showExpr_round_trip u hF.nonempty hrow, hr]
  exact unitOfExpr_ok hN hs

theorem quarter_fresh_canonical {u : List Term} (hu : QuarterUnit u) (hc : Canonical u) : freshUnit (showExpr u) = .ok u := by
  obtain ⟨w, hw⟩ := quarter_fresh hu
  have hU := isUnit_iff.1 hu.unit
  have hF := hU.frac
  have hrow : ∀ t ∈ u, Row t := by
    intro t ht
    have hc := hF.coeff t ht
    refine ⟨⟨by rw [hc]; norm_num, (hF.exp t ht).2, (hF.base t ht).symm, by rw [hc]; norm_num, by rw [hc]; exact fl_one, ?_,
      fun _ => .inl hc⟩, fun _ => hc⟩
    exact le_trans (frac_den (by norm_num) (hF.exp t ht).1) (by norm_num)
  unfold freshUnit
  rw [showExpr_round_trip u hF.nonempty hrow, hc.reduce_self hF.wf.bases]
  exact unitOfExpr_ok hF (fun t ht => (hU.terms t ht).symbol)

theorem strings_self (E : Env) (s : Name) : convertAsStrings E s s = some 1 := by
  unfold convertAsStrings
  simp [recursiveConversion, standardConversion, simpleConversion, truthy]

/-- the conversion of an array to its own unit -/
theorem convert_self {nodes : List Name} {systems : List System} (rs : List (Name × Name)) {dims : List κ} {u : List Term}
    {h : (κ → Nat) → ℝ} {r : Operand κ ν ℝ} (hr : OnGrid G dims u h r) (hu : QuarterUnit u) :
    (convertResult (realConv nodes systems) (afterRequests (realConv nodes systems) [] rs) r u).2 = .ok r := by
  obtain ⟨_, c, rfl, _, _, _, _, rfl, _⟩ := hr
  obtain ⟨w, hw⟩ := quarter_fresh hu
  have h1 : convert (realConv nodes systems) (showExpr c.arr.unit) (showExpr c.arr.unit) = .ok 1 := by
    have := convert_strings (nodes := nodes) (systems := systems) (f := 1) (strings_self (realEnv nodes) (showExpr c.arr.unit))
    rw [this]; norm_num
  have := conversion_ok (realConv nodes systems) rs c.arr.unit (showExpr c.arr.unit) w w 1 h1 (by rw [h1]; norm_num) hw hw
  simp only [convertResult, PArr.withunit, this, converter, exprEq_refl, if_true]

end Eprem.Observable
