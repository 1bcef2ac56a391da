import Verif.Lemmas.ObservableAlgebra
import Verif.Props.UnitEquivalence
import Verif.Props.Observable

/-!
# C86: the algebra of observable quantities

`realConv nodes systems` are the conversions of the package, and `afterRequests _ [] rs` are the conversions that are known
after any history `rs` of requests.  The grid `G` is that of the request: for each dimension the requested number of values and
the axis of the result.  The vocabulary is in `Spec/ObservableAlgebra.lean`, `Spec/UnitAlgebra.lean` and `Spec/Observable.lean`.
-/

namespace Eprem.Observable

open Eprem Eprem.Symbolic Eprem.Metric Eprem.Numeric Eprem.Measured Eprem.Physical

variable {A κ ν ι : Type} [DecidableEq κ] {G : Grid κ ν}

theorem orders_of {o : List System} (h : o = [.mks, .cgs] ∨ o = [.cgs, .mks]) : o ∈ Orders := by simpa [Orders] using h

/-- **C86**, sums, differences, products and quotients.  Let an expression of any size be made from quantities by these
operators, and let it be accepted.  Whenever the operators of the quantities give arrays with the declared dimensions and units for
the requested indices, subscription of the expression gives an array with its dimensions and its unit, and at each position the
number times the size of the unit is the value of the expression, for all coherent sizes of units.  The units have exponents
that are multiples of a quarter, and the expression contains fewer than `2 ^ 50` units.  The numbers are real numbers, with
`x / 0 = 0`. -/
theorem c86_observed (nodes : List Name) (systems : List System) (hs : systems = [.mks, .cgs] ∨ systems = [.cgs, .mks])
    (rs : List (Name × Name)) (st : Cache ℝ) (same inside : ν → ν → Bool) (hr : ∀ x, same x x = true)
    (env : ι → Quantity A κ ν) (x : Compound ι) (hx : x.Direct) (hw : total env x < 2 ^ 50) (q : Quantity A κ ν)
    (hq : (build (realConv nodes systems) same inside env st x).2 = .ok q)
    (parse : List (κ × Arg) → Except QErr A) (args : Unwrapped) (l : List Arg) (user : A)
    (he : expand q.dims.length args = .ok l) (hl : l.length = q.dims.length) (hp : parse (q.dims.zip l) = .ok user)
    (g : ι → (κ → Nat) → ℝ)
    (hg : ∀ i ∈ x.leaves, QuarterUnit (env i).unit ∧ ∃ a, (env i).operator user = .ok a ∧
      OnGrid G (env i).dims (env i).unit (g i) a ∧ Unscaled a) :
    ∃ r h, (subscript (realConv nodes systems) (afterRequests (realConv nodes systems) [] rs) parse q args).2 = .ok r ∧
      OnGrid G q.dims q.unit h r ∧
      ∀ ρ, CoherentSizes ρ → ∀ p, h p * value ρ q.unit = x.amount (fun i => g i p * value ρ (env i).unit) := by
  obtain ⟨hb, hd⟩ := built_compound (c := realConv nodes systems) (orders_of hs) hr x st hw hg q hq
  obtain ⟨hu, _⟩ := hd hx
  obtain ⟨r, h1, h2⟩ := hb.succeeds hx
  obtain ⟨u, h, o1, o2, o3, o4, _⟩ := hb.observed r h1
  have e : u = q.unit := o1.unit_eq.symm.trans h2
  subst e
  refine ⟨r, h, ?_, o1, o4⟩
  have hc := (c85_reflexive (realConv nodes systems) (afterRequests (realConv nodes systems) [] rs) q.unit).2
  simp only [subscript, he, hl, hp, h1, h2, hc, ne_eq, not_true_eq_false, if_false]
  exact convert_self rs o1 hu

/-- **C86**, sums of quantities are accepted if and only if they have the same unit, up to the order of its terms, and the same
dimensions; so are differences. -/
theorem c86_sum_accepted (same inside : ν → ν → Bool) (p q : Quantity A κ ν) (hp : QuarterUnit p.unit) (hq : QuarterUnit q.unit)
    (hw : weight p.unit + weight q.unit < 2 ^ 50) (hn : (p.unit.map Term.base).Nodup) :
    ((∃ r, qAdd same inside p q = .ok r) ↔ p.unit.Perm q.unit ∧ p.dims = q.dims) ∧
    ((∃ r, qSub same inside p q = .ok r) ↔ p.unit.Perm q.unit ∧ p.dims = q.dims) := by
  have key : equalMetadata p q = true ↔ p.unit.Perm q.unit ∧ p.dims = q.dims := by
    unfold equalMetadata
    simp only [Bool.and_eq_true, decide_eq_true_eq]
    refine and_congr_left' ⟨quarter_eq_perm hp hq hw, fun h => ?_⟩
    exact exprEq_of_perm h hn
  constructor
  · unfold qAdd
    rw [← key]
    split
    next h => simp [h]
    next h => simp [h]
  · unfold qSub
    rw [← key]
    split
    next h => simp [h]
    next h => simp [h]

/-- **C86**, products and quotients of quantities are accepted if and only if their dimensions can be merged, that is, if no two
common dimensions are in a different order.  The dimensions of the product are the merged dimensions. -/
theorem c86_product_accepted (systems : List System) (hs : systems = [.mks, .cgs] ∨ systems = [.cgs, .mks])
    (p q : Quantity A κ ν) (hp : QuarterUnit p.unit) (hq : QuarterUnit q.unit)
    (hw : weight p.unit + weight q.unit < 2 ^ 50) (np : p.dims.Nodup) (nq : q.dims.Nodup) :
    ((∃ r, qMul systems p q = .ok r) ↔ ¬ Container.OrderConflict p.dims q.dims) ∧
    ((∃ r, qDiv systems p q = .ok r) ↔ ¬ Container.OrderConflict p.dims q.dims) ∧
    (∀ r, qMul systems p q = .ok r ∨ qDiv systems p q = .ok r → Container.IsMerge p.dims q.dims r.dims) := by
  obtain ⟨u, hu, _⟩ := unitMul_quarter (orders_of hs) hp hq hw
  obtain ⟨v, hv, _⟩ := unitDiv_quarter (orders_of hs) hp hq hw
  have hc := Container.c09_merge_fails_iff p.dims q.dims np nq
  unfold qMul qDiv
  simp only [hu, hv]
  cases hm : Container.merge p.dims q.dims with
  | error e =>
    have : Container.OrderConflict p.dims q.dims := hc.1 ⟨e, hm⟩
    simp [dimsOr, hm, this]
  | ok m =>
    have hM := Container.c09_merge_ok _ _ m np nq hm
    have : ¬ Container.OrderConflict p.dims q.dims := fun h => by
      obtain ⟨e, he⟩ := hc.2 h
      rw [hm] at he; cases he
    have hd : dimsOr p.dims q.dims = .ok m := by simp [dimsOr, hm, dimensions_nodup hM.nodup]
    rw [hd]
    refine ⟨by simp [this], by simp [this], ?_⟩
    rintro r (h | h) <;> cases h <;> exact hM

/-! ### conversion of quantities -/

theorem factory_history {c : Conv ℝ} (rs : List (Name × Name)) (u v : Name) :
    ∃ rs', (conversionFactory c (afterRequests c [] rs) u v).1 = afterRequests c [] rs' :=
  ⟨rs ++ [(u, v)], (afterRequests_append c rs [] u v).symm⟩

theorem equivalent_history {c : Conv ℝ} (rs : List (Name × Name)) (a b : List Term) :
    ∃ rs', (equivalent c (afterRequests c [] rs) a b).1 = afterRequests c [] rs' := by
  unfold equivalent
  split
  · exact ⟨rs, rfl⟩
  split
  · exact ⟨rs, rfl⟩
  split
  · exact ⟨rs, rfl⟩
  split
  · exact ⟨rs, rfl⟩
  split
  · exact ⟨rs, rfl⟩
  unfold decomposedEquivalent
  split
  · exact ⟨rs, rfl⟩
  split
  · exact ⟨rs, rfl⟩
  split
  · exact ⟨rs, rfl⟩
  split
  · exact ⟨rs, rfl⟩
  split
  · exact ⟨rs, rfl⟩
  split
  · exact ⟨rs, rfl⟩
  unfold unitFactorIsOne
  obtain ⟨rs', h⟩ := factory_history (c := c) rs (showExpr b) (showExpr a)
  refine ⟨rs', ?_⟩
  rw [← h]
  generalize conversionFactory c (afterRequests c [] rs) (showExpr b) (showExpr a) = z
  obtain ⟨st, (e | f)⟩ := z
  · cases e <;> rfl
  · rfl

theorem consistent_history {c : Conv ℝ} (rs : List (Name × Name)) (a b : List Term) :
    ∃ rs', (consistent c (afterRequests c [] rs) a b).1 = afterRequests c [] rs' := by
  unfold consistent
  split
  · exact ⟨rs, rfl⟩
  obtain ⟨rs1, h1⟩ := equivalent_history (c := c) rs a b
  generalize equivalent c (afterRequests c [] rs) a b = z at h1
  obtain ⟨st, (e | f)⟩ := z
  · exact ⟨rs1, h1⟩
  simp only at h1
  subst h1
  cases f
  · simp only
    split
    · exact ⟨rs1, rfl⟩
    · exact ⟨rs1, rfl⟩
    split
    · exact ⟨rs1, rfl⟩
    obtain ⟨rs2, h2⟩ := factory_history (c := c) rs1 (showExpr b) (showExpr a)
    refine ⟨rs2, ?_⟩
    rw [← h2]
    generalize conversionFactory c (afterRequests c [] rs1) (showExpr b) (showExpr a) = z
    obtain ⟨st, (e | f)⟩ := z
    · cases e <;> rfl
    · rfl
  · exact ⟨rs1, rfl⟩

/-- **C86**, conversion.  Let an expression without conversions be converted to another unit.  If subscription of the converted
quantity gives an array, its numbers times the new unit are the value of the expression, for all coherent sizes of units for
which the factor of the conversion between the units is right. -/
theorem c86_converted (nodes : List Name) (systems : List System) (hs : systems = [.mks, .cgs] ∨ systems = [.cgs, .mks])
    (rs : List (Name × Name)) (st st' : Cache ℝ) (same inside : ν → ν → Bool) (hr : ∀ x, same x x = true)
    (env : ι → Quantity A κ ν) (x : Compound ι) (hx : x.Direct) (hw : total env x < 2 ^ 50) (p q : Quantity A κ ν)
    (new : List Term) (hp : build (realConv nodes systems) same inside env st x = (st', .ok p))
    (hq : (build (realConv nodes systems) same inside env st (.convert x new)).2 = .ok q)
    (cp : Canonical p.unit) (hn : QuarterUnit new) (cn : Canonical new) (hne : exprEq p.unit new = false)
    (f : ℝ) (hf : convert (realConv nodes systems) (showExpr p.unit) (showExpr new) = .ok f)
    (hf' : convert (realConv nodes systems) (showExpr new) (showExpr p.unit) = .ok (1 / f))
    (parse : List (κ × Arg) → Except QErr A) (args : Unwrapped) (l : List Arg) (user : A)
    (he : expand p.dims.length args = .ok l) (hl : l.length = p.dims.length) (hps : parse (p.dims.zip l) = .ok user)
    (g : ι → (κ → Nat) → ℝ)
    (hg : ∀ i ∈ x.leaves, QuarterUnit (env i).unit ∧ ∃ a, (env i).operator user = .ok a ∧
      OnGrid G (env i).dims (env i).unit (g i) a ∧ Unscaled a) (r : Operand κ ν ℝ)
    (hy : (subscript (realConv nodes systems) (afterRequests (realConv nodes systems) [] rs) parse q args).2 = .ok r) :
    ∃ h, OnGrid G p.dims new h r ∧ ∀ ρ, CoherentSizes ρ → value ρ p.unit = f * value ρ new →
      ∀ pos, h pos * value ρ new = x.amount (fun i => g i pos * value ρ (env i).unit) := by
  have hq' : q = ⟨p.operator, new, p.dims⟩ := by
    simp only [build, hp, qWithunit, hne] at hq
    generalize consistent (realConv nodes systems) st' p.unit new = z at hq
    obtain ⟨st2, (e | b)⟩ := z
    · cases hq
    · cases b
      · cases hq
      · cases hq; rfl
  subst hq'
  simp only [subscript, he, hl, hps, ne_eq, not_true_eq_false, if_false] at hy
  obtain ⟨hb, hd⟩ := built_compound (c := realConv nodes systems) (orders_of hs) hr x st hw hg p (by rw [hp])
  obtain ⟨hu, _⟩ := hd hx
  obtain ⟨r0, h1, h2⟩ := hb.succeeds hx
  obtain ⟨u, h, o1, o2, o3, o4, o5⟩ := hb.observed r0 h1
  have e : u = p.unit := o1.unit_eq.symm.trans h2
  subst e
  simp only [h1, h2] at hy
  obtain ⟨rs', hrs⟩ := consistent_history (c := realConv nodes systems) rs p.unit new
  generalize consistent (realConv nodes systems) (afterRequests (realConv nodes systems) [] rs) p.unit new = z at hy hrs
  obtain ⟨st2, (e | b)⟩ := z
  · cases hy
  cases b
  · cases hy
  simp only at hrs
  subst hrs
  simp only at hy
  obtain ⟨hnd, a, rfl, a1, a2, a3, a4, a5, a6⟩ := o1
  have hc := conversion_ok (realConv nodes systems) rs' p.unit (showExpr new) p.unit new f hf hf'
    (quarter_fresh_canonical hu cp) (quarter_fresh_canonical hn cn)
  have ha : a.arr.scale = 1 := o5 a rfl
  simp only [convertResult, PArr.withunit, a5, hc, converter, hne] at hy
  cases hy
  refine ⟨fun pos => f * h pos, ⟨hnd, _, rfl, a1, a2, a3, a4, rfl, ?_⟩, ?_⟩
  · intro pos hpos
    show _ = f * h pos
    rw [← a6 pos hpos]
    simp only [PArr.data, PArr.new, Named.at, ND.map, ND.get, ha, one_mul]
    rfl
  · intro ρ hρ hv pos
    rw [← o4 ρ hρ pos, hv]
    ring

/-- **C86**, conversions inside of an expression.  If the operator of an expression, in which quantities may be converted to other
units, gives an array, then its numbers times its unit are the value of the expression.  It remains to be shown that the
unit of the array is that of the expression. -/
theorem c86_operator_partial (c : Conv ℝ) (hc : c.systems = [.mks, .cgs] ∨ c.systems = [.cgs, .mks]) (st : Cache ℝ)
    (same inside : ν → ν → Bool) (hr : ∀ x, same x x = true) (env : ι → Quantity A κ ν) (x : Compound ι)
    (hw : total env x < 2 ^ 50) (q : Quantity A κ ν) (hq : (build c same inside env st x).2 = .ok q) (user : A)
    (g : ι → (κ → Nat) → ℝ) (hg : ∀ i ∈ x.leaves, QuarterUnit (env i).unit ∧ ∃ a, (env i).operator user = .ok a ∧
      OnGrid G (env i).dims (env i).unit (g i) a ∧ Unscaled a) (r : Operand κ ν ℝ) (h : q.operator user = .ok r) :
    ∃ u h, OnGrid G q.dims u h r ∧
      ∀ ρ, CoherentSizes ρ → ∀ p, h p * value ρ u = x.amount (fun i => g i p * value ρ (env i).unit) := by
  obtain ⟨hb, _⟩ := built_compound (orders_of hc) hr x st hw hg q hq
  obtain ⟨u, h, h1, _, _, h4, _⟩ := hb.observed r h
  exact ⟨u, h, h1, h4⟩

/-- **C86** is violated by sums of converted quantities.  Let two quantities have different units, and let one be converted to
the unit of the other.  The sum is accepted, but its subscription raises an exception: the arrays still have different units. -/
theorem c86_converted_sum (nodes : List Name) (systems : List System) (rs : List (Name × Name)) (st : Cache ℝ)
    (same inside : ν → ν → Bool) (env : ι → Quantity A κ ν) (i j : ι)
    (hne : exprEq (env i).unit (env j).unit = false) (q : Quantity A κ ν)
    (hq : (build (realConv nodes systems) same inside env st (.add (.leaf i) (.convert (.leaf j) (env i).unit))).2 = .ok q)
    (parse : List (κ × Arg) → Except QErr A) (args : Unwrapped) (g : A → ι → (κ → Nat) → ℝ) (G : A → Grid κ ν)
    (hg : ∀ user, ∀ k, k = i ∨ k = j → ∃ a, (env k).operator user = .ok a ∧ OnGrid (G user) (env k).dims (env k).unit (g user k) a) :
    ∃ e, (subscript (realConv nodes systems) (afterRequests (realConv nodes systems) [] rs) parse q args).2 = .error e := by
  have hop : ∀ user, ∃ e, q.operator user = .error e := by
    intro user
    obtain ⟨a, ha, oa⟩ := hg user i (.inl rfl)
    obtain ⟨b, hb, ob⟩ := hg user j (.inr rfl)
    have hz : ∀ p', p'.operator = (env j).operator → ∀ u d, ∃ e,
        (qApply (plus same inside) (env i) p' u d).operator user = .error e := by
      intro p' hp' u d
      unfold qApply
      simp only [ha, hp', hb]
      cases hf : plus same inside a b with
      | error e => exact ⟨_, rfl⟩
      | ok r =>
        obtain ⟨h1, _, _⟩ := additive_shows hf
        rw [oa.unit_eq, ob.unit_eq, hne] at h1
        cases h1
    simp only [build, qWithunit] at hq
    split at hq
    · cases hq
    next p' hp' =>
      have : p'.operator = (env j).operator := by
        split at hp'
        · cases hp'; rfl
        · split at hp'
          · cases hp'
          · cases hp'; rfl
          · cases hp'
      simp only [qAdd] at hq
      split at hq
      · cases hq
        exact hz p' this _ _
      · cases hq
  unfold subscript
  split
  · exact ⟨_, rfl⟩
  · split
    · exact ⟨_, rfl⟩
    · split
      · exact ⟨_, rfl⟩
      next user _ =>
        obtain ⟨e, he⟩ := hop user
        rw [he]
        exact ⟨_, rfl⟩

/-! ### powers and compound names -/

/-- the subscription of a quantity whose operator raises exceptions -/
theorem subscript_error (c : Conv ℝ) (st : Cache ℝ) (parse : List (κ × Arg) → Except QErr A) (q : Quantity A κ ν)
    (args : Unwrapped) (h : ∀ user, ∃ e, q.operator user = .error e) : ∃ e, (subscript c st parse q args).2 = .error e := by
  unfold subscript
  split
  · exact ⟨_, rfl⟩
  · split
    · exact ⟨_, rfl⟩
    · split
      · exact ⟨_, rfl⟩
      next user _ =>
        obtain ⟨e, he⟩ := h user
        rw [he]
        exact ⟨_, rfl⟩

/-- **C86** is violated by powers: `q ** x` is accepted for every number `x` that the unit accepts, but every subscription of it
raises an exception. -/
theorem c86_power (c : Conv ℝ) (st : Cache ℝ) (parse : List (κ × Arg) → Except QErr A) (p q : Quantity A κ ν) (float : Bool)
    (x : ℚ) (hq : qPow p float x = .ok q) (args : Unwrapped) : ∃ e, (subscript c st parse q args).2 = .error e := by
  refine subscript_error c st parse q args ?_
  unfold qPow at hq
  split at hq
  · cases hq
  · cases hq
    intro user
    simp only
    cases p.operator user with
    | error e => exact ⟨_, rfl⟩
    | ok r => exact ⟨_, rfl⟩

theorem qPow_error {p q : Quantity A κ ν} {float : Bool} {x : ℚ} (hq : qPow p float x = .ok q) (user : A) :
    ∃ e, q.operator user = .error e := by
  unfold qPow at hq
  split at hq
  · cases hq
  · cases hq
    simp only
    cases p.operator user with
    | error e => exact ⟨_, rfl⟩
    | ok r => exact ⟨_, rfl⟩

/-- **C86** is violated by compound names, such as `mfp / r` or `b**2`: if the name has more than one term, or a power, every
subscription of the quantity raises an exception. -/
theorem c86_compound_name (c : Conv ℝ) (st : Cache ℝ) (parse : List (κ × Arg) → Except QErr A)
    (look : Name → Except QErr (Quantity A κ ν)) (float : ℚ → Bool) (ts : List Term)
    (hts : ¬ ∃ t, ts = [t] ∧ t.exp = 1) (q : Quantity A κ ν) (hq : buildTerms c.systems look float ts = .ok q)
    (args : Unwrapped) : ∃ e, (subscript c st parse q args).2 = .error e := by
  refine subscript_error c st parse q args ?_
  have loop : ∀ (ts : List Term) (p q : Quantity A κ ν), (∀ user, ∃ e, p.operator user = .error e) →
      buildTerms.multiplyTerms c.systems look float p ts = .ok q → ∀ user, ∃ e, q.operator user = .error e := by
    intro ts
    induction ts with
    | nil => intro p q hp h; cases h; exact hp
    | cons t ts ih =>
      intro p q hp h
      simp only [buildTerms.multiplyTerms] at h
      split at h
      · cases h
      split at h
      · cases h
      split at h
      · cases h
      next r hr =>
        refine ih r q ?_ h
        intro user
        obtain ⟨e, he⟩ := hp user
        unfold qMul at hr
        split at hr
        · cases hr
        · split at hr
          · cases hr
          · cases hr
            simp only [qApply, he]
            exact ⟨_, rfl⟩
  cases ts with
  | nil => cases hq
  | cons t ts =>
    simp only [buildTerms] at hq
    split at hq
    · cases hq
    split at hq
    next h => exact absurd ⟨t, by rw [h.1], h.2⟩ hts
    split at hq
    · cases hq
    next this hthis => exact loop ts this q (fun user => qPow_error hthis user) hq

/-! ### the hypotheses are met -/

theorem base_quarter {b : Name} (h : IsUnit 4 [⟨1, b, 1⟩]) : QuarterUnit [⟨1, b, 1⟩] := by
  refine ⟨h, fun t ht _ => ?_⟩
  rw [List.mem_singleton] at ht
  subst ht
  exact ⟨2, by norm_num⟩

theorem m_quarter : QuarterUnit [⟨1, c! "m", 1⟩] := base_quarter (isUnit_of (by simp) (by decide +kernel) (by norm_num))

theorem km_quarter : QuarterUnit [⟨1, c! "km", 1⟩] := base_quarter (isUnit_of (by simp) (by decide +kernel) (by norm_num))

theorem s_quarter : QuarterUnit [⟨1, c! "s", 1⟩] := base_quarter (isUnit_of (by simp) (by decide +kernel) (by norm_num))

/-- unscaled arrays -/
theorem onGrid_unscaled (G : Grid κ ν) (dims : List κ) (hn : dims.Nodup) (u : List Term) (g : List Nat → ℝ) :
    ∃ a, OnGrid G dims u (fun p => g (dims.map p)) a ∧ Unscaled a := by
  obtain ⟨r, hr, h⟩ := newArray_grid (G := G) (u := u) hn (d := .ofFn (dims.map G.size) g) rfl
    (g := fun p => g (dims.map p)) (fun pos hpos => get_ofFn (grid_valid.2 hpos))
  exact ⟨r, h, newArray_unscaled hr⟩

/-- twice a length divided by a time -/
example (nodes : List Name) : ∃ (env : Bool → Quantity Unit String Nat) (q : Quantity Unit String Nat) (r : Operand String Nat ℝ)
    (h : (String → Nat) → ℝ), (env true).unit = [⟨1, c! "m", 1⟩] ∧ (env false).unit = [⟨1, c! "s", 1⟩] ∧
    (build (realConv nodes [.mks, .cgs]) (fun _ _ => true) (fun _ _ => true) env []
      (.div (.add (.leaf true) (.leaf true)) (.leaf false))).2 = .ok q ∧
    (subscript (realConv nodes [.mks, .cgs]) [] (fun _ => .ok ()) q (.bare .full)).2 = .ok r ∧
    OnGrid exampleGrid ["time", "shell"] q.unit h r ∧
    ∀ ρ, CoherentSizes ρ → ∀ p, h p * value ρ q.unit =
      (((p "time" + p "shell" : ℕ) : ℝ) * value ρ [⟨1, c! "m", 1⟩] + ((p "time" + p "shell" : ℕ) : ℝ) * value ρ [⟨1, c! "m", 1⟩]) /
        (((p "time" : ℕ) : ℝ) * value ρ [⟨1, c! "s", 1⟩]) := by
  obtain ⟨a, ha, ua⟩ := onGrid_unscaled exampleGrid ["time", "shell"] (by decide) [⟨1, c! "m", 1⟩] (fun l => ((l.sum : ℕ) : ℝ))
  obtain ⟨b, hb, ub⟩ := onGrid_unscaled exampleGrid ["time"] (by decide) [⟨1, c! "s", 1⟩] (fun l => ((l.sum : ℕ) : ℝ))
  let env : Bool → Quantity Unit String Nat := fun i =>
    if i then ⟨fun _ => .ok a, [⟨1, c! "m", 1⟩], ["time", "shell"]⟩ else ⟨fun _ => .ok b, [⟨1, c! "s", 1⟩], ["time"]⟩
  have hadd : qAdd (fun _ _ => true) (fun _ _ => true) (env true) (env true) =
      .ok (qApply (plus (fun _ _ => true) (fun _ _ => true)) (env true) (env true) (env true).unit (env true).dims) := by
    unfold qAdd equalMetadata
    rw [if_pos (by rw [exprEq_refl]; simp)]
  obtain ⟨u, hu, _⟩ := unitDiv_quarter (o := [.mks, .cgs]) (by simp [Orders]) m_quarter s_quarter (by
    have : weight [⟨1, c! "m", 1⟩] + weight [⟨1, c! "s", 1⟩] = 2 := by decide +kernel
    rw [this]; norm_num)
  have hd : dimsOr ["time", "shell"] ["time"] = .ok ["time", "shell"] := by decide
  have hq : (build (realConv nodes [.mks, .cgs]) (fun _ _ => true) (fun _ _ => true) env []
      (.div (.add (.leaf true) (.leaf true)) (.leaf false))).2 = .ok (qApply (over [.mks, .cgs])
        (qApply (plus (fun _ _ => true) (fun _ _ => true)) (env true) (env true) (env true).unit (env true).dims) (env false) u
          ["time", "shell"]) := by
    simp only [build, hadd, qDiv]
    have : unitDiv [.mks, .cgs] (env true).unit (env false).unit = .ok u := hu
    have hd' : dimsOr (env true).dims (env false).dims = .ok ["time", "shell"] := hd
    simp only [realConv, qApply, this, hd']
  have ht : total env (.div (.add (.leaf true) (.leaf true)) (.leaf false)) < 2 ^ 50 := by
    have : total env (.div (.add (.leaf true) (.leaf true)) (.leaf false)) = 3 := by
      show ([[⟨1, c! "m", 1⟩], [⟨1, c! "m", 1⟩], [⟨1, c! "s", 1⟩]].map weight).sum = 3
      decide +kernel
    rw [this]; norm_num
  obtain ⟨r, h, h1, h2, h3⟩ := c86_observed (G := exampleGrid) nodes [.mks, .cgs] (.inl rfl) [] [] (fun _ _ => true) (fun _ _ => true)
    (fun _ => rfl) env _ (by simp [Compound.Direct]) ht _ hq (fun _ => .ok ()) (.bare .full) [.full, .full] () (show expand 2 (.bare .full) = .ok [.full, .full] by decide) rfl rfl
    (fun i p => if i then ((["time", "shell"].map p).sum : ℕ) else ((["time"].map p).sum : ℕ)) (by
      intro i _
      cases i
      · exact ⟨s_quarter, b, rfl, hb, ub⟩
      · exact ⟨m_quarter, a, rfl, ha, ua⟩)
  refine ⟨env, _, r, h, rfl, rfl, hq, h1, h2, ?_⟩
  intro ρ hρ p
  rw [h3 ρ hρ p]
  simp [Compound.amount, env]

/-- kilometers and meters are consistent -/
theorem km_consistent : (consistent (realConv tableNodes [.mks, .cgs]) [] [⟨1, c! "km", 1⟩] [⟨1, c! "m", 1⟩]).2 = .ok true := by
  have hf : convertAsStrings (realEnv tableNodes) (c! "m") (c! "km") = some (1 / 1000) := by decide +kernel
  have h1 : decomposeUnit' [.mks, .cgs] [⟨1, c! "km", 1⟩] = .ok [⟨1, c! "km", 1⟩] := by decide +kernel
  have h2 : decomposeUnit' [.mks, .cgs] [⟨1, c! "m", 1⟩] = .ok [⟨1, c! "m", 1⟩] := by decide +kernel
  have h3 : exprOfTerms [⟨1, c! "km", 1⟩] = .ok [⟨1, c! "km", 1⟩] := by decide +kernel
  have h4 : exprOfTerms [⟨1, c! "m", 1⟩] = .ok [⟨1, c! "m", 1⟩] := by decide +kernel
  have he : equivalent (realConv tableNodes [.mks, .cgs]) [] [⟨1, c! "km", 1⟩] [⟨1, c! "m", 1⟩] =
      unitFactorIsOne (realConv tableNodes [.mks, .cgs]) [] [⟨1, c! "km", 1⟩] [⟨1, c! "m", 1⟩] := by
    unfold equivalent decomposedEquivalent
    have d1 : unitDimensionless [⟨1, c! "km", 1⟩] = .ok false := by decide +kernel
    have d2 : unitDimensionless [⟨1, c! "m", 1⟩] = .ok false := by decide +kernel
    have s : (realConv tableNodes [.mks, .cgs]).systems = [.mks, .cgs] := rfl
    rw [if_neg (by decide +kernel), if_neg (by decide +kernel), d1, d2, s, h1, h2]
    simp only [h3, h4, ofSym]
    rw [if_neg (by simp), if_neg (by decide +kernel), if_neg (by decide +kernel)]
  have hc : (conversionFactory (realConv tableNodes [.mks, .cgs]) [] (showExpr [⟨1, c! "m", 1⟩]) (showExpr [⟨1, c! "km", 1⟩])).2 =
      .ok (((1 / 1000 : ℚ) : ℝ)) := by
    rw [show_symbol, show_symbol]
    simp only [conversionFactory, Dict.get?, convert_strings hf]
  refine c85_same_dimension (realConv tableNodes [.mks, .cgs]) (.inl rfl) [] _ _ (decide (((1 / 1000 : ℚ) : ℝ) = 1)) ?_
    (fun _ => some [⟨1, c! "L", 1⟩]) (fun s => by cases s <;> decide +kernel)
    (fun _ => some [⟨1, c! "L", 1⟩]) (fun s => by cases s <;> decide +kernel) .mks _ _ rfl rfl (by decide +kernel)
  rw [he]
  unfold unitFactorIsOne
  generalize conversionFactory (realConv tableNodes [.mks, .cgs]) [] (showExpr [⟨1, c! "m", 1⟩]) (showExpr [⟨1, c! "km", 1⟩]) = z at hc
  obtain ⟨st, f⟩ := z
  simp only at hc
  subst hc
  rfl

/-- kilometers, converted to meters, are added to meters -/
example : ∃ (env : Bool → Quantity Unit String Nat) (q : Quantity Unit String Nat) (e : QErr),
    (env true).unit = [⟨1, c! "m", 1⟩] ∧ (env false).unit = [⟨1, c! "km", 1⟩] ∧
    (build (realConv tableNodes [.mks, .cgs]) (fun _ _ => true) (fun _ _ => true) env []
      (.add (.leaf true) (.convert (.leaf false) [⟨1, c! "m", 1⟩]))).2 = .ok q ∧
    (subscript (realConv tableNodes [.mks, .cgs]) [] (fun _ => .ok ()) q (.bare .full)).2 = .error e := by
  obtain ⟨a, ha, ua⟩ := onGrid_unscaled exampleGrid ["time", "shell"] (by decide) [⟨1, c! "m", 1⟩] (fun l => ((l.sum : ℕ) : ℝ))
  obtain ⟨b, hb, ub⟩ := onGrid_unscaled exampleGrid ["time", "shell"] (by decide) [⟨1, c! "km", 1⟩] (fun l => ((l.sum : ℕ) : ℝ))
  let env : Bool → Quantity Unit String Nat := fun i =>
    if i then ⟨fun _ => .ok a, [⟨1, c! "m", 1⟩], ["time", "shell"]⟩ else ⟨fun _ => .ok b, [⟨1, c! "km", 1⟩], ["time", "shell"]⟩
  have hq : ∃ q, (build (realConv tableNodes [.mks, .cgs]) (fun _ _ => true) (fun _ _ => true) env []
      (.add (.leaf true) (.convert (.leaf false) [⟨1, c! "m", 1⟩]))).2 = .ok q := by
    have hk := km_consistent
    have hne : exprEq (env false).unit [⟨1, c! "m", 1⟩] = false := by
      show exprEq [⟨1, c! "km", 1⟩] [⟨1, c! "m", 1⟩] = false
      decide +kernel
    simp only [build, qWithunit, hne]
    change (consistent _ [] (env false).unit _).2 = _ at hk
    generalize consistent (realConv tableNodes [.mks, .cgs]) [] (env false).unit [⟨1, c! "m", 1⟩] = z at hk
    obtain ⟨st, f⟩ := z
    simp only at hk
    subst hk
    simp only [Bool.false_eq_true, if_false, qAdd]
    rw [if_pos (by
      unfold equalMetadata
      rw [Bool.and_eq_true]
      exact ⟨exprEq_refl _, by simp [env]⟩)]
    exact ⟨_, rfl⟩
  obtain ⟨q, hq⟩ := hq
  obtain ⟨e, he⟩ := c86_converted_sum tableNodes [.mks, .cgs] [] [] (fun _ _ => true) (fun _ _ => true) env true false (by
      show exprEq [⟨1, c! "m", 1⟩] [⟨1, c! "km", 1⟩] = false
      decide +kernel) q hq (fun _ => .ok ()) (.bare .full)
    (fun _ _ p => ((["time", "shell"].map p).sum : ℕ)) (fun _ => exampleGrid) (by
      rintro user k (rfl | rfl)
      · exact ⟨a, rfl, ha⟩
      · exact ⟨b, rfl, hb⟩)
  exact ⟨env, q, e, rfl, rfl, hq, he⟩

/-- kilometers, converted to meters -/
example : ∃ (env : Bool → Quantity Unit String Nat) (q : Quantity Unit String Nat) (r : Operand String Nat ℝ) (h : (String → Nat) → ℝ),
    (build (realConv tableNodes [.mks, .cgs]) (fun _ _ => true) (fun _ _ => true) env []
      (.convert (.leaf false) [⟨1, c! "m", 1⟩])).2 = .ok q ∧
    (subscript (realConv tableNodes [.mks, .cgs]) [] (fun _ => .ok ()) q (.bare .full)).2 = .ok r ∧
    OnGrid exampleGrid ["time", "shell"] [⟨1, c! "m", 1⟩] h r ∧ ∀ ρ, CoherentSizes ρ → ρ (c! "km") = 1000 * ρ (c! "m") →
      ∀ p, h p * ρ (c! "m") = ((p "time" + p "shell" : ℕ) : ℝ) * ρ (c! "km") := by
  obtain ⟨b, hb, ub⟩ := onGrid_unscaled exampleGrid ["time", "shell"] (by decide) [⟨1, c! "km", 1⟩] (fun l => ((l.sum : ℕ) : ℝ))
  let env : Bool → Quantity Unit String Nat := fun _ => ⟨fun _ => .ok b, [⟨1, c! "km", 1⟩], ["time", "shell"]⟩
  have hne : exprEq [⟨1, c! "km", 1⟩] [⟨1, c! "m", 1⟩] = false := by decide +kernel
  have hf : convertAsStrings (realEnv tableNodes) (c! "km") (c! "m") = some 1000 := by decide +kernel
  have hf' : convertAsStrings (realEnv tableNodes) (c! "m") (c! "km") = some (1 / 1000) := by decide +kernel
  have c1 : convert (realConv tableNodes [.mks, .cgs]) (showExpr [⟨1, c! "km", 1⟩]) (showExpr [⟨1, c! "m", 1⟩]) = .ok 1000 := by
    rw [show_symbol, show_symbol, convert_strings hf]; norm_num
  have c2 : convert (realConv tableNodes [.mks, .cgs]) (showExpr [⟨1, c! "m", 1⟩]) (showExpr [⟨1, c! "km", 1⟩]) = .ok (1 / 1000) := by
    rw [show_symbol, show_symbol, convert_strings hf']; norm_num
  have k1 : Canonical [⟨1, c! "km", 1⟩] :=
    (reduce_spec (ts := [⟨1, c! "km", 1⟩]) (by simp) (by
      intro t ht; rw [List.mem_singleton] at ht; subst ht; decide) (by decide +kernel)).1
  have k2 : Canonical [⟨1, c! "m", 1⟩] :=
    (reduce_spec (ts := [⟨1, c! "m", 1⟩]) (by simp) (by
      intro t ht; rw [List.mem_singleton] at ht; subst ht; decide) (by decide +kernel)).1
  have hk := km_consistent
  have hq : (build (realConv tableNodes [.mks, .cgs]) (fun _ _ => true) (fun _ _ => true) env []
      (.convert (.leaf false) [⟨1, c! "m", 1⟩])).2 = .ok ⟨fun _ => .ok b, [⟨1, c! "m", 1⟩], ["time", "shell"]⟩ := by
    simp only [build, qWithunit, env, hne]
    generalize consistent (realConv tableNodes [.mks, .cgs]) [] [⟨1, c! "km", 1⟩] [⟨1, c! "m", 1⟩] = z at hk
    obtain ⟨st, f⟩ := z
    simp only at hk
    subst hk
    rfl
  have hs : ∃ r, (subscript (realConv tableNodes [.mks, .cgs]) [] (fun _ => .ok ())
      (⟨fun _ => .ok b, [⟨1, c! "m", 1⟩], ["time", "shell"]⟩ : Quantity Unit String Nat) (.bare .full)).2 = .ok r := by
    have hx : expand 2 (.bare .full) = .ok [.full, .full] := by decide
    obtain ⟨rs', hrs⟩ := consistent_history (c := realConv tableNodes [.mks, .cgs]) [] [⟨1, c! "km", 1⟩] [⟨1, c! "m", 1⟩]
    have hrs : (consistent (realConv tableNodes [.mks, .cgs]) [] [⟨1, c! "km", 1⟩] [⟨1, c! "m", 1⟩]).1 = _ := hrs
    simp only [subscript, List.length_cons, List.length_nil, Nat.zero_add, Nat.reduceAdd, hx, ne_eq, not_true_eq_false, if_false,
      hb.unit_eq]
    generalize consistent (realConv tableNodes [.mks, .cgs]) [] [⟨1, c! "km", 1⟩] [⟨1, c! "m", 1⟩] = z at hk hrs
    obtain ⟨st, f⟩ := z
    simp only at hk hrs
    subst hk hrs
    obtain ⟨_, a, rfl, a1, a2, a3, a4, a5, a6⟩ := hb
    have := conversion_ok (realConv tableNodes [.mks, .cgs]) rs' [⟨1, c! "km", 1⟩] (showExpr [⟨1, c! "m", 1⟩])
      [⟨1, c! "km", 1⟩] [⟨1, c! "m", 1⟩] 1000 c1 c2 (quarter_fresh_canonical km_quarter k1) (quarter_fresh_canonical m_quarter k2)
    simp only [convertResult, PArr.withunit, a5, this]
    exact ⟨_, rfl⟩
  obtain ⟨r, hr⟩ := hs
  obtain ⟨h, h1, h2⟩ := c86_converted (G := exampleGrid) tableNodes [.mks, .cgs] (.inl rfl) [] [] [] (fun _ _ => true) (fun _ _ => true)
    (fun _ => rfl) env (.leaf false) trivial (by
      have : total env (.leaf false) = 1 := by
        show ([[⟨1, c! "km", 1⟩]].map weight).sum = 1
        decide +kernel
      rw [this]; norm_num) (env false) _ [⟨1, c! "m", 1⟩] rfl hq k1 m_quarter k2 hne 1000 c1 c2
    (fun _ => .ok ()) (.bare .full) [.full, .full] () (show expand 2 (.bare .full) = .ok [.full, .full] by decide) rfl rfl
    (fun _ p => ((["time", "shell"].map p).sum : ℕ)) (fun i _ => ⟨km_quarter, b, rfl, hb, ub⟩) r hr
  refine ⟨env, _, r, h, hq, hr, h1, fun ρ hρ hv p => ?_⟩
  have hkm : (c! "km" : Name) ≠ one := by decide
  have hm : (c! "m" : Name) ≠ one := by decide
  have := h2 ρ hρ (by
    show value ρ [⟨1, c! "km", 1⟩] = 1000 * value ρ [⟨1, c! "m", 1⟩]
    rw [value_symbol ρ hkm, value_symbol ρ hm]; exact hv) p
  rw [value_symbol ρ hm] at this
  rw [this]
  show ((["time", "shell"].map p).sum : ℕ) * value ρ [⟨1, c! "km", 1⟩] = _
  rw [value_symbol ρ hkm]
  simp

/-- the square of a length -/
example (b : Operand String Nat ℝ) (args : Unwrapped) : ∃ q, qPow (⟨fun _ => .ok b, [⟨1, c! "m", 1⟩], ["time", "shell"]⟩ :
    Quantity Unit String Nat) false 2 = .ok q ∧
    ∃ e, (subscript (realConv tableNodes [.mks, .cgs]) [] (fun _ => .ok ()) q args).2 = .error e := by
  have h : unitPow false [⟨1, c! "m", 1⟩] 2 = .ok [⟨1, c! "m", 2⟩] := by decide +kernel
  have hq : ∃ q, qPow (⟨fun _ => .ok b, [⟨1, c! "m", 1⟩], ["time", "shell"]⟩ : Quantity Unit String Nat) false 2 = .ok q := by
    simp only [qPow, h]
    exact ⟨_, rfl⟩
  obtain ⟨q, hq⟩ := hq
  exact ⟨q, hq, c86_power _ _ _ _ q false 2 hq args⟩

/-- a length divided by a length, by its name -/
example (b : Operand String Nat ℝ) (args : Unwrapped) : ∃ q, buildTerms [.mks, .cgs]
    (fun _ => .ok (⟨fun _ => .ok b, [⟨1, c! "m", 1⟩], ["time", "shell"]⟩ : Quantity Unit String Nat)) (fun _ => false)
    [⟨1, c! "mfp", 1⟩, ⟨1, c! "r", -1⟩] = .ok q ∧
    ∃ e, (subscript (realConv tableNodes [.mks, .cgs]) [] (fun _ => .ok ()) q args).2 = .error e := by
  have h : unitPow false [⟨1, c! "m", 1⟩] 1 = .ok [⟨1, c! "m", 1⟩] := by decide +kernel
  have h' : unitPow false [⟨1, c! "m", 1⟩] (-1) = .ok [⟨1, c! "m", -1⟩] := by decide +kernel
  have h2 : unitMul [.mks, .cgs] [⟨1, c! "m", 1⟩] [⟨1, c! "m", -1⟩] = .ok [⟨1, one, 1⟩] := by decide +kernel
  have h3 : dimsOr ["time", "shell"] ["time", "shell"] = .ok ["time", "shell"] := by decide
  have hq : ∃ q, buildTerms [.mks, .cgs]
      (fun _ => .ok (⟨fun _ => .ok b, [⟨1, c! "m", 1⟩], ["time", "shell"]⟩ : Quantity Unit String Nat)) (fun _ => false)
      [⟨1, c! "mfp", 1⟩, ⟨1, c! "r", -1⟩] = .ok q := by
    simp only [buildTerms, qPow, h, List.cons_ne_nil, false_and, if_false, buildTerms.multiplyTerms, h', qMul, h2, h3]
    exact ⟨_, rfl⟩
  obtain ⟨q, hq⟩ := hq
  refine ⟨q, hq, c86_compound_name (realConv tableNodes [.mks, .cgs]) [] _ _ _ _ ?_ q hq args⟩
  rintro ⟨t, ht, _⟩
  cases ht

end Eprem.Observable
