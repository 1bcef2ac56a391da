import Verif.Spec.Declared
import Verif.Props.IntegralFlux
import Verif.Props.ObservableAlgebra
import Verif.Props.UnitEquivalence
import Verif.Props.Acceleration

/-!
# C104: observables have the units and the dimensions that they declare
-/

namespace Eprem.Observable

open Eprem Eprem.Metric Eprem.Numeric Eprem.Measured Eprem.Physical
open Eprem.Symbolic (Term exprEq formatTerm exprOfTerms exprOfString exprDiv mkTerm)

/-! ## Units -/

/-- The unit in which each of the derived observables is computed, by C52-C55, C90-C92 and C98-C100. -/
def computedUnit (s : System) (n : Name) : List Term :=
  if n ∈ [c! "x", c! "y", c! "z", c! "mfp"] then unitOf s c! "length"
  else if n = c! "bmag" then unitOf s c! "magnetic field"
  else if n ∈ [c! "umag", c! "upara", c! "uperp"] then unitOf s c! "velocity"
  else if n = c! "angle" then [⟨1, c! "rad", 1⟩]
  else if n ∈ [c! "divu", c! "ar"] then [⟨1, c! "s", -1⟩]
  else if n = c! "rigidity" then rigidityUnit s
  else if n = c! "average_energy" then unitOf s c! "energy"
  else if n = c! "energy_density" then energyDensityUnit s
  else if n = c! "flux" then fluxUnit s
  else if n = c! "fluence" then fluenceUnit s
  else integralUnit s

/-- The units that the derived observables declare: those in which they are computed, except for rigidity and fluence. -/
def declaredUnit (s : System) (n : Name) : List Term :=
  if n = c! "rigidity" then match s with
    | .mks => [⟨1, c! "kg", 1⟩, ⟨1, c! "m", 1⟩, ⟨1, c! "C", -1⟩, ⟨1, c! "s", -1⟩]
    | .cgs => [⟨1, c! "cm", 1⟩, ⟨1, c! "g", 1⟩, ⟨1, c! "s", -1⟩, ⟨1, c! "statC", -1⟩]
  else if n = c! "fluence" then match s with
    | .mks => [⟨1, c! "J", -1⟩, ⟨1, c! "sr", -1⟩, ⟨1, c! "m", -2⟩]
    | .cgs => [⟨1, c! "erg", -1⟩, ⟨1, c! "sr", -1⟩, ⟨1, c! "cm", -2⟩]
  else computedUnit s n

set_option maxHeartbeats 100000000 in
/-- The units of the package for these quantities. -/
theorem declared_units : ∀ s ∈ bothSystems, ∀ p ∈ [(c! "plane angle", c! "angle"), (c! "momentum / charge", c! "rigidity"),
    (c! "length", c! "mfp"), (c! "energy density", c! "energy_density"), (c! "flux", c! "flux"), (c! "fluence", c! "fluence"),
    (c! "integral flux", c! "intflux")], (systemUnit s p.1).toOption = some (declaredUnit s p.2) := by decide +kernel

set_option maxHeartbeats 100000000 in
theorem declared_rates : ∀ o ∈ orders, ∀ s ∈ bothSystems,
    ((systemUnit s c! "time").toOption.bind (fun t => (unitInv o t).toOption)) = some [⟨1, c! "s", -1⟩] := by decide +kernel

set_option maxHeartbeats 100000000 in
theorem declared_distribution : ∀ s ∈ bothSystems, (systemUnit s c! "particle distribution").toOption = some (distributionUnit s) := by
  decide +kernel

theorem systemUnit_of {s : System} {q n : Name} (h : (q, n) ∈ [(c! "plane angle", c! "angle"),
    (c! "momentum / charge", c! "rigidity"),
    (c! "length", c! "mfp"), (c! "energy density", c! "energy_density"), (c! "flux", c! "flux"), (c! "fluence", c! "fluence"),
    (c! "integral flux", c! "intflux")]) : systemUnit s q = .ok (declaredUnit s n) :=
  ok_of_toOption (declared_units s (mem_bothSystems s) (q, n) h)

theorem rate_of {o : List System} (ho : o ∈ orders) (s : System) :
    ∃ t, systemUnit s c! "time" = .ok t ∧ unitInv o t = .ok [⟨1, c! "s", -1⟩] := by
  have := declared_rates o ho s (mem_bothSystems s)
  cases h : systemUnit s c! "time" with
  | error e => rw [h] at this; cases this
  | ok t =>
    rw [h] at this
    exact ⟨t, rfl, ok_of_toOption this⟩

/-! ## Conversions without powers -/

/-- The terms can not be matched with each other. -/
def unpaired (nodes : List Name) (ts : List Term) : Bool :=
  ts.all (fun t => (match dimensionless t.base with | .ok b => !b | .error _ => false) &&
    ts.all (fun x => decide (x.exp ≠ -t.exp) || (convertAsStrings (realEnv nodes) t.base x.base).isNone))

theorem unpaired_none {nodes : List Name} {systems : List System} {ts : List Term} (h : unpaired nodes ts = true) (hne : ts ≠ []) :
    resolveTerms (realConv nodes systems) ts = .ok none := by
  unfold resolveTerms
  split
  · rfl
  have key : ∀ rest : List Term, (∀ t ∈ rest, t ∈ ts) → ∀ f : ℝ, resolveLoop (realConv nodes systems) rest [] ts f = .ok none := by
    intro rest
    induction rest with
    | nil => intro _ f; simp [resolveLoop, hne]
    | cons t rest ih =>
      intro hr f
      have ht := List.all_eq_true.1 h t (hr t (by simp))
      simp only [Bool.and_eq_true] at ht
      obtain ⟨h1, h2⟩ := ht
      have hm : matchExponents (realConv nodes systems) t ts = .ok none := by
        unfold matchExponents
        cases hd : dimensionless t.base with
        | error e => simp [hd] at h1
        | ok b =>
          simp only [hd, Bool.not_eq_true'] at h1
          subst h1
          show Except.ok (matchInverse _ t ts) = _
          congr 1
          unfold matchInverse
          rw [List.findSome?_eq_none_iff]
          intro x hx
          obtain ⟨hx1, hx2⟩ := List.mem_filter.1 hx
          simp only [Bool.and_eq_true, decide_eq_true_eq] at hx2
          have := List.all_eq_true.1 h2 x hx1
          simp only [Bool.or_eq_true, decide_eq_true_eq, Option.isNone_iff_eq_none] at this
          rcases this with e | e
          · exact absurd hx2.2 e
          · show Option.map _ (convertAsStrings (realEnv nodes) t.base x.base) = none
            rw [e]; rfl
      unfold resolveLoop
      have e0 : memT t [] = false := rfl
      rw [e0, hm]
      simp only [Bool.false_eq_true, if_false]
      exact ih (fun t ht => hr t (by simp [ht])) f
  exact key ts (fun _ h => h) 1

/-- All terms are made of base units, and everything cancels. -/
def cancels (nodes : List Name) (u v : Name) : Bool :=
  (convertAsStrings (realEnv nodes) u v).isNone &&
  match ofSym (exprOfString false u), ofSym (exprOfString false v) with
  | .ok e₀, .ok e₁ => !exprEq e₀ e₁ && (match ofSym (exprDiv e₀ e₁) with
    | .ok q =>
      let terms := q.filter (fun t => decide (t.base ∉ unity))
      !terms.isEmpty && unpaired nodes terms && match mapE (fun t => reduceTerm t.base t.exp) terms with
        | .ok l => l.all Option.isSome && (match expressTerms (l.flatMap (fun o => o.getD [])) with
          | .ok x => exprEq x [mkTerm 1 Symbolic.one 1]
          | .error _ => false)
        | .error _ => false
    | .error _ => false)
  | _, _ => false

theorem decomposeAll_parts {c : Conv ℝ} : ∀ (ts : List Term) (l : List (Option (List Term))) (f : ℝ) (acc : List Term),
    mapE (fun t => reduceTerm t.base t.exp) ts = .ok l → l.all Option.isSome = true →
    decomposeAll c ts f acc = .ok (f, acc ++ l.flatMap (fun o => o.getD []))
  | [], l, f, acc, h, _ => by
    cases h
    simp [decomposeAll]
  | t :: ts, l, f, acc, h, hl => by
    unfold mapE at h
    cases h1 : reduceTerm t.base t.exp with
    | error e => simp [h1, bind, Except.bind] at h
    | ok o =>
      cases h2 : mapE (fun t => reduceTerm t.base t.exp) ts with
      | error e => simp [h1, h2, bind, Except.bind] at h
      | ok l' =>
        simp only [h1, h2, bind, Except.bind, pure, Except.pure, Except.ok.injEq] at h
        subst h
        simp only [List.all_cons, Bool.and_eq_true] at hl
        obtain ⟨u, rfl⟩ := Option.isSome_iff_exists.1 hl.1
        have : decomposeUnit c t = .ok (some (1, u)) := by
          simp only [decomposeUnit, h1, bind, Except.bind, pure, Except.pure]
        unfold decomposeAll
        rw [this]
        simp only [mul_one]
        rw [decomposeAll_parts ts l' f _ h2 hl.2]
        simp [List.append_assoc]

theorem convert_cancels {nodes : List Name} {systems : List System} {u v : Name} (h : cancels nodes u v = true) :
    convert (realConv nodes systems) u v = .ok 1 := by
  unfold cancels at h
  simp only [Bool.and_eq_true, Option.isNone_iff_eq_none] at h
  obtain ⟨h0, h⟩ := h
  unfold convert
  have e : (realConv nodes systems).env = realEnv nodes := rfl
  rw [e, h0]
  simp only
  have key : convertAsExpressions (realConv nodes systems) u v = .ok (some 1) := by
    unfold convertAsExpressions
    cases h1 : ofSym (exprOfString false u) with
    | error e => simp [h1] at h
    | ok e₀ =>
      cases h2 : ofSym (exprOfString false v) with
      | error e => simp [h1, h2] at h
      | ok e₁ =>
        simp only [h1, h2, Bool.and_eq_true, Bool.not_eq_true'] at h
        obtain ⟨hne, h⟩ := h
        simp only [bind, Except.bind, hne, Bool.false_eq_true, if_false]
        cases h3 : ofSym (exprDiv e₀ e₁) with
        | error e => simp [h3] at h
        | ok q =>
          simp only [h3, Bool.and_eq_true, Bool.not_eq_true', List.isEmpty_eq_false_iff] at h
          obtain ⟨⟨ht, hu⟩, h⟩ := h
          simp only [unpaired_none hu ht]
          cases h4 : mapE (fun t => reduceTerm t.base t.exp) (q.filter (fun t => decide (t.base ∉ unity))) with
          | error e => rw [h4] at h; simp at h
          | ok l =>
            rw [h4] at h
            simp only [Bool.and_eq_true] at h
            obtain ⟨hl, h⟩ := h
            cases h5 : expressTerms (l.flatMap (fun o => o.getD [])) with
            | error e => rw [h5] at h; simp at h
            | ok x =>
              rw [h5] at h
              have hd := decomposeAll_parts (c := realConv nodes systems) _ l 1 [] h4 hl
              simp only [List.nil_append] at hd
              have : convertByDimensions (realConv nodes systems) (q.filter (fun t => decide (t.base ∉ unity))) = .ok (some 1) := by
                simp only [convertByDimensions, hd, bind, Except.bind, h5, h, if_true, pure, Except.pure]
              simp only [truthy, this, pure, Except.pure]
              simp
  rw [key]
  simp [truthy]

/-! ## Declarations -/

theorem declaredF_dims {s : System} {D : ArraysInfo} (h : UsualArrays s D) :
    ∃ u, declaredF s D = .ok (u, [c! "time", c! "shell", c! "species", c! "energy", c! "mu"]) ∧ u = distributionUnit s := by
  unfold declaredF
  cases D.hasdist with
  | true =>
    rw [if_pos rfl]
    refine ⟨_, by rw [h.f], ?_⟩
    rw [h.distributions]
    cases s <;> rfl
  | false =>
    have hd : unionOf (D.dims c! "flux") [c! "mu"] = .ok [c! "time", c! "shell", c! "species", c! "energy", c! "mu"] := by
      rw [h.flux]; decide
    have hu := ok_of_toOption (declared_distribution s (mem_bothSystems s))
    refine ⟨_, ?_, rfl⟩
    rw [if_neg (by decide), hu, hd]

theorem declaredRigidity_dims {s : System} {D : ArraysInfo} (h : UsualArrays s D) :
    declaredRigidity s D = .ok (declaredUnit s c! "rigidity", [c! "species", c! "energy"]) := by
  have hd : unionOf (D.dims c! "mass") (D.dims c! "energy") = .ok [c! "species", c! "energy"] := by
    rw [h.mass, h.energy]; decide
  simp only [declaredRigidity, systemUnit_of (s := s) (q := c! "momentum / charge") (n := c! "rigidity") (by decide), hd, bind, Except.bind]

theorem declaredMfp_dims {s : System} {D : ArraysInfo} (h : UsualArrays s D) :
    declaredMfp s D = .ok (declaredUnit s c! "mfp", [c! "time", c! "shell", c! "species", c! "energy"]) := by
  have hd : unionOf (D.dims c! "r") [c! "species", c! "energy"] = .ok [c! "time", c! "shell", c! "species", c! "energy"] := by
    rw [h.r]; decide
  simp only [declaredMfp, systemUnit_of (s := s) (q := c! "length") (n := c! "mfp") (by decide), declaredRigidity_dims h, hd, bind, Except.bind]

theorem declaredAverage_dims {s : System} {D : ArraysInfo} (h : UsualArrays s D) :
    declaredAverage s D = .ok (declaredUnit s c! "average_energy", [c! "time", c! "shell", c! "species"]) := by
  have hd : unionOf (D.dims c! "energy") (D.dims c! "mu") = .ok [c! "energy", c! "mu"] := by
    rw [h.energy, h.mu]; decide
  obtain ⟨u, hf, _⟩ := declaredF_dims h
  simp only [declaredAverage, hd, hf, bind, Except.bind, h.energies]
  cases s <;> rfl

theorem declaredFlux_dims {s : System} {D : ArraysInfo} (h : UsualArrays s D) :
    declaredFlux s D = .ok (declaredUnit s c! "flux", [c! "time", c! "shell", c! "species", c! "energy"]) := by
  obtain ⟨u, hf, _⟩ := declaredF_dims h
  simp only [declaredFlux, systemUnit_of (s := s) (q := c! "flux") (n := c! "flux") (by decide), hf, h.mu, bind, Except.bind]
  rfl

/-- The declarations of all derived observables. -/
theorem declared_derived {order : List System} (ho : order ∈ orders) {s : System} {D : ArraysInfo} (h : UsualArrays s D)
    {n : Name} (hn : n ∈ derivedNames) :
    declared order s D n = some (.ok (declaredUnit s n, dimensionsOfDerived n)) := by
  obtain ⟨t, ht, hr⟩ := rate_of ho s
  have hF := declaredFlux_dims h
  have hA := declaredAverage_dims h
  have hM := declaredMfp_dims h
  have hR := declaredRigidity_dims h
  have e1 := systemUnit_of (s := s) (q := c! "plane angle") (n := c! "angle") (by decide)
  have e2 := systemUnit_of (s := s) (q := c! "energy density") (n := c! "energy_density") (by decide)
  have e3 := systemUnit_of (s := s) (q := c! "fluence") (n := c! "fluence") (by decide)
  have e4 := systemUnit_of (s := s) (q := c! "integral flux") (n := c! "intflux") (by decide)
  simp only [derivedNames, List.mem_cons, List.not_mem_nil, or_false] at hn
  rcases hn with rfl | rfl | rfl | rfl | rfl | rfl | rfl | rfl | rfl | rfl | rfl | rfl | rfl | rfl | rfl | rfl | rfl
  · show some (Except.ok (D.unit c! "r", D.dims c! "r")) = _
    rw [h.lengths, h.r]; rfl
  · show some (Except.ok (D.unit c! "r", D.dims c! "r")) = _
    rw [h.lengths, h.r]; rfl
  · show some (Except.ok (D.unit c! "r", D.dims c! "r")) = _
    rw [h.lengths, h.r]; rfl
  · show some (Except.ok (D.unit c! "br", D.dims c! "br")) = _
    rw [h.fields, h.br]; rfl
  · show some (Except.ok (D.unit c! "ur", D.dims c! "ur")) = _
    rw [h.speeds, h.ur]; rfl
  · show some (Except.ok (D.unit c! "ur", D.dims c! "ur")) = _
    rw [h.speeds, h.ur]; rfl
  · show some (Except.ok (D.unit c! "ur", D.dims c! "ur")) = _
    rw [h.speeds, h.ur]; rfl
  · show some (do let u ← systemUnit s c! "plane angle"; Except.ok (u, D.dims c! "ur")) = _
    rw [e1, h.ur]; rfl
  · show some (do
      let t ← systemUnit s c! "time"
      let u ← ofMetric (unitInv order t)
      Except.ok (u, D.dims c! "rho")) = _
    simp only [ht, bind, Except.bind, hr, ofMetric, h.rho]
    rfl
  · show some (declaredRigidity s D) = _
    rw [hR]; rfl
  · show some (declaredMfp s D) = _
    rw [hM]; rfl
  · show some (do
      let t ← systemUnit s c! "time"
      let u ← ofMetric (unitInv order t)
      let m ← declaredMfp s D
      Except.ok (u, m.2)) = _
    simp only [ht, bind, Except.bind, hr, ofMetric, hM]
    rfl
  · show some (declaredAverage s D) = _
    rw [hA]; rfl
  · show some (do
      let u ← systemUnit s c! "energy density"
      let a ← declaredAverage s D
      Except.ok (u, a.2)) = _
    simp only [e2, bind, Except.bind, hA]
    rfl
  · show some (declaredFlux s D) = _
    rw [hF]; rfl
  · show some (do
      let u ← systemUnit s c! "fluence"
      let f ← declaredFlux s D
      Except.ok (u, f.2)) = _
    simp only [e3, bind, Except.bind, hF]
    rfl
  · show some (do
      let u ← systemUnit s c! "integral flux"
      let f ← declaredFlux s D
      Except.ok (u, dimsReplace f.2 c! "energy" c! "minimum energy")) = _
    simp only [e4, bind, Except.bind, hF]
    rfl

/-! ## The check of the unit -/

/-- The units are found to be consistent without conversion. -/
def agree (o : List System) (a b : List Term) : Bool :=
  exprEq a b ||
  ((match unitDimensionless a, unitDimensionless b with
    | .ok p, .ok q => p == q
    | _, _ => false) &&
   match decomposeUnit' o a, decomposeUnit' o b with
    | .ok x, .ok y => sameTerms x y || (match ofSym (exprOfTerms x), ofSym (exprOfTerms y) with
      | .ok x', .ok y' => exprEq x' y'
      | _, _ => false)
    | _, _ => false)

theorem agree_consistent {o : List System} {a b : List Term} (h : agree o a b = true) (c : Conv ℝ) (hc : c.systems = o)
    (st : Cache ℝ) : consistent c st a b = (st, .ok true) := by
  unfold consistent
  by_cases he : exprEq a b = true
  · rw [if_pos he]
  rw [if_neg he]
  have : equivalent c st a b = (st, .ok true) := by
    unfold equivalent
    rw [if_neg he]
    by_cases hs : (Metric.symmetricDifference a b).all (fun t => decide (Symbolic.formatTerm t ∈ unityTexts)) = true
    · rw [if_pos hs]
    rw [if_neg hs]
    rw [Bool.not_eq_true] at he
    simp only [agree, he, Bool.false_or, Bool.and_eq_true] at h
    obtain ⟨h1, h2⟩ := h
    cases ha : unitDimensionless a with
    | error e => simp [ha] at h1
    | ok p =>
      cases hb : unitDimensionless b with
      | error e => simp [ha, hb] at h1
      | ok q =>
        simp only [ha, hb, beq_iff_eq] at h1
        simp only [h1, ne_eq, not_true_eq_false, if_false]
        unfold decomposedEquivalent
        rw [hc]
        cases hx : decomposeUnit' o a with
        | error e => simp [hx] at h2
        | ok x =>
          cases hy : decomposeUnit' o b with
          | error e => simp [hx, hy] at h2
          | ok y =>
            simp only [hx, hy] at h2
            by_cases ht : sameTerms x y = true
            · simp only [if_pos ht]
            · simp only [if_neg ht]
              simp only [Bool.not_eq_true] at ht
              simp only [ht, Bool.false_or] at h2
              cases hx' : ofSym (exprOfTerms x) with
              | error e => simp [hx'] at h2
              | ok x' =>
                cases hy' : ofSym (exprOfTerms y) with
                | error e => simp [hx', hy'] at h2
                | ok y' =>
                  simp only [hx', hy'] at h2
                  simp only [h2, if_true]
  rw [this]

set_option maxHeartbeats 100000000 in
theorem derived_agree : ∀ o ∈ orders, ∀ s ∈ bothSystems, ∀ n ∈ derivedNames, agree o (computedUnit s n) (declaredUnit s n) = true := by
  decide +kernel

/-- One is the factor between the units, in both directions, for the real conversions. -/
def oneFactor (o : List System) (u w : List Term) : Bool :=
  (sameUnits o u w || (cancels tableNodes (showExpr u) (showExpr w) && cancels tableNodes (showExpr w) (showExpr u) &&
    decide ((freshUnit (showExpr u)).toOption = some u) && decide ((freshUnit (showExpr w)).toOption = some w) && !exprEq u w))

set_option maxHeartbeats 100000000 in
theorem derived_same : ∀ o ∈ orders, ∀ s ∈ bothSystems, ∀ n ∈ [c! "rigidity", c! "fluence"],
    oneFactor o (computedUnit s n) (declaredUnit s n) = true := by
  decide +kernel

theorem derived_equal (s : System) {n : Name} (h : n ≠ c! "rigidity" ∧ n ≠ c! "fluence") : declaredUnit s n = computedUnit s n := by
  unfold declaredUnit
  rw [if_neg h.1, if_neg h.2]

set_option maxHeartbeats 100000000 in
theorem derived_fresh : ∀ s ∈ bothSystems, ∀ n ∈ derivedNames, (freshUnit (showExpr (computedUnit s n))).isOk = true := by
  decide +kernel

theorem convert_cancels' {order : List System} {c : Conv ℝ} (hc : Package order c) {u v : Name}
    (h : cancels tableNodes u v = true) : convert c u v = .ok 1 := by
  obtain ⟨nodes, hn, rfl⟩ := hc
  rw [convert_congr (c := realConv nodes order) (c' := realConv tableNodes order) rfl rfl (fun u v => c19_order_independent nodes tableNodes hn u v)]
  exact convert_cancels h

theorem package_systems {order : List System} {c : Conv ℝ} (hc : Package order c) : c.systems = order := by
  obtain ⟨nodes, _, rfl⟩ := hc
  rfl

variable {κ ν : Type} [DecidableEq κ] {G : Grid κ ν}

theorem toUnit_one {order : List System} {c : Conv ℝ} (hc : Package order c) (rs : List (Name × Name)) {dims : List κ}
    {u w : List Term} {g : (κ → Nat) → ℝ} {a : Operand κ ν ℝ} (h : OnGrid G dims u g a) (hs : Unscaled a)
    (hu : oneFactor order u w = true) : ∃ r, toUnit c (afterRequests c [] rs) a w = .ok r ∧ OnGrid G dims w g r := by
  unfold oneFactor at hu
  rcases Bool.or_eq_true_iff.1 hu with hu | hu
  · exact toUnit_same hc rs h hs hu
  · simp only [Bool.and_eq_true, decide_eq_true_eq, Bool.not_eq_true'] at hu
    obtain ⟨⟨⟨⟨i1, i2⟩, h3⟩, h4⟩, h5⟩ := hu
    exact toUnit_grid c rs h hs (convert_cancels' hc i1) (convert_cancels' hc i2) (ok_of_toOption h3) (ok_of_toOption h4) h5

theorem convertResult_toUnit {c : Conv ℝ} {st : Cache ℝ} {a r : Operand κ ν ℝ} {w : List Term} (h : toUnit c st a w = .ok r) :
    (convertResult c st a w).2 = .ok r := by
  cases a with
  | array x =>
    unfold toUnit at h
    unfold convertResult
    simp only at h ⊢
    cases hx : x.arr.withunit c st (showExpr w) with
    | mk st' y => cases y with
      | error e => rw [hx] at h; cases h
      | ok d =>
        rw [hx] at h
        simp only [hx]
        cases h
        rfl
  | object k o => cases h
  | number x => cases h

/-- The conversion of an array to its own unit. -/
theorem convertResult_self {order : List System} {c : Conv ℝ} (hc : Package order c) (rs : List (Name × Name)) {dims : List κ}
    {u : List Term} {g : (κ → Nat) → ℝ} {a : Operand κ ν ℝ} (h : OnGrid G dims u g a) (hu : (freshUnit (showExpr u)).isOk = true) :
    (convertResult c (afterRequests c [] rs) a u).2 = .ok a := by
  obtain ⟨nodes, _, rfl⟩ := hc
  obtain ⟨_, x, rfl, _, _, _, _, rfl, _⟩ := h
  cases hw : freshUnit (showExpr x.arr.unit) with
  | error e => rw [hw] at hu; cases hu
  | ok w =>
    have h1 : convert (realConv nodes order) (showExpr x.arr.unit) (showExpr x.arr.unit) = .ok 1 := by
      have := convert_strings (nodes := nodes) (systems := order) (f := 1) (strings_self (realEnv nodes) (showExpr x.arr.unit))
      rw [this]; norm_num
    have := conversion_ok (realConv nodes order) rs x.arr.unit (showExpr x.arr.unit) w w 1 h1 (by rw [h1]; norm_num) hw hw
    simp only [convertResult, PArr.withunit, this, converter, Symbolic.exprEq_refl, if_true]

/-! ## C104 -/

/-- **C104**, declarations.  For a dataset of one species, whether it has distributions or fluxes, each derived observable
declares a unit, and the dimensions that it has. -/
theorem c104_declared (order : List System) (ho : order ∈ orders) (s : System) (D : ArraysInfo) (h : UsualArrays s D)
    (n : Name) (hn : n ∈ derivedNames) :
    ∃ u, declared order s D n = some (.ok (u, dimensionsOfDerived n)) :=
  ⟨_, declared_derived ho h hn⟩

/-- **C104**, the check.  Whatever was converted before, an array with the unit in which a derived observable is computed
passes the check of its unit, and the user gets the same numbers, on the same grid, in the declared unit. -/
theorem c104_checked (order : List System) (ho : order ∈ orders) (c : Conv ℝ) (hc : Package order c) (rs : List (Name × Name))
    (s : System) (D : ArraysInfo) (h : UsualArrays s D) (n : Name) (hn : n ∈ derivedNames) (dims : List κ) (g : (κ → Nat) → ℝ)
    (a : Operand κ ν ℝ) (ha : OnGrid G dims (computedUnit s n) g a)
    (hs : n = c! "rigidity" ∨ n = c! "fluence" → Unscaled a) :
    ∃ u r, declared order s D n = some (.ok (u, dimensionsOfDerived n)) ∧
      (finishQuantity c (afterRequests c [] rs) a u).2 = .ok r ∧ OnGrid G dims u g r := by
  refine ⟨declaredUnit s n, ?_⟩
  have hcon := agree_consistent (derived_agree order ho s (mem_bothSystems s) n hn) c (package_systems hc) (afterRequests c [] rs)
  have hau : a.unit = computedUnit s n := by
    obtain ⟨_, x, rfl, _, _, _, _, hu, _⟩ := ha
    exact hu
  by_cases hb : n = c! "rigidity" ∨ n = c! "fluence"
  · obtain ⟨r, e1, e2⟩ := toUnit_one hc rs ha (hs hb) (derived_same order ho s (mem_bothSystems s) n (by simpa using hb))
    refine ⟨r, declared_derived ho h hn, ?_, e2⟩
    unfold finishQuantity
    rw [hau, hcon]
    exact convertResult_toUnit e1
  · push Not at hb
    have hu := derived_equal s hb
    refine ⟨a, declared_derived ho h hn, ?_, hu ▸ ha⟩
    unfold finishQuantity
    rw [hau, hcon, hu]
    exact convertResult_self hc rs ha (derived_fresh s (mem_bothSystems s) n hn)

/-- **C104**, stored arrays: an array of the dataset passes the check, and it is not changed. -/
theorem c104_stored (order : List System) (c : Conv ℝ) (hc : Package order c) (rs : List (Name × Name))
    (s : System) (D : ArraysInfo) (n : Name) (hn : n ∈ storedNames) (dims : List κ) (g : (κ → Nat) → ℝ)
    (a : Operand κ ν ℝ) (ha : OnGrid G dims (D.unit n) g a) (hu : QuarterUnit (D.unit n)) :
    declared order s D n = some (.ok (D.unit n, D.dims n)) ∧
      (finishQuantity c (afterRequests c [] rs) a (D.unit n)).2 = .ok a := by
  refine ⟨by unfold declared; rw [if_pos hn], ?_⟩
  have hau : a.unit = D.unit n := by
    obtain ⟨_, x, rfl, _, _, _, _, hu, _⟩ := ha
    exact hu
  obtain ⟨w, hw⟩ := quarter_fresh hu
  unfold finishQuantity
  rw [hau, (c85_reflexive c _ _).2]
  exact convertResult_self hc rs ha (by rw [hw]; rfl)

/-- a dataset of one species -/
def oneSpecies (hasdist : Bool) : ArraysInfo where
  unit n := if n = c! "r" then unitOf .mks c! "length" else if n = c! "br" then unitOf .mks c! "magnetic field"
    else if n = c! "ur" then unitOf .mks c! "velocity" else if n = c! "energy" then unitOf .mks c! "energy"
    else [⟨1, c! "s", 3⟩, ⟨1, c! "m", -6⟩]
  dims n := if n = c! "energy" then [c! "energy"] else if n = c! "mu" then [c! "mu"] else if n = c! "mass" then [c! "species"]
    else if n = c! "f" then [c! "time", c! "shell", c! "species", c! "energy", c! "mu"]
    else if n = c! "flux" then [c! "time", c! "shell", c! "species", c! "energy"]
    else [c! "time", c! "shell"]
  hasdist := hasdist

theorem oneSpecies_usual (b : Bool) : UsualArrays .mks (oneSpecies b) := by
  constructor <;> first | rfl | decide +kernel

/-- the fluence and the rigidity -/
example : ∃ (g h : (String → Nat) → ℝ) (a b : Operand String Nat ℝ), OnGrid exampleGrid ["time", "shell"] (computedUnit .mks c! "fluence") g a ∧
    Unscaled a ∧ OnGrid exampleGrid ["species", "energy"] (computedUnit .mks c! "rigidity") h b ∧ Unscaled b ∧
    c! "fluence" ∈ derivedNames ∧ c! "rigidity" ∈ derivedNames := by
  obtain ⟨a, h1, h2⟩ := onGrid_unscaled exampleGrid ["time", "shell"] (by decide) (computedUnit .mks c! "fluence") (fun l => ((l.sum : ℕ) : ℝ))
  obtain ⟨b, h3, h4⟩ := onGrid_unscaled exampleGrid ["species", "energy"] (by decide) (computedUnit .mks c! "rigidity") (fun l => ((l.sum : ℕ) : ℝ))
  exact ⟨_, _, a, b, h1, h2, h3, h4, by decide +kernel, by decide +kernel⟩

/-- radii, in metres -/
example : c! "r" ∈ storedNames ∧ QuarterUnit [⟨1, c! "m", 1⟩] :=
  ⟨by decide +kernel, m_quarter⟩

/-! ## Rigidity and fluence -/

theorem bind_ok {α β : Type} {x : Except PErr α} {f : α → Except PErr β} {r : β} (h : (x >>= f) = .ok r) :
    ∃ y, x = .ok y ∧ f y = .ok r := by
  cases x with
  | error e => cases h
  | ok y => exact ⟨y, rfl, h⟩

/-- A product with an array is computed anew. -/
theorem product_unscaled {o : List System} {tm : Bool} {f : ℝ → ℝ → ℝ} {a : Operand κ ν ℝ} {y : Arr κ ν ℝ} {r : Operand κ ν ℝ}
    (h : Physical.multiplicative o tm f a (.array y) = .ok r) : Unscaled r := by
  cases a with
  | array x => exact multiplicative_unscaled h
  | number x =>
    unfold Physical.multiplicative at h
    cases hu : numberUnits o tm (Operand.array y : Operand κ ν ℝ).unit with
    | error e => simp only [hu] at h; cases h
    | ok u => simp only [hu] at h; exact newArray_unscaled h
  | object k x =>
    unfold Physical.multiplicative at h
    cases hu : combineUnits o tm (Operand.object k x : Operand κ ν ℝ).unit (Operand.array y : Operand κ ν ℝ).unit with
    | error e => simp only [hu] at h; cases h
    | ok u =>
      simp only [hu, multiplyMeasured] at h
      cases hz : zipData f x.data y.arr.data.data with
      | error e => rw [hz] at h; cases h
      | ok d => rw [hz] at h; exact newArray_unscaled h

theorem rigidity_unscaled {order : List System} {same inside : ν → ν → Bool} {species energy : κ} {c mass en : Operand κ ν ℝ}
    {q : Arr κ ν ℝ} {r : Operand κ ν ℝ} (h : rigidity order same inside species energy c mass (.array q) en = .ok r) : Unscaled r := by
  unfold rigidity at h
  obtain ⟨_, _, h⟩ := bind_ok h
  obtain ⟨_, _, h⟩ := bind_ok h
  obtain ⟨_, _, h⟩ := bind_ok h
  obtain ⟨_, _, h⟩ := bind_ok h
  obtain ⟨_, _, h⟩ := bind_ok h
  obtain ⟨_, _, h⟩ := bind_ok h
  obtain ⟨_, _, h⟩ := bind_ok h
  obtain ⟨_, _, h⟩ := bind_ok h
  obtain ⟨_, _, h⟩ := bind_ok h
  obtain ⟨_, _, h⟩ := bind_ok h
  exact product_unscaled h

theorem fluence_unscaled {order : List System} {time : κ} {axis : ν} {n : Nat} {flux t r : Operand κ ν ℝ}
    (h : fluence order time axis n flux t = .ok r) : Unscaled r := by
  cases t with
  | number x => cases h
  | object k x => cases h
  | array x =>
    simp only [fluence] at h
    obtain ⟨_, _, h⟩ := bind_ok h
    obtain ⟨_, _, h⟩ := bind_ok h
    obtain ⟨_, _, h⟩ := bind_ok h
    obtain ⟨_, _, h⟩ := bind_ok h
    obtain ⟨p, _, h⟩ := bind_ok h
    cases p with
    | number x => cases h
    | object k x => cases h
    | array a =>
      replace h : reduceAxis (fun y => cumsumAxis List.sum y 0) a = .ok r := h
      unfold reduceAxis at h
      cases h1 : cumsumAxis List.sum a.arr.data 0 with
      | error e => dsimp only at h; rw [h1] at h; cases h
      | ok d =>
        simp only [h1] at h
        cases h2 : Axes.lookupAll a.axes d.dims with
        | error e => simp only [h2] at h; cases h
        | ok axes => simp only [h2] at h; exact newArray_unscaled h

/-- **C104**, rigidity.  What the user gets for the rigidity is in the unit of momentum over charge that it declares, and its
numbers still satisfy `(K + mc²)² = (Rqc)² + (mc²)²` (C54). -/
theorem c104_rigidity (order : List System) (ho : order ∈ orders) (cv : Conv ℝ) (hcv : Package order cv) (rs : List (Name × Name))
    (s : System) (D : ArraysInfo) (hD : UsualArrays s D) (same inside : ν → ν → Bool)
    (hsame : ∀ x, same x x = true) (species energy : κ) (hne : species ≠ energy) (dims : List κ)
    (hdims : dims = [energy] ∨ dims = [species, energy]) (C : ℝ) (M Q K : (κ → Nat) → ℝ) (c mass charge en : Operand κ ν ℝ)
    (hc : IsScalar (unitOf s (c! "velocity")) C c) (hm : OnGrid G [species] (unitOf s (c! "mass")) M mass)
    (hq : OnGrid G [species] (unitOf s (c! "charge")) Q charge) (he : OnGrid G dims (unitOf s (c! "energy")) K en)
    (hC : 0 < C) :
    ∃ u r0 r R, declared order s D c! "rigidity" = some (.ok (u, [c! "species", c! "energy"])) ∧
      rigidity order same inside species energy c mass charge en = .ok r0 ∧
      (finishQuantity cv (afterRequests cv [] rs) r0 u).2 = .ok r ∧ OnGrid G [species, energy] u R r ∧
      ∀ p, 0 < M p → Q p ≠ 0 → 0 ≤ K p → 0 ≤ R p * Q p ∧
        (K p + M p * C ^ 2) ^ 2 = (R p * Q p * C) ^ 2 + (M p * C ^ 2) ^ 2 := by
  obtain ⟨r0, R, e, g, hR⟩ := c54_rigidity order ho s same inside hsame species energy hne dims hdims C M Q K c mass charge en hc hm hq he hC
  have hu : Unscaled r0 := by
    obtain ⟨_, q, rfl, _⟩ := hq
    exact rigidity_unscaled e
  obtain ⟨u, r, h1, h2, h3⟩ := c104_checked order ho cv hcv rs s D hD c! "rigidity" (by decide +kernel) [species, energy] R r0 g (fun _ => hu)
  exact ⟨u, r0, r, R, h1, e, h2, h3, hR⟩

/-- **C104**, fluence.  What the user gets for the fluence is in the unit of fluence of the system, starts at zero, and
increases by the flux times the time step (C55). -/
theorem c104_fluence (order : List System) (ho : order ∈ orders) (cv : Conv ℝ) (hcv : Package order cv) (rs : List (Name × Name))
    (s : System) (D : ArraysInfo) (hD : UsualArrays s D) (time : κ) (rest : List κ)
    (F : (κ → Nat) → ℝ) (T : Nat → ℝ) (flux t : Operand κ ν ℝ) (hf : OnGrid G (time :: rest) (fluxUnit s) F flux)
    (ht : OnGrid G [time] (unitOf s (c! "time")) (fun p => T (p time)) t) :
    ∃ u r0 r R, declared order s D c! "fluence" = some (.ok (u, [c! "time", c! "shell", c! "species", c! "energy"])) ∧
      fluence order time (G.axis time) (G.size time) flux t = .ok r0 ∧
      (finishQuantity cv (afterRequests cv [] rs) r0 u).2 = .ok r ∧ OnGrid G (time :: rest) u R r ∧
      ∀ p, R (Function.update p time 0) = 0 ∧
        ∀ k, R (Function.update p time (k + 1)) = R (Function.update p time k) +
          F (Function.update p time (k + 1)) * (T (k + 1) - T k) := by
  obtain ⟨r0, R, e, g, hR⟩ := c55_fluence order ho s time rest F T flux t hf ht
  obtain ⟨u, r, h1, h2, h3⟩ := c104_checked order ho cv hcv rs s D hD c! "fluence" (by decide +kernel) _ R r0 g
    (fun _ => fluence_unscaled e)
  exact ⟨u, r0, r, R, h1, e, h2, h3, fun p => ⟨(hR p).1, (hR p).2.1⟩⟩

/-! ## Exceptions -/

/-- **C104** does not hold for distributions: for any dataset that has fluxes in their place, `f` declares a unit and
dimensions, but subscribing it raises `AttributeError` instead of `ObservationError` (or giving an array). -/
theorem c104_not_distribution (order : List System) (c : Conv ℝ) (st : Cache ℝ) (s : System) (D : ArraysInfo)
    (h : UsualArrays s D) (hf : D.hasdist = false) (stored : Operand κ ν ℝ) :
    ∃ u, declared order s D c! "f" = some (.ok (u, [c! "time", c! "shell", c! "species", c! "energy", c! "mu"])) ∧
      (finishOptional c st (operatorF D stored) u).2 = .error .attribute := by
  obtain ⟨u, hu, _⟩ := declaredF_dims h
  refine ⟨u, ?_, by simp only [operatorF, hf]; rfl⟩
  unfold declared
  rw [if_neg (by decide +kernel), if_pos rfl, hu]

/-- **C104** does not hold for several species, whose energies and speeds depend on the species: the declared dimensions of
the average energy and of the energy density lack the species, which the arrays have. -/
theorem c104_not_species (order : List System) (ho : order ∈ orders) (c : Conv ℝ) (hc : Package order c)
    (rs rs' : List (Name × Name)) (s : System) (D : ArraysInfo) (hd : D.hasdist = true)
    (he : D.dims c! "energy" = [c! "species", c! "energy"]) (hm : D.dims c! "mu" = [c! "mu"])
    (hf : D.dims c! "f" = [c! "time", c! "shell", c! "species", c! "energy", c! "mu"]) (G : Grid Name ν)
    (V F : (Name → Nat) → ℝ) (M : Nat → ℝ) (m v fiso : Operand Name ν ℝ)
    (hmass : OnGrid G [c! "species"] (unitOf s (c! "mass")) (fun p => M (p c! "species")) m)
    (hv : OnGrid G [c! "species", c! "energy"] (unitOf s (c! "velocity")) V v)
    (hiso : OnGrid G [c! "time", c! "shell", c! "species", c! "energy"] (distributionUnit s) F fiso) (h2 : 2 ≤ G.size c! "energy") :
    ∃ u w a e A E, declared order s D c! "average_energy" = some (.ok (u, [c! "time", c! "shell"])) ∧
      declared order s D c! "energy_density" = some (.ok (w, [c! "time", c! "shell"])) ∧
      averageEnergy order c (afterRequests c [] rs) (afterRequests c [] rs') (energyDensityUnit s) (unitOf s (c! "energy")) m v fiso = .ok a ∧
      energyDensity order c (afterRequests c [] rs) (energyDensityUnit s) m v fiso = .ok e ∧
      OnGrid G [c! "time", c! "shell", c! "species"] (unitOf s (c! "energy")) A a ∧
      OnGrid G [c! "time", c! "shell", c! "species"] (energyDensityUnit s) E e := by
  have ha : declaredAverage s D = .ok (D.unit c! "energy", [c! "time", c! "shell"]) := by
    unfold declaredAverage declaredF
    rw [he, hm, hf, hd]
    rfl
  obtain ⟨a, e1, g1⟩ := averageEnergy_grid (front := [c! "time", c! "shell", c! "species"]) (vs := [c! "species"]) ho hc rs rs' s hmass hv hiso
    (by decide) (by decide) h2
  obtain ⟨e, e2, g2⟩ := energyDensity_grid (front := [c! "time", c! "shell", c! "species"]) (vs := [c! "species"]) ho hc rs s hmass hv hiso
    (by decide) (by decide) h2
  refine ⟨D.unit c! "energy", declaredUnit s c! "energy_density", a, e, _, _, ?_, ?_, e1, e2, g1, g2⟩
  · show some (declaredAverage s D) = _
    rw [ha]
  · show some (do
      let u ← systemUnit s c! "energy density"
      let a ← declaredAverage s D
      Except.ok (u, a.2)) = _
    simp only [systemUnit_of (s := s) (q := c! "energy density") (n := c! "energy_density") (by decide), bind, Except.bind, ha]

/-- two species -/
example : ∃ (G : Grid Name Nat) (V F : (Name → Nat) → ℝ) (M : Nat → ℝ) (m v fiso : Operand Name Nat ℝ),
    OnGrid G [c! "species"] (unitOf .mks (c! "mass")) (fun p => M (p c! "species")) m ∧
    OnGrid G [c! "species", c! "energy"] (unitOf .mks (c! "velocity")) V v ∧
    OnGrid G [c! "time", c! "shell", c! "species", c! "energy"] (distributionUnit .mks) F fiso ∧ 2 ≤ G.size c! "energy" := by
  let G : Grid Name Nat := ⟨fun _ => 2, fun d => d.length, fun _ => by norm_num⟩
  obtain ⟨m, hm⟩ := onGrid_ofFn G [c! "species"] (by decide) (unitOf .mks (c! "mass")) (fun l => ((l.sum : ℕ) : ℝ) + 1)
  obtain ⟨v, hv⟩ := onGrid_ofFn G [c! "species", c! "energy"] (by decide) (unitOf .mks (c! "velocity")) (fun l => ((l.sum : ℕ) : ℝ) + 1)
  obtain ⟨f, hf⟩ := onGrid_ofFn G [c! "time", c! "shell", c! "species", c! "energy"] (by decide) (distributionUnit .mks) (fun l => ((l.sum : ℕ) : ℝ) + 1)
  exact ⟨G, _, _, fun n => (([n].sum : ℕ) : ℝ) + 1, m, v, f, hm, hv, hf, le_rfl⟩

end Eprem.Observable
