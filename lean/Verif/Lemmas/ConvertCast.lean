import Verif.Lemmas.MetricConvert

/-!
# Conversions with real factors, evaluated with rational numbers

The model of conversions has factors in an arbitrary field with a power function.  With real numbers it cannot be evaluated;
where all exponents that occur are integers, the results are those of the evaluation with rational numbers.
-/

namespace Eprem.Metric

open Eprem Eprem.Symbolic

/-- The conversions of the package with rational factors. -/
def rats (nodes : List Name) (systems : List System) : Conv ℚ := ⟨realEnv nodes, ratPow, systems⟩

def Integral (ts : List Term) : Bool := ts.all (fun t => decide (t.exp.den = 1))

/-- The exponents that occur in a conversion are integers. -/
def integralSteps (nodes : List Name) (systems : List System) (u v : Name) : Bool :=
  match ofSym (exprOfString false u), ofSym (exprOfString false v) with
  | .ok e₀, .ok e₁ => match ofSym (exprDiv e₀ e₁) with
    | .ok q =>
      let terms := q.filter (fun t => decide (t.base ∉ unity))
      Integral terms && match decomposeAll (rats nodes systems) terms 1 [] with
        | .ok (_, decomposed) => match cancelTerms decomposed with
          | .ok cancelled => match expressTerms cancelled with
            | .ok reduced => Integral reduced
            | .error _ => false
          | .error _ => false
        | .error _ => false
    | .error _ => false
  | _, _ => false

theorem integral_mem {ts : List Term} (h : Integral ts = true) : ∀ t ∈ ts, t.exp.den = 1 := by
  unfold Integral at h
  rw [List.all_eq_true] at h
  exact fun t ht => of_decide_eq_true (h t ht)

theorem pow_cast {f e : ℚ} (h : e.den = 1) : (f : ℝ) ^ (e : ℝ) = ((ratPow f e : ℚ) : ℝ) := by
  have : (e : ℝ) = ((e.num : ℤ) : ℝ) := by
    conv_lhs => rw [← Rat.num_div_den e, h]
    push_cast; simp
  rw [this, Real.rpow_intCast, ratPow, if_pos h]
  push_cast
  rfl

theorem resolveTerms_map {nodes : List Name} {systems : List System} {ts : List Term} (h : ∀ t ∈ ts, t.exp.den = 1) :
    resolveTerms (realConv nodes systems) ts =
      (resolveTerms (rats nodes systems) ts).map (Option.map (fun x : ℚ => (x : ℝ))) := by
  unfold resolveTerms
  split
  · rfl
  · have := resolveLoop_cast (nodes := nodes) (systems := systems) ts [] ts 1 h
    rw [show ((1 : ℚ) : ℝ) = 1 by norm_num] at this
    exact this

theorem decomposeLoop_map {nodes : List Name} {systems : List System} {t : Term} (h : t.exp.den = 1) :
    ∀ l, decomposeLoop (realConv nodes systems) t l =
      (decomposeLoop (rats nodes systems) t l).map (Option.map (fun p : ℚ × List Term => ((p.1 : ℝ), p.2)))
  | [] => rfl
  | s :: rest => by
    have ih := decomposeLoop_map (nodes := nodes) (systems := systems) h rest
    unfold decomposeLoop
    simp only [bind, Except.bind]
    cases h1 : namedUnit t.base with
    | error e => rfl
    | ok u =>
      simp only
      cases h2 : Except.bind (unitsOf s u.base.quantity) namedUnit with
      | error e =>
        simp only [Except.bind] at h2
        simp only [h2]
        rfl
      | ok norm =>
        simp only [Except.bind] at h2
        simp only [h2]
        cases h3 : reduceTerm norm.symbol t.exp with
        | error e => rfl
        | ok o => cases o with
          | none => exact ih
          | some ts =>
            simp only
            show (match convertAsStrings (realEnv nodes) t.base norm.symbol with | some f => _ | none => _) =
              Except.map _ (match convertAsStrings (realEnv nodes) t.base norm.symbol with | some f => _ | none => _)
            cases h4 : convertAsStrings (realEnv nodes) t.base norm.symbol with
            | none => exact ih
            | some f =>
              show Except.ok (some ((f : ℝ) ^ (t.exp : ℝ), ts)) = Except.ok (some (((ratPow f t.exp : ℚ) : ℝ), ts))
              rw [pow_cast h]

theorem decomposeUnit_map {nodes : List Name} {systems : List System} {t : Term} (h : t.exp.den = 1) :
    decomposeUnit (realConv nodes systems) t =
      (decomposeUnit (rats nodes systems) t).map (Option.map (fun p : ℚ × List Term => ((p.1 : ℝ), p.2))) := by
  unfold decomposeUnit
  simp only [bind, Except.bind]
  cases h1 : reduceTerm t.base t.exp with
  | error e => rfl
  | ok o => cases o with
    | some ts =>
      show Except.ok (some ((1 : ℝ), ts)) = Except.ok (some (((1 : ℚ) : ℝ), ts))
      norm_num
    | none =>
      simp only
      cases h2 : namedUnit t.base with
      | error e => rfl
      | ok u =>
        simp only
        have e1 : (realConv nodes systems).systems = systems := rfl
        have e2 : (rats nodes systems).systems = systems := rfl
        rw [e1, e2]
        cases hz : mapE (fun s => Except.bind (unitsOf s u.base.quantity) namedUnit) systems with
        | error e =>
          simp only [Except.bind] at hz
          simp only [hz]
          rfl
        | ok v =>
          simp only [Except.bind] at hz
          simp only [hz]
          exact decomposeLoop_map h systems

theorem decomposeAll_map {nodes : List Name} {systems : List System} : ∀ (ts : List Term) (f : ℚ) (acc : List Term),
    (∀ t ∈ ts, t.exp.den = 1) → decomposeAll (realConv nodes systems) ts (f : ℝ) acc =
      (decomposeAll (rats nodes systems) ts f acc).map (fun p : ℚ × List Term => ((p.1 : ℝ), p.2))
  | [], f, acc, _ => rfl
  | t :: rest, f, acc, h => by
    have ih := fun f acc => decomposeAll_map (nodes := nodes) (systems := systems) rest f acc (fun t ht => h t (by simp [ht]))
    unfold decomposeAll
    rw [decomposeUnit_map (h t (by simp))]
    cases decomposeUnit (rats nodes systems) t with
    | error e => rfl
    | ok o => cases o with
      | none => exact ih _ _
      | some p =>
        obtain ⟨s, units⟩ := p
        show decomposeAll (realConv nodes systems) rest ((f : ℝ) * (s : ℝ)) (acc ++ units) = _
        rw [← Rat.cast_mul]
        exact ih _ _

theorem truthy_map (o : Option ℚ) : truthy (o.map (fun x : ℚ => (x : ℝ))) = (truthy o).map (fun x : ℚ => (x : ℝ)) := by
  cases o with
  | none => rfl
  | some x =>
    by_cases h : x = 0
    · subst h; simp [truthy]
    · simp [truthy, h]

theorem convertByDimensions_map {nodes : List Name} {systems : List System} {ts : List Term} (h : ∀ t ∈ ts, t.exp.den = 1)
    (h' : ∀ f decomposed cancelled reduced, decomposeAll (rats nodes systems) ts 1 [] = .ok (f, decomposed) →
      cancelTerms decomposed = .ok cancelled → expressTerms cancelled = .ok reduced → ∀ t ∈ reduced, t.exp.den = 1) :
    convertByDimensions (realConv nodes systems) ts =
      (convertByDimensions (rats nodes systems) ts).map (Option.map (fun x : ℚ => (x : ℝ))) := by
  have e := decomposeAll_map (nodes := nodes) (systems := systems) ts 1 [] h
  rw [show ((1 : ℚ) : ℝ) = 1 by norm_num] at e
  unfold convertByDimensions
  simp only [bind, Except.bind, e]
  cases h1 : decomposeAll (rats nodes systems) ts 1 [] with
  | error e => rfl
  | ok p =>
    obtain ⟨f, decomposed⟩ := p
    simp only [Except.map]
    cases h2 : expressTerms decomposed with
    | error e => rfl
    | ok x =>
      simp only
      split
      · rfl
      · cases h3 : cancelTerms decomposed with
        | error e => rfl
        | ok cancelled =>
          simp only
          cases h4 : expressTerms cancelled with
          | error e => rfl
          | ok reduced =>
            simp only [resolveTerms_map (nodes := nodes) (systems := systems) (h' f decomposed cancelled reduced h1 h3 h4)]
            cases resolveTerms (rats nodes systems) reduced with
            | error e => rfl
            | ok o =>
              simp only [Except.map, truthy_map, pure, Except.pure, Option.map_map]
              congr 2
              funext x
              simp

/-- **Conversions by evaluation.**  Where all exponents that occur are integers, the conversion with real factors is that with
rational factors. -/
theorem convert_map {nodes : List Name} {systems : List System} {u v : Name} (h : integralSteps nodes systems u v = true) :
    convert (realConv nodes systems) u v = (convert (rats nodes systems) u v).map (fun x : ℚ => (x : ℝ)) := by
  unfold convert
  have e1 : (realConv nodes systems).env = realEnv nodes := rfl
  have e2 : (rats nodes systems).env = realEnv nodes := rfl
  rw [e1, e2]
  cases hs : convertAsStrings (realEnv nodes) u v with
  | some f =>
    show Except.ok ((f : ℝ) ^ ((1 : ℚ) : ℝ)) = Except.ok ((ratPow f 1 : ℚ) : ℝ)
    rw [pow_cast rfl]
  | none =>
    simp only
    have key : convertAsExpressions (realConv nodes systems) u v =
        (convertAsExpressions (rats nodes systems) u v).map (Option.map (fun x : ℚ => (x : ℝ))) := by
      unfold integralSteps at h
      unfold convertAsExpressions
      simp only [bind, Except.bind]
      cases h1 : ofSym (exprOfString false u) with
      | error e => rfl
      | ok e₀ =>
        simp only [h1] at h ⊢
        cases h2 : ofSym (exprOfString false v) with
        | error e => rfl
        | ok e₁ =>
          simp only [h2] at h ⊢
          split
          · show Except.ok (some (1 : ℝ)) = Except.ok (some (((1 : ℚ) : ℝ)))
            norm_num
          · cases h3 : ofSym (exprDiv e₀ e₁) with
            | error e => rfl
            | ok q =>
              simp only [h3, Bool.and_eq_true] at h ⊢
              obtain ⟨i1, i2⟩ := h
              have i1 := integral_mem i1
              rw [resolveTerms_map i1]
              cases resolveTerms (rats nodes systems) (q.filter (fun t => decide (t.base ∉ unity))) with
              | error e => rfl
              | ok o =>
                simp only [Except.map, truthy_map]
                cases truthy o with
                | some f => rfl
                | none =>
                  simp only [Option.map_none]
                  rw [convertByDimensions_map i1 (fun f d c r q1 q2 q3 => by
                    simp only [q1, q2, q3] at i2
                    exact integral_mem i2)]
                  cases convertByDimensions (rats nodes systems) (q.filter (fun t => decide (t.base ∉ unity))) with
                  | error e => rfl
                  | ok o => simp only [Except.map, truthy_map, pure, Except.pure]
    rw [key]
    cases convertAsExpressions (rats nodes systems) u v with
    | error e => rfl
    | ok o =>
      simp only [Except.map, truthy_map]
      cases truthy o with
      | none => rfl
      | some f => rfl

/-! ## The order of the nodes -/

variable {K : Type} [Field K] [DecidableEq K] {c c' : Conv K}

theorem resolveTerms_congr (hp : c.pw = c'.pw) (h : ∀ u v, convertAsStrings c.env u v = convertAsStrings c'.env u v)
    (ts : List Term) : resolveTerms c ts = resolveTerms c' ts := by
  have h1 : ∀ t l, matchInverse c t l = matchInverse c' t l := fun t l => by
    unfold matchInverse
    simp only [h, hp]
  have h2 : ∀ t l, matchExponents c t l = matchExponents c' t l := fun t l => by
    unfold matchExponents
    simp only [h1]
  have h3 : ∀ rest m un f, resolveLoop c rest m un f = resolveLoop c' rest m un f := fun rest => by
    induction rest with
    | nil => intros; rfl
    | cons t rest ih => intro m un f; simp only [resolveLoop, h2, ih]
  unfold resolveTerms
  rw [h3]

theorem decomposeAll_congr (hp : c.pw = c'.pw) (hs : c.systems = c'.systems)
    (h : ∀ u v, convertAsStrings c.env u v = convertAsStrings c'.env u v) :
    ∀ ts f acc, decomposeAll c ts f acc = decomposeAll c' ts f acc := by
  have h1 : ∀ t l, decomposeLoop c t l = decomposeLoop c' t l := fun t l => by
    induction l with
    | nil => rfl
    | cons s l ih => simp only [decomposeLoop, h, hp, ih]
  have h2 : ∀ t, decomposeUnit c t = decomposeUnit c' t := fun t => by
    unfold decomposeUnit
    simp only [h1, hs]
  intro ts
  induction ts with
  | nil => intros; rfl
  | cons t ts ih => intro f acc; simp only [decomposeAll, h2, ih]

/-- Conversions depend on the table of conversions through the conversions between names only. -/
theorem convert_congr (hp : c.pw = c'.pw) (hs : c.systems = c'.systems)
    (h : ∀ u v, convertAsStrings c.env u v = convertAsStrings c'.env u v) (u v : Name) : convert c u v = convert c' u v := by
  have h1 : ∀ ts, convertByDimensions c ts = convertByDimensions c' ts := fun ts => by
    unfold convertByDimensions
    simp only [decomposeAll_congr hp hs h, resolveTerms_congr hp h]
  have h2 : convertAsExpressions c u v = convertAsExpressions c' u v := by
    unfold convertAsExpressions
    simp only [resolveTerms_congr hp h, h1]
  unfold convert
  rw [h, hp, h2]

end Eprem.Metric
