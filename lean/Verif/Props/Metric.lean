import Verif.Lemmas.MetricSize
import Verif.Props.MetricNames

/-!
# C19-C21: the graph of conversions

`convertAsStrings (realEnv nodes) u v` is the factor that the package finds for the unit strings `u` and `v` with its
tables (`none` if it finds none); `nodes` is the order in which it happens to iterate over the set of the nodes of the
graph of conversions.  `Route` and `Sizes` are defined in `Spec/Metric.lean`.
-/

namespace Eprem.Metric

open Eprem Eprem.Container

/-! ## Any tables -/

/-- **C19**, any tables.  Given sizes for all units that agree with the tables, whatever the search finds - by definition,
by alias, by prefix, by rescaling either end or through intermediate units - is the quotient of the two sizes. -/
theorem c19_quotient (E : Env) (φ : Name → ℚ) (hφ : Sizes E.named (fun a b => E.graph.get? (a, b)) φ) (hg : E.graph.WF)
    (u v : Name) (f : ℚ) (hf : convertAsStrings E u v = some f) : f = φ u / φ v :=
  strings_sound hφ hg hf

/-- the tables of the package do have such sizes -/
example : ∃ φ, Sizes named (fun a b => conversions.get? (a, b)) φ := ⟨size, real_sizes []⟩

/-! ## The tables of the package -/

/-- **C19**, there is one size for every unit string such that every factor is a quotient of sizes. -/
theorem c19_sizes : ∃ φ : Name → ℚ, (∀ u, 0 < φ u) ∧
    (∀ nodes u v f, convertAsStrings (realEnv nodes) u v = some f → f = φ u / φ v) ∧
    (∀ u v p, Route (fun a b => conversions.get? (a, b)) u v p → p = φ u / φ v) ∧
    (∀ u e v e', namedUnits.getItem u = .ok e → namedUnits.getItem v = .ok e' → e.base = e'.base →
      φ u / φ v = e.prefix_.factor / e'.prefix_.factor) := by
  refine ⟨size, size_pos, ?_, ?_, ?_⟩
  · intro nodes u v f hf
    exact strings_sound (real_sizes nodes) conversions_nodup hf
  · intro u v p hr
    exact route_size (real_sizes []) hr
  · intro u e v e' hu hv hb
    have key : ∀ {n e}, namedUnits.getItem n = .ok e → named n = some e := by
      intro n e h
      rw [c22_lookup] at h
      split at h
      next e' he => cases h; exact he
      next => cases h
    exact ((real_sizes []).scale u v e e' (key hu) (key hv) hb).symm

/-- **C19**, round trip.  A factor and the factor of the opposite conversion have the product 1, whatever the orders in
which the nodes of the graph are visited in the two searches. -/
theorem c19_round_trip (nodes nodes' : List Name) (u v : Name) (f g : ℚ)
    (hf : convertAsStrings (realEnv nodes) u v = some f) (hg : convertAsStrings (realEnv nodes') v u = some g) :
    f * g = 1 := by
  obtain ⟨φ, hp, hs, _⟩ := c19_sizes
  rw [hs _ _ _ _ hf, hs _ _ _ _ hg]
  have := (hp u).ne'
  have := (hp v).ne'
  field_simp

/-- a conversion through two intermediate units, and back -/
example : convertAsStrings (realEnv []) c! "au" c! "Rs" = some (1495978707 / 6960000) ∧
    convertAsStrings (realEnv []) c! "Rs" c! "au" = some (6960000 / 1495978707) := by
  decide +kernel

/-- **C19**, path independence.  The factor found equals the product of the defined conversions along *any* route
between the two units. -/
theorem c19_route_independent (nodes : List Name) (u v : Name) (f p : ℚ)
    (hf : convertAsStrings (realEnv nodes) u v = some f)
    (hr : Route (fun a b => conversions.get? (a, b)) u v p) : f = p := by
  obtain ⟨φ, _, hs, ht, _⟩ := c19_sizes
  rw [hs _ _ _ _ hf, ht _ _ _ hr]

/-- **C19**, all routes agree with each other. -/
theorem c19_routes_agree (u v : Name) (p q : ℚ) (hp : Route (fun a b => conversions.get? (a, b)) u v p)
    (hq : Route (fun a b => conversions.get? (a, b)) u v q) : p = q := by
  obtain ⟨φ, _, _, ht, _⟩ := c19_sizes
  rw [ht _ _ _ hp, ht _ _ _ hq]

example : Route (fun a b => conversions.get? (a, b)) c! "h" c! "min" (3600 * (1 / 60 * 1)) :=
  .step (v := c! "s") (by decide +kernel) (.step (v := c! "min") (by decide +kernel) (.refl _))

example : Route (fun a b => conversions.get? (a, b)) c! "h" c! "min" (3600 * (1 / 86400 * (86400 * (1 / 60 * 1)))) :=
  .step (v := c! "s") (by decide +kernel) (.step (v := c! "d") (by decide +kernel)
    (.step (v := c! "s") (by decide +kernel) (.step (v := c! "min") (by decide +kernel) (.refl _))))

/-- **C19**, the search is complete: two units connected by defined conversions are converted. -/
theorem c19_connected (nodes : List Name) (u v : Name) (p : ℚ)
    (hr : Route (fun a b => conversions.get? (a, b)) u v p) : convertAsStrings (realEnv nodes) u v = some p := by
  have hw : ∀ a b w, ((a, b), w) ∈ (realEnv nodes).graph → w ≠ 0 := by
    intro a b w hm
    have := size_edges _ hm
    simp only at this
    rw [this]
    exact div_ne_zero (size_pos _).ne' (size_pos _).ne'
  obtain ⟨f, hf⟩ := strings_complete (E := realEnv nodes) hw conversions_nodup hr
  rw [hf, c19_route_independent nodes u v f p hf hr]

/-- **C19**, units that differ only by a prefix are converted, by the quotient of the prefixes. -/
theorem c19_prefix (nodes : List Name) (u v : Name) (e e' : Entry) (hu : namedUnits.getItem u = .ok e)
    (hv : namedUnits.getItem v = .ok e') (hb : e.base = e'.base) :
    convertAsStrings (realEnv nodes) u v = some (e.prefix_.factor / e'.prefix_.factor) := by
  have key : ∀ {n e}, namedUnits.getItem n = .ok e → named n = some e := by
    intro n e h
    rw [c22_lookup] at h
    split at h
    next e' he => cases h; exact he
    next => cases h
  have hu' := key hu
  have hv' := key hv
  obtain ⟨φ, hp, hs, _, hb'⟩ := c19_sizes
  have hex : ∃ f, convertAsStrings (realEnv nodes) u v = some f := by
    have hr : ∃ r, ratio e e' = some r := by
      unfold ratio
      split
      · exact ⟨_, rfl⟩
      · rw [if_neg (by simp [hb])]; exact ⟨_, rfl⟩
    obtain ⟨r, hr⟩ := hr
    have hsimple : ∃ g, simpleConversion (realEnv nodes) u v 1 = some g ∧ g ≠ 0 := by
      have hex : ∃ g, simpleConversion (realEnv nodes) u v 1 = some g := by
        unfold simpleConversion
        split
        · exact ⟨_, rfl⟩
        · split
          · exact ⟨_, rfl⟩
          · have h0 : (realEnv nodes).named u = some e := hu'
            have h1 : (realEnv nodes).named v = some e' := hv'
            simp only [h0, h1, hr, Option.map_some]
            exact ⟨_, rfl⟩
      obtain ⟨g, hg⟩ := hex
      refine ⟨g, hg, ?_⟩
      rw [simple_sound (real_sizes nodes) hg, one_mul]
      exact div_ne_zero (size_pos _).ne' (size_pos _).ne'
    obtain ⟨g, hg, hg0⟩ := hsimple
    refine ⟨g, ?_⟩
    have h1 : standardConversion (realEnv nodes) u v 1 = some g := by
      unfold standardConversion; rw [hg]; simp [truthy, hg0]
    unfold convertAsStrings
    have hlen : 2 * (realEnv nodes).graph.length + 2 = (2 * (realEnv nodes).graph.length + 1) + 1 := by omega
    rw [hlen]
    unfold recursiveConversion
    rw [if_neg (by simp), h1]
    simp [truthy, hg0]
  obtain ⟨f, hf⟩ := hex
  rw [hf, hs _ _ _ _ hf, hb' u e v e' hu hv hb]

/-- **C19**, the search order does not matter: the outcome, success or failure, is the same for every order of the
nodes. -/
theorem c19_order_independent (nodes nodes' : List Name) (h : ∀ n, n ∈ nodes ↔ n ∈ nodes') (u v : Name) :
    convertAsStrings (realEnv nodes) u v = convertAsStrings (realEnv nodes') u v := by
  have hloop : ∀ (l : List Name) (e₀ : Entry) (u₁ : Name), (∃ w, rescaleLoop (realEnv nodes) e₀ u₁ l = some w) ↔
      ∃ x ∈ l, ∃ ex f, named x = some ex ∧ ex.base = e₀.base ∧ truthy (search (realEnv nodes) x u₁) = some f := by
    intro l e₀ u₁
    induction l with
    | nil => simp [rescaleLoop]
    | cons x l ih =>
      have hE : (realEnv nodes).named x = named x := rfl
      unfold rescaleLoop
      rw [hE]
      cases hx : named x with
      | none =>
        simp only
        rw [ih]
        simp [hx]
      | some ex =>
        simp only
        by_cases hb : ex.base = e₀.base
        · rw [if_pos hb]
          cases ht : truthy (search (realEnv nodes) x u₁) with
          | none =>
            simp only
            rw [ih]
            simp [hx, ht]
          | some f =>
            simp only
            have hr : ∃ r, ratio e₀ ex = some r := by
              unfold ratio
              split
              · exact ⟨_, rfl⟩
              · rw [if_neg (by simp [hb])]; exact ⟨_, rfl⟩
            obtain ⟨r, hr⟩ := hr
            rw [hr]
            exact ⟨fun _ => ⟨x, by simp, ex, f, hx, hb, ht⟩, fun _ => ⟨_, rfl⟩⟩
        · rw [if_neg hb, ih]
          simp [hx, hb]
  have hsearch : ∀ a b, search (realEnv nodes) a b = search (realEnv nodes') a b := fun _ _ => rfl
  have hloopE : ∀ (l : List Name) (e₀ : Entry) (u₁ : Name),
      rescaleLoop (realEnv nodes) e₀ u₁ l = rescaleLoop (realEnv nodes') e₀ u₁ l := by
    intro l e₀ u₁
    induction l with
    | nil => rfl
    | cons x l ih => unfold rescaleLoop; simp only [ih]; rfl
  have hrescale : ∀ a b, rescale (realEnv nodes) a b = rescale (realEnv nodes') a b := by
    intro a b
    cases h1 : rescale (realEnv nodes) a b with
    | some w =>
      cases h2 : rescale (realEnv nodes') a b with
      | some w' => rw [rescale_sound (real_sizes _) h1, rescale_sound (real_sizes _) h2]
      | none =>
        exfalso
        unfold rescale at h1 h2
        have hE : (realEnv nodes).named a = named a := rfl
        have hE' : (realEnv nodes').named a = named a := rfl
        rw [hE] at h1
        rw [hE'] at h2
        cases hn : named a with
        | none => rw [hn] at h1; cases h1
        | some e =>
          rw [hn] at h1 h2
          obtain ⟨x, hx, hrest⟩ := (hloop nodes e b).1 ⟨w, h1⟩
          obtain ⟨w', hw'⟩ := (hloop nodes' e b).2 ⟨x, (h x).1 hx, hrest⟩
          rw [hloopE] at hw'
          have h2' : rescaleLoop (realEnv nodes') e b nodes' = none := h2
          rw [hw'] at h2'; cases h2'
    | none =>
      cases h2 : rescale (realEnv nodes') a b with
      | none => rfl
      | some w =>
        exfalso
        unfold rescale at h1 h2
        have hE : (realEnv nodes).named a = named a := rfl
        have hE' : (realEnv nodes').named a = named a := rfl
        rw [hE] at h1
        rw [hE'] at h2
        cases hn : named a with
        | none => rw [hn] at h2; cases h2
        | some e =>
          rw [hn] at h1 h2
          have h2' : rescaleLoop (realEnv nodes') e b nodes' = some w := h2
          rw [← hloopE] at h2'
          obtain ⟨x, hx, hrest⟩ := (hloop nodes' e b).1 ⟨w, h2'⟩
          obtain ⟨w', hw'⟩ := (hloop nodes e b).2 ⟨x, (h x).2 hx, hrest⟩
          have h1' : rescaleLoop (realEnv nodes) e b nodes = none := h1
          rw [hw'] at h1'; cases h1'
  have hmem : ∀ a, (a ∈ (realEnv nodes).nodes) ↔ a ∈ (realEnv nodes').nodes := h
  have hstd : ∀ a b s, standardConversion (realEnv nodes) a b s = standardConversion (realEnv nodes') a b s := by
    intro a b s
    have h1 : simpleConversion (realEnv nodes) a b s = simpleConversion (realEnv nodes') a b s := rfl
    have h2 : rescaleConversion (realEnv nodes) a b s = rescaleConversion (realEnv nodes') a b s := by
      unfold rescaleConversion
      simp only [hrescale, hmem]
    unfold standardConversion
    rw [h1, h2]
  have hloop2 : ∀ (go go' : List Name → Name → List Name × Option ℚ), (∀ c x, go c x = go' c x) → ∀ adj c,
      recursiveLoop go adj c = recursiveLoop go' adj c := by
    intro go go' hgo
    have : go = go' := by funext c x; exact hgo c x
    intro adj c; rw [this]
  have hrec : ∀ n c x, recursiveConversion (realEnv nodes) v 1 n c x = recursiveConversion (realEnv nodes') v 1 n c x := by
    intro n
    induction n with
    | zero => intro c x; rfl
    | succ n ih =>
      intro c x
      unfold recursiveConversion
      rw [hstd, hloop2 _ _ ih]
      rfl
  unfold convertAsStrings
  rw [hrec]
  rfl

/-- The rescaling search is used for `km` to `cm / s`-like pairs only; here from a prefixed unit to a defined target. -/
example : convertAsStrings (realEnv [c! "J", c! "erg", c! "eV"]) c! "MeV" c! "J" = some (16022 / 10 ^ 17) ∧
    convertAsStrings (realEnv [c! "eV", c! "erg", c! "J"]) c! "MeV" c! "J" = some (16022 / 10 ^ 17) ∧
    convertAsStrings (realEnv []) c! "MeV" c! "J" = none := by
  decide +kernel

/-- **C20**, conversions compose, whatever the orders of the three searches. -/
theorem c20_compose (nodes nodes' nodes'' : List Name) (u v w : Name) (f g h : ℚ)
    (hf : convertAsStrings (realEnv nodes) u v = some f) (hg : convertAsStrings (realEnv nodes') v w = some g)
    (hh : convertAsStrings (realEnv nodes'') u w = some h) : h = f * g := by
  obtain ⟨φ, hp, hs, _⟩ := c19_sizes
  rw [hs _ _ _ _ hf, hs _ _ _ _ hg, hs _ _ _ _ hh]
  have := (hp v).ne'
  have := (hp w).ne'
  field_simp

example : convertAsStrings (realEnv []) c! "h" c! "s" = some 3600 ∧
    convertAsStrings (realEnv []) c! "s" c! "ms" = some 1000 ∧
    convertAsStrings (realEnv [c! "s"]) c! "h" c! "ms" = some 3600000 := by
  decide +kernel

/-- **C20**, converting a unit to itself is the identity. -/
theorem c20_identity (nodes : List Name) (u : Name) : convertAsStrings (realEnv nodes) u u = some 1 :=
  c19_connected nodes u u 1 (.refl u)

/-! ## Ratios of named units -/

/-- **C21**, the ratio of two named units is the quotient of their prefixes, and it is refused exactly when the base
units differ. -/
theorem c21_ratio (u v : Name) (e e' : Entry) (hu : namedUnits.getItem u = .ok e) (hv : namedUnits.getItem v = .ok e') :
    ratio e e' = if e.base = e'.base then some (e.prefix_.factor / e'.prefix_.factor) else none := by
  have key : ∀ {n e}, namedUnits.getItem n = .ok e → named n = some e := by
    intro n e h
    rw [c22_lookup] at h
    split at h
    next e' he => cases h; exact he
    next => cases h
  have hpos := factor_pos (key hv)
  unfold ratio
  split
  next h =>
    rw [if_pos h.2.symm, h.1, div_self]
    exact (h.1 ▸ hpos).ne'
  next h =>
    split
    next hb => rw [if_neg (fun hc => hb hc.symm)]
    next hb => rw [if_pos (not_not.1 hb).symm]; rfl

/-- **C21**, ratios are reciprocal. -/
theorem c21_reciprocal (u v : Name) (e e' : Entry) (hu : namedUnits.getItem u = .ok e) (hv : namedUnits.getItem v = .ok e')
    (r s : ℚ) (hr : ratio e e' = some r) (hs : ratio e' e = some s) : r * s = 1 ∧ 0 < r := by
  have key : ∀ {n e}, namedUnits.getItem n = .ok e → 0 < e.prefix_.factor := by
    intro n e h
    rw [c22_lookup] at h
    split at h
    next e' he => cases h; exact factor_pos he
    next => cases h
  have h1 := key hu
  have h2 := key hv
  rw [c21_ratio u v e e' hu hv] at hr
  rw [c21_ratio v u e' e hv hu] at hs
  split at hr
  next hb =>
    cases hr
    rw [if_pos hb.symm] at hs
    cases hs
    exact ⟨by field_simp, by positivity⟩
  next => cases hr

/-- **C21**, ratios compose; in particular two units can be compared when both can be compared with a third. -/
theorem c21_compose (u v w : Name) (e e' e'' : Entry) (hu : namedUnits.getItem u = .ok e)
    (hv : namedUnits.getItem v = .ok e') (hw : namedUnits.getItem w = .ok e'') (r s : ℚ) (hr : ratio e e' = some r)
    (hs : ratio e' e'' = some s) : ratio e e'' = some (r * s) := by
  have key : ∀ {n e}, namedUnits.getItem n = .ok e → 0 < e.prefix_.factor := by
    intro n e h
    rw [c22_lookup] at h
    split at h
    next e' he => cases h; exact factor_pos he
    next => cases h
  have h1 := key hu
  have h2 := key hv
  have h3 := key hw
  rw [c21_ratio u v e e' hu hv] at hr
  rw [c21_ratio v w e' e'' hv hw] at hs
  rw [c21_ratio u w e e'' hu hw]
  split at hr
  next hb =>
    cases hr
    split at hs
    next hb' =>
      cases hs
      rw [if_pos (hb.trans hb')]
      congr 1
      field_simp
    next => cases hs
  next => cases hr

example : ∃ e e' e'' r s, namedUnits.getItem c! "km" = .ok e ∧ namedUnits.getItem c! "meter" = .ok e' ∧
    namedUnits.getItem c! "um" = .ok e'' ∧ ratio e e' = some r ∧ ratio e' e'' = some s ∧ r * s = 10 ^ 9 := by
  refine ⟨⟨⟨c! "k", c! "kilo", 10 ^ 3⟩, ⟨c! "m", c! "meter", c! "length"⟩⟩,
    ⟨basePrefix, ⟨c! "m", c! "meter", c! "length"⟩⟩, ⟨⟨c! "μ", c! "micro", 1 / 10 ^ 6⟩, ⟨c! "m", c! "meter", c! "length"⟩⟩,
    1000, 1000000, ?_, ?_, ?_, ?_, ?_, ?_⟩
  all_goals first | (rw [c22_lookup]; decide +kernel) | decide +kernel

end Eprem.Metric
