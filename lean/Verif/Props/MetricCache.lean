import Verif.Lemmas.MetricUnits
import Verif.Lemmas.MetricSwap
import Verif.Props.MetricConvert

/-!
# C23: caching never changes a conversion or a unit

The caches start empty when the package is imported; a *history* is any list of requests made before.
-/

namespace Eprem.Metric

open Eprem Eprem.Symbolic Eprem.Aliased

section conversions

variable {K : Type} [Field K] [DecidableEq K]

/-- what a stored factor is: the fresh result, or the reciprocal of the fresh result in the opposite direction -/
def Stored (c : Conv K) (st : Cache K) : Prop :=
  ∀ u v f, st.get? (u, v) = some f → convert c u v = .ok f ∨ ∃ g, convert c v u = .ok g ∧ f = 1 / g

theorem stored_step {c : Conv K} {st : Cache K} (h : Stored c st) (u v : Name) :
    Stored c (conversionFactory c st u v).1 := by
  unfold conversionFactory
  split
  · exact h
  · split
    · exact h
    next f hf =>
      intro a b g hg
      simp only [Dict.get?_set] at hg
      split at hg
      next he => cases he; cases hg; exact Or.inr ⟨f, hf, rfl⟩
      next =>
        split at hg
        next he => cases he; cases hg; exact Or.inl hf
        next => exact h a b g hg

theorem stored_after {c : Conv K} : ∀ (rs : List (Name × Name)) {st : Cache K}, Stored c st → Stored c (afterRequests c st rs)
  | [], _, h => h
  | (u, v) :: rs, _, h => stored_after rs (stored_step h u v)

/-- **C23**, the conversions.  After any history, a request gives what it gives in a fresh process, or the reciprocal
of what the opposite request gives in a fresh process; when it fails, it fails as in a fresh process. -/
theorem c23_stored (c : Conv K) (rs : List (Name × Name)) (u v : Name) :
    (conversionFactory c (afterRequests c [] rs) u v).2 = convert c u v ∨
    ∃ g, convert c v u = .ok g ∧ (conversionFactory c (afterRequests c [] rs) u v).2 = .ok (1 / g) := by
  have hs : Stored c (afterRequests c [] rs) := stored_after rs (by intro a b f h; cases h)
  unfold conversionFactory
  split
  next f hf =>
    rcases hs u v f hf with h | ⟨g, h, rfl⟩
    · exact Or.inl h.symm
    · exact Or.inr ⟨g, h, rfl⟩
  · split
    next e he => exact Or.inl he.symm
    next f hf => exact Or.inl hf.symm

/-- **C23**, where conversions are reciprocal, caching is invisible.  If the request and the opposite request succeed in
a fresh process with reciprocal factors, every history gives that factor. -/
theorem c23_transparent (c : Conv K) (u v : Name) (f : K) (huv : convert c u v = .ok f) (hvu : convert c v u = .ok (1 / f))
    (rs : List (Name × Name)) : (conversionFactory c (afterRequests c [] rs) u v).2 = .ok f := by
  rcases c23_stored c rs u v with h | ⟨g, hg, h⟩
  · rw [h, huv]
  · rw [hvu] at hg
    cases hg
    rw [h, one_div_one_div]

theorem paired_after {c : Conv K} : ∀ (rs : List (Name × Name)) {st : Cache K},
    (∀ u v, (st.get? (u, v)).isSome → (st.get? (v, u)).isSome) → ∀ u v, ((afterRequests c st rs).get? (u, v)).isSome →
      ((afterRequests c st rs).get? (v, u)).isSome
  | [], _, h => h
  | (a, b) :: rs, st, h => by
    refine paired_after rs ?_
    unfold conversionFactory
    split
    · exact h
    · split
      · exact h
      · intro u v
        simp only [Dict.get?_set, Prod.mk.injEq]
        have := h u v
        split_ifs <;> first | (intro _; rfl) | (intro _; exact this ‹_›) | (intro _; exfalso; tauto)

/-- **C23**, a repeated request.  Once a request has succeeded, the same request gives the same factor again, whatever was
requested before and is requested in between. -/
theorem c23_repeat (c : Conv K) (u v : Name) (hne : u ≠ v) (before : List (Name × Name)) (f : K)
    (hf : (conversionFactory c (afterRequests c [] before) u v).2 = .ok f) (rs : List (Name × Name)) :
    (conversionFactory c (afterRequests c (conversionFactory c (afterRequests c [] before) u v).1 rs) u v).2 = .ok f := by
  have keep : ∀ (rs : List (Name × Name)) (st : Cache K), (st.get? (v, u)).isSome → st.get? (u, v) = some f →
      (afterRequests c st rs).get? (u, v) = some f := by
    intro rs
    induction rs with
    | nil => intro st _ h; exact h
    | cons r rs ih =>
      intro st hvu h
      obtain ⟨a, b⟩ := r
      have step : ((conversionFactory c st a b).1.get? (v, u)).isSome ∧ (conversionFactory c st a b).1.get? (u, v) = some f := by
        unfold conversionFactory
        split
        · exact ⟨hvu, h⟩
        next hn =>
          split
          · exact ⟨hvu, h⟩
          next g hg =>
            have h1 : ¬(b, a) = (u, v) := by
              intro he; cases he; rw [hn] at hvu; cases hvu
            have h2 : ¬(a, b) = (u, v) := by
              intro he; cases he; rw [h] at hn; cases hn
            simp only [Dict.get?_set, if_neg h1, if_neg h2, h, and_true]
            split_ifs <;> simp_all
      exact ih _ step.1 step.2
  have hp := paired_after (c := c) before (st := []) (by intro u v h; cases h)
  have h0 : ((conversionFactory c (afterRequests c [] before) u v).1.get? (v, u)).isSome ∧
      (conversionFactory c (afterRequests c [] before) u v).1.get? (u, v) = some f := by
    unfold conversionFactory at hf ⊢
    split at hf
    next g hg => cases hf; exact ⟨hp u v (by rw [hg]; rfl), hg⟩
    · split at hf
      · cases hf
      next g hg =>
        cases hf
        have h1 : ¬(v, u) = (u, v) := by intro he; cases he; exact hne rfl
        simp only [Dict.get?_set, if_neg h1, if_true]
        exact ⟨rfl, trivial⟩
  have h := keep rs _ h0.1 h0.2
  generalize afterRequests c (conversionFactory c (afterRequests c [] before) u v).1 rs = st' at h
  unfold conversionFactory
  rw [h]

end conversions

/-! ### The conversions of the package -/

/-- **C23**, units converted by name.  Whenever both directions are found among the defined conversions, rescaled
conversions and prefixes, the factor is the same after every history of requests of any kind. -/
theorem c23_named (nodes : List Name) (systems : List System) (u v : Name) (f g : ℚ)
    (hf : convertAsStrings (realEnv nodes) u v = some f) (hg : convertAsStrings (realEnv nodes) v u = some g)
    (rs : List (Name × Name)) :
    (conversionFactory (realConv nodes systems) (afterRequests (realConv nodes systems) [] rs) u v).2 = .ok (f : ℝ) := by
  have h1 : convert (realConv nodes systems) u v = .ok (f : ℝ) := by
    have : convertAsStrings (realConv nodes systems).env u v = some f := hf
    unfold convert; rw [this]; simp [realConv]
  have h2 : convert (realConv nodes systems) v u = .ok (1 / (f : ℝ)) := by
    have : convertAsStrings (realConv nodes systems).env v u = some g := hg
    unfold convert; rw [this]
    have hfg := c19_round_trip nodes nodes u v f g hf hg
    have : (f : ℝ) * g = 1 := by exact_mod_cast hfg
    have : (g : ℝ) = 1 / f := by
      have hf0 : (f : ℝ) ≠ 0 := by rintro h; rw [h, zero_mul] at this; exact zero_ne_one this
      field_simp; linarith
    simp [realConv, this]
  exact c23_transparent _ u v _ h1 h2 rs

example : (conversionFactory (realConv tableNodes []) (afterRequests (realConv tableNodes []) []
    [(c! "J", c! "erg"), (c! "min", c! "h"), (c! "h", c! "min"), (c! "nope", c! "h")]) c! "h" c! "min").2 =
    .ok ((60 : ℚ) : ℝ) :=
  c23_named tableNodes [] c! "h" c! "min" 60 (1 / 60) (by decide +kernel) (by decide +kernel) _

/-- `c23_repeat` and `c23_transparent` are not about nothing -/
example : (conversionFactory ratConv (afterRequests ratConv (conversionFactory ratConv (afterRequests ratConv []
    [(c! "J", c! "erg")]) c! "h" c! "min").1 [(c! "min", c! "h"), (c! "s", c! "h")]) c! "h" c! "min").2 = .ok 60 :=
  c23_repeat ratConv c! "h" c! "min" (by decide) [(c! "J", c! "erg")] 60 (by decide +kernel) _

example (rs : List (Name × Name)) : (conversionFactory ratConv (afterRequests ratConv [] rs) c! "kJ" c! "g * cm^2 / s^2").2 =
    .ok (10 ^ 7) := c23_transparent ratConv _ _ _ (by decide +kernel) (by decide +kernel) rs

set_option maxHeartbeats 100000000 in
/-- **C23**, the restriction to conversions that succeed in both directions is necessary: joules per kilogram are not
converted to MeV per nucleon in a fresh process, but they are once the opposite conversion was requested. -/
theorem c23_history_matters : ∀ c ∈ ratConvs,
    (conversionFactory c [] c! "J / kg" c! "MeV / nuc").2 = .error .value ∧
    ∃ f, (conversionFactory c (afterRequests c [] [(c! "MeV / nuc", c! "J / kg")]) c! "J / kg" c! "MeV / nuc").2 = .ok f := by
  intro c hc
  have h : ∀ c ∈ ratConvs, (conversionFactory c [] c! "J / kg" c! "MeV / nuc").2 = .error .value ∧
    ((conversionFactory c (afterRequests c [] [(c! "MeV / nuc", c! "J / kg")]) c! "J / kg" c! "MeV / nuc").2).toOption.isSome
      = true := by decide +kernel
  obtain ⟨h1, h2⟩ := h c hc
  refine ⟨h1, ?_⟩
  cases hx : (conversionFactory c (afterRequests c [] [(c! "MeV / nuc", c! "J / kg")]) c! "J / kg" c! "MeV / nuc").2 with
  | ok f => exact ⟨f, rfl⟩
  | error e => rw [hx] at h2; cases h2

/-! ### Named units -/

/-- every unit in the registry is stored under spellings of itself -/
def Registered (m : AMap Name Entry) : Prop :=
  (∃ d, m = .ofDict d) ∧ m.dict.WF ∧
    ∀ g e, m.dict.get? g = some e → ∃ p ∈ namedTable, p.2 = e ∧ ∀ k ∈ g, k ∈ p.1

theorem registered_getItem {m : AMap Name Entry} (hm : Registered m) {s : Name} {e : Entry} (h : m.getItem s = .ok e) :
    ∃ p ∈ namedTable, p.2 = e ∧ s ∈ p.1 := by
  obtain ⟨⟨d, rfl⟩, hwf, hreg⟩ := hm
  unfold AMap.getItem AMap.resolve AMap.ofDict at h
  simp only at h
  cases hf : flatOf d s with
  | none => rw [hf] at h; cases h
  | some g =>
    rw [hf] at h
    simp only at h
    cases hg : Dict.get? d g with
    | none => rw [hg] at h; cases h
    | some e' =>
      rw [hg] at h
      cases h
      obtain ⟨p, hp, h1, h2⟩ := hreg g e hg
      exact ⟨p, hp, h1, h2 s (flatOf_isSome hf).2⟩

theorem registered_step {m : AMap Name Entry} (hm : Registered m) (s : Name) : Registered (namedFactory m s).1 := by
  unfold namedFactory
  split
  · exact hm
  · split
    · exact hm
    next e he =>
      obtain ⟨hd, hwf, hreg⟩ := hm
      refine ⟨⟨_, rfl⟩, hwf.set _ _, ?_⟩
      intro g e' hg
      simp only [AMap.setTuple, AMap.ofDict, Dict.get?_set] at hg
      split at hg
      next hk =>
        cases hg
        have : named s = some e := by
          unfold namedUnit at he
          split at he
          next e' h => cases he; exact h
          · cases he
        obtain ⟨p, hp, _, rfl⟩ := named_mem this
        refine ⟨p, hp, rfl, ?_⟩
        intro k hk'
        rw [← hk] at hk'
        simp only [List.toFinset_cons, List.toFinset_nil, Finset.mem_insert, Finset.notMem_empty, or_false] at hk'
        rcases hk' with rfl | rfl
        · exact (symbol_name_mem p hp).2
        · exact (symbol_name_mem p hp).1
      next => exact hreg g e' hg

theorem registered_after : ∀ (ss : List Name) {m : AMap Name Entry}, Registered m → Registered (namedAfter m ss)
  | [], _, h => h
  | s :: ss, _, h => registered_after ss (registered_step h s)

/-- **C23**, named units.  Whatever units were requested before, every string other than `cd` gives the unit that it
gives in a fresh process - a base unit or a prefixed base unit - or fails as in a fresh process. -/
theorem c23_registry (ss : List Name) (s : Name) (hcd : s ≠ c! "cd") :
    (namedFactory (namedAfter noUnits ss) s).2 = match namedUnits.getItem s with
      | .ok e => .ok e
      | .error _ => .error .unitParsing := by
  have hm : Registered (namedAfter noUnits ss) :=
    registered_after ss ⟨⟨_, rfl⟩, Dict.WF.nil, by intro g e h; cases h⟩
  rw [c22_lookup]
  unfold namedFactory namedUnit
  split
  next e he =>
    obtain ⟨p, hp, rfl, hs⟩ := registered_getItem hm he
    rw [named_table p hp s hs hcd]
  · cases named s <;> rfl

example : (namedFactory (namedAfter noUnits [c! "km", c! "centiday", c! "nope", c! "μm"]) c! "kilometer").2 =
    .ok ⟨⟨c! "k", c! "kilo", 1000⟩, ⟨c! "m", c! "meter", c! "length"⟩⟩ := by
  rw [c23_registry _ _ (by decide), c22_lookup]; decide +kernel

set_option maxHeartbeats 100000000 in
/-- **C23**, the exception is real: `cd` is the candela in a fresh process and the centiday once a centiday was
requested by its name. -/
theorem c23_not_cd : (namedFactory noUnits c! "cd").2 = .ok candela ∧
    (namedFactory (namedAfter noUnits [c! "centiday"]) c! "cd").2 = .ok centiday ∧ candela ≠ centiday := by
  decide +kernel

/-! ### Units -/

/-- what `NamedUnit` makes of a string at some moment, as `unit_factory` asks for it -/
def namesAt (ss : List Name) (n : Name) : Option Entry := (namedFactory (namedAfter noUnits ss) n).2.toOption

theorem namesAt_sound (ss : List Name) : SoundNames (namesAt ss) := by
  intro n e h
  have hm : Registered (namedAfter noUnits ss) :=
    registered_after ss ⟨⟨_, rfl⟩, Dict.WF.nil, by intro g e h; cases h⟩
  unfold namesAt namedFactory at h
  split at h
  next e' he =>
    cases h
    obtain ⟨p, hp, h1, h2⟩ := registered_getItem hm he
    exact ⟨p, hp, h2, h1⟩
  · unfold namedUnit at h
    cases hn : named n with
    | none => rw [hn] at h; cases h
    | some e'' => rw [hn] at h; cases h; exact named_mem hn

/-- **C23**, units.  Let every unit requested so far consist of distinct units with integer exponents (no number apart
from a lone `1`, no unit written twice under two names), and the same for the unit requested now.  Then the request
succeeds, and gives the terms of the unit that a fresh process gives, up to their order; as units they are equal.
Missing: requests with numbers or with one unit under two names, where `c23_not_units` shows the property false. -/
theorem c23_units_partial (rs : List (List Name × Name)) (hrs : ∀ r ∈ rs, ∀ v, freshUnit r.2 = .ok v → Plain v)
    (ss : List Name) (s : Name) (v : List Term) (hv : freshUnit s = .ok v) (hp : Plain v) :
    ∃ u, (unitFactory (namesAt ss) (unitsAfter noUnits (rs.map (fun r => (namesAt r.1, r.2)))) s).2 = .ok u ∧
      u.Perm v ∧ exprEq u v = true := by
  have hk : Known (unitsAfter noUnits (rs.map (fun r => (namesAt r.1, r.2)))) := by
    refine unitsAfter_known _ known_empty ?_
    intro r hr
    obtain ⟨r, hr', rfl⟩ := List.mem_map.1 hr
    exact ⟨namesAt_sound _, hrs r hr'⟩
  obtain ⟨u, hu, hperm⟩ := (unitFactory_known (namesAt_sound ss) hk (s := s) (by
    intro w hw; rw [hv] at hw; cases hw; exact hp)).2 v hv
  exact ⟨u, hu, hperm, exprEq_of_perm hperm ((hperm.map Term.base).nodup_iff.2 hp.nodup)⟩

/-- the hypotheses of `c23_units_partial` are met by a history that mixes names, symbols and orders -/
example : ∃ u, (unitFactory (namesAt [c! "km"]) (unitsAfter noUnits
    ([([], c! "day * joule"), ([c! "J"], c! "km / hour")].map (fun r => (namesAt r.1, r.2)))) c! "d J").2 = .ok u ∧
      u.Perm [⟨1, c! "J", 1⟩, ⟨1, c! "d", 1⟩] ∧ exprEq u [⟨1, c! "J", 1⟩, ⟨1, c! "d", 1⟩] = true := by
  have plain : ∀ ts : List Term, (ts ≠ [] ∧ ∀ t ∈ ts, t.coeff = 1 ∧ (t.exp.den = 1 ∧ t.exp ≠ 0) ∧
      t.base ≠ [] ∧ (∀ x ∈ t.base, isLetter x = true) ∧ ¬ ['s', 'q', 'r', 't'] <+: t.base) →
      (ts.map Term.base).Nodup → one ∉ ts.map Term.base → Plain ts :=
    fun ts h1 h2 h3 => ⟨namesOnly_of ts h1, h2, fun h => absurd h h3⟩
  refine c23_units_partial [([], c! "day * joule"), ([c! "J"], c! "km / hour")] ?_ _ _ _ (by decide +kernel)
    (plain _ (by decide +kernel) (by decide +kernel) (by decide +kernel))
  intro r hr v hv
  fin_cases hr
  · have : freshUnit c! "day * joule" = .ok [⟨1, c! "d", 1⟩, ⟨1, c! "J", 1⟩] := by decide +kernel
    simp only at hv
    rw [this] at hv
    cases hv
    exact plain _ (by decide +kernel) (by decide +kernel) (by decide +kernel)
  · have : freshUnit c! "km / hour" = .ok [⟨1, c! "km", 1⟩, ⟨1, c! "h", -1⟩] := by decide +kernel
    simp only at hv
    rw [this] at hv
    cases hv
    exact plain _ (by decide +kernel) (by decide +kernel) (by decide +kernel)

set_option maxHeartbeats 100000000 in
/-- **C23**, where it fails for units: `m m` is a square meter in a fresh process but, after `meter m` was requested,
it is a product of two meters that is not equal to `m^2`; `astronomical unit` fails in a fresh process and works after
`au` was requested; the order of the symbols of `d J` depends on the history. -/
theorem c23_not_units :
    (unitFactory (namesAt []) noUnits c! "m m").2 = .ok [⟨1, c! "m", 2⟩] ∧
    (unitFactory (namesAt []) (unitsAfter noUnits [(namesAt [], c! "meter m")]) c! "m m").2 =
      .ok [⟨1, c! "m", 1⟩, ⟨1, c! "m", 1⟩] ∧
    exprEq [⟨1, c! "m", 2⟩] [⟨1, c! "m", 1⟩, ⟨1, c! "m", 1⟩] = false ∧
    (unitFactory (namesAt []) noUnits c! "astronomical unit").2 = .error .key ∧
    (unitFactory (namesAt []) (unitsAfter noUnits [(namesAt [], c! "au")]) c! "astronomical unit").2 =
      .ok [⟨1, c! "au", 1⟩] ∧
    (unitFactory (namesAt []) noUnits c! "d J").2 = .ok [⟨1, c! "J", 1⟩, ⟨1, c! "d", 1⟩] ∧
    (unitFactory (namesAt []) (unitsAfter noUnits [(namesAt [], c! "day * joule")]) c! "d J").2 =
      .ok [⟨1, c! "d", 1⟩, ⟨1, c! "J", 1⟩] := by decide +kernel

end Eprem.Metric
