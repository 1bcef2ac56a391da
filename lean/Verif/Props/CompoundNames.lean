import Verif.Props.Names
import Verif.Props.ObservableAlgebra
import Mathlib.Algebra.BigOperators.Group.List.Lemmas

/-!
# C102: compound names of observables
-/

namespace Eprem.Observable

open Eprem Eprem.Metric Eprem.Aliased
open Eprem.Symbolic (Term)

variable {A κ ν : Type} [DecidableEq κ]

open Symbolic.Stars in
/-- **C102**, the reading of compound names: a text of names, powers, separators and groups is read as the product of the
different names in it, each with the sum of its powers, and names whose powers cancel are left out. -/
theorem c102_terms {x : Symbolic.Stars.Expr} (h : x.Ok) (hne : ∃ b ∈ x.names, x.power b 1 ≠ 0) : ∃ vs : List Term,
    Symbolic.Stars.expression x.text = .ok vs ∧ (vs.map Term.base).Nodup ∧
    (∀ v, v ∈ vs ↔ v.coeff = 1 ∧ v.base ∈ x.names ∧ v.exp = x.power v.base 1 ∧ v.exp ≠ 0) := by
  obtain ⟨vs, h1, h2, h3⟩ := expression_terms h
  obtain ⟨b, hb, hp⟩ := hne
  have : vs ≠ [] := List.ne_nil_of_mem ((h2 ⟨1, b, x.power b 1⟩).2 ⟨rfl, hb, rfl, hp⟩)
  rw [if_neg this] at h3
  exact ⟨vs, h3, h1, h2⟩

theorem sum_over_terms {M : Type} [AddCommMonoid M] (vs : List Term) (hn : (vs.map Term.base).Nodup) (S : Finset Name)
    (hs : ∀ v ∈ vs, v.base ∈ S) (f : Name → M) (hf : ∀ b ∈ S, b ∉ vs.map Term.base → f b = 0) :
    (vs.map (fun v => f v.base)).sum = ∑ b ∈ S, f b := by
  have h1 : (vs.map (fun v => f v.base)).sum = ((vs.map Term.base).map f).sum := by rw [List.map_map]; rfl
  rw [h1, ← List.sum_toFinset f hn]
  refine Finset.sum_subset ?_ ?_
  · intro b hb
    obtain ⟨v, hv, rfl⟩ := List.mem_map.1 (List.mem_toFinset.1 hb)
    exact hs v hv
  · intro b hb hnb
    exact hf b hb (fun h => hnb (List.mem_toFinset.2 h))

theorem prod_over_terms {M : Type} [CommMonoid M] (vs : List Term) (hn : (vs.map Term.base).Nodup) (S : Finset Name)
    (hs : ∀ v ∈ vs, v.base ∈ S) (f : Name → M) (hf : ∀ b ∈ S, b ∉ vs.map Term.base → f b = 1) :
    (vs.map (fun v => f v.base)).prod = ∏ b ∈ S, f b := by
  have h1 : (vs.map (fun v => f v.base)).prod = ((vs.map Term.base).map f).prod := by rw [List.map_map]; rfl
  rw [h1, ← List.prod_toFinset f hn]
  refine Finset.prod_subset ?_ ?_
  · intro b hb
    obtain ⟨v, hv, rfl⟩ := List.mem_map.1 (List.mem_toFinset.1 hb)
    exact hs v hv
  · intro b hb hnb
    exact hf b hb (fun h => hnb (List.mem_toFinset.2 h))

/-- **C102**, as far as it holds.  Let a compound name, which is not itself a name, be made of names `b` of observables
`canon b`, with integer powers that do not all cancel.  At any time its lookup either gives a quantity, or raises `ValueError`
because the dimensions can not be merged.  The quantity has a unit whose size is the product of powers of the sizes of the units
of the named quantities, and the dimensions are those of the quantities whose powers do not cancel.  Missing: the observation,
which fails (`c102_subscription`). -/
theorem c102_compound_partial (order : Finset Name → List Name) (ho : Iterates order) (systems : List System)
    (hs : systems = [.mks, .cgs] ∨ systems = [.cgs, .mks]) (property : Name → Quantity A κ ν) (us : List Use)
    (x : Symbolic.Stars.Expr) (hx : x.Ok) (hnew : ∀ c, ¬ NameOf x.text c) (canon : Name → Name)
    (hname : ∀ b ∈ x.names, x.power b 1 ≠ 0 → NameOf b (canon b) ∧ canon b ∉ notObserved ∧
      QuarterUnit (property (canon b)).unit ∧ (property (canon b)).dims.Nodup ∧ ∃ n : ℤ, x.power b 1 = n)
    (hsome : ∃ b ∈ x.names, x.power b 1 ≠ 0)
    (hw : ∑ b ∈ x.names.toFinset, |x.power b 1| * weight (property (canon b)).unit < 2 ^ 50)
    (b : Name → Except QErr (Quantity A κ ν)) (hb : b = buildObservable order systems property) :
    (∀ e, ((afterUses b us noNames).observe b x.text).2 = .error e → e = .value) ∧
    ∀ i q, ((afterUses b us noNames).observe b x.text).2 = .ok (i, q) →
      (∀ ρ, CoherentSizes ρ → Symbolic.value ρ q.unit =
        ∏ b ∈ x.names.toFinset, Symbolic.value ρ (property (canon b)).unit ^ (x.power b 1 : ℝ)) ∧
      q.dims.Nodup ∧ ∀ d, d ∈ q.dims ↔ ∃ b ∈ x.names, x.power b 1 ≠ 0 ∧ d ∈ (property (canon b)).dims := by
  obtain ⟨vs, h3, h1, h2⟩ := c102_terms hx hsome
  have hnil : vs ≠ [] := by
    obtain ⟨c, hc, hp⟩ := hsome
    exact List.ne_nil_of_mem ((h2 ⟨1, c, x.power c 1⟩).2 ⟨rfl, hc, rfl, hp⟩)
  have hF : Factors (getObservable order property) (fun c => property (canon c)) vs := by
    have key : ∀ t ∈ vs, _ := fun t ht => hname t.base ((h2 t).1 ht).2.1
      (by rw [← ((h2 t).1 ht).2.2.1]; exact ((h2 t).1 ht).2.2.2)
    refine ⟨fun t ht => ?_, fun t ht => (key t ht).2.2.1, fun t ht => ?_, fun t ht => (key t ht).2.2.2.1⟩
    · exact get_named ho property (key t ht).1 (key t ht).2.1
    · obtain ⟨n, hn⟩ := (key t ht).2.2.2.2
      refine ⟨n, ((h2 t).1 ht).2.2.1.trans hn, ?_⟩
      rintro rfl
      exact ((h2 t).1 ht).2.2.2 (((h2 t).1 ht).2.2.1.trans (hn.trans (by norm_num)))
  have hout : ∀ c ∈ x.names.toFinset, c ∉ vs.map Term.base → x.power c 1 = 0 := by
    intro c hc hn
    by_contra h0
    exact hn (List.mem_map.2 ⟨⟨1, c, x.power c 1⟩, (h2 _).2 ⟨rfl, List.mem_toFinset.1 hc, rfl, h0⟩, rfl⟩)
  have hin : ∀ v ∈ vs, v.base ∈ x.names.toFinset := fun v hv => List.mem_toFinset.2 ((h2 v).1 hv).2.1
  have hexp : ∀ v ∈ vs, v.exp = x.power v.base 1 := fun v hv => ((h2 v).1 hv).2.2.1
  have hbuild : b x.text = buildTerms systems (getObservable order property) (fun _ => false) vs := by
    rw [hb]
    simp only [buildObservable, resolve_other ho hnew, h3]
  obtain ⟨p1, p2⟩ := build_product (orders_of hs) hnil hF (by
    have e : vs.map (fun t => |t.exp| * weight (property (canon t.base)).unit) =
        vs.map (fun t => (fun c => |x.power c 1| * weight (property (canon c)).unit) t.base) := by
      refine List.map_congr_left ?_
      intro v hv
      simp only [hexp v hv]
    rw [e, sum_over_terms vs h1 x.names.toFinset hin (fun c => |x.power c 1| * weight (property (canon c)).unit) (fun c hc hn => by simp [hout c hc hn])]
    exact hw)
  obtain ⟨g1, _⟩ := after_spec (build := b) us kept_new
  obtain ⟨o1, o2, o3, o4⟩ := observe_spec g1 x.text
  cases hq : buildTerms systems (getObservable order property) (fun _ => false) vs with
  | error e =>
    rw [hq] at hbuild
    rw [o4 e hbuild]
    constructor
    · intro e' he; cases he; exact p2 e hq
    · intro i q h; cases h
  | ok q =>
    rw [hq] at hbuild
    obtain ⟨i, hi, _⟩ := o3 q hbuild
    rw [hi]
    constructor
    · intro e' he; cases he
    · intro j q' h
      cases h
      have P := p1 q hq
      refine ⟨?_, P.nodup, ?_⟩
      · intro ρ hρ
        rw [P.size ρ hρ]
        have e : vs.map (fun t => Symbolic.value ρ (property (canon t.base)).unit ^ (t.exp : ℝ)) =
            vs.map (fun t => (fun c => Symbolic.value ρ (property (canon c)).unit ^ (x.power c 1 : ℝ)) t.base) := by
          refine List.map_congr_left ?_
          intro v hv
          simp only [hexp v hv]
        rw [e, prod_over_terms vs h1 x.names.toFinset hin
          (fun c => Symbolic.value ρ (property (canon c)).unit ^ (x.power c 1 : ℝ)) (fun c hc hn => by simp [hout c hc hn])]
      · intro d
        rw [P.dims]
        constructor
        · rintro ⟨t, ht, hd⟩
          exact ⟨t.base, ((h2 t).1 ht).2.1, by rw [← hexp t ht]; exact ((h2 t).1 ht).2.2.2, hd⟩
        · rintro ⟨c, hc, h0, hd⟩
          exact ⟨⟨1, c, x.power c 1⟩, (h2 _).2 ⟨rfl, hc, rfl, h0⟩, hd⟩

/-- **C102.**  If a name whose powers do not cancel is not an observable, then the lookup of the compound name raises an
exception at any time. -/
theorem c102_unnamed (order : Finset Name → List Name) (ho : Iterates order) (systems : List System)
    (property : Name → Quantity A κ ν) (us : List Use) (x : Symbolic.Stars.Expr) (hx : x.Ok) (hnew : ∀ c, ¬ NameOf x.text c)
    (k : Name) (hk : k ∈ x.names) (h0 : x.power k 1 ≠ 0) (hn : k ∉ listNames order)
    (b : Name → Except QErr (Quantity A κ ν)) (hb : b = buildObservable order systems property) :
    ∃ e, ((afterUses b us noNames).observe b x.text).2 = .error e := by
  obtain ⟨vs, h3, h1, h2⟩ := c102_terms hx ⟨k, hk, h0⟩
  have hbuild : b x.text = buildTerms systems (getObservable order property) (fun _ => false) vs := by
    rw [hb]
    simp only [buildObservable, resolve_other ho hnew, h3]
  have hv : (⟨1, k, x.power k 1⟩ : Term) ∈ vs := (h2 _).2 ⟨rfl, hk, rfl, h0⟩
  have hmiss : getObservable order property k = .error .key := by
    by_cases hN : ∃ c, NameOf k c
    · obtain ⟨c, hc⟩ := hN
      have hno : c ∈ notObserved := by
        by_contra hno
        exact hn ((defined_iff ho).2 (Or.inl ⟨c, hc, hno⟩))
      have hd : c ∉ defined order := by
        rw [mem_defined ho]
        rintro ⟨d, hd, hm⟩
        exact not_observed_undefined c hno d hd hm
      simp only [getObservable, resolve_name ho hc, hd, if_false]
    · have hd : k ∉ defined order := hn
      simp only [getObservable, resolve_other ho (k := k) (fun c hc => hN ⟨c, hc⟩), hd, if_false]
  have loop : ∀ (ts : List Term) (this : Quantity A κ ν), (∃ t ∈ ts, t.base = k) →
      ∃ e, buildTerms.multiplyTerms systems (getObservable order property) (fun _ => false) this ts = .error e := by
    intro ts
    induction ts with
    | nil => rintro this ⟨t, ht, _⟩; cases ht
    | cons t ts ih =>
      intro this hex
      simp only [buildTerms.multiplyTerms]
      cases hl : getObservable order property t.base with
      | error e => exact ⟨e, rfl⟩
      | ok q =>
        have htk : t.base ≠ k := by
          rintro rfl
          rw [hmiss] at hl
          cases hl
        cases hq : qPow q false t.exp with
        | error e => exact ⟨e, by simp only [hq]⟩
        | ok p =>
          cases hm : qMul systems this p with
          | error e => exact ⟨e, by simp only [hq, hm]⟩
          | ok r =>
            simp only [hq, hm]
            refine ih r ?_
            obtain ⟨u, hu, huk⟩ := hex
            rcases List.mem_cons.1 hu with rfl | hu
            · exact absurd huk htk
            · exact ⟨u, hu, huk⟩
  have herr : ∃ e, b x.text = .error e := by
    rw [hbuild]
    cases vs with
    | nil => cases hv
    | cons t ts =>
      simp only [buildTerms]
      cases hl : getObservable order property t.base with
      | error e => exact ⟨e, rfl⟩
      | ok q =>
        have htk : t.base ≠ k := by
          rintro rfl
          rw [hmiss] at hl
          cases hl
        have hmem : ∃ u ∈ ts, u.base = k := by
          rcases List.mem_cons.1 hv with h | h
          · rw [← h] at htk
            exact absurd rfl htk
          · exact ⟨_, h, rfl⟩
        have hts : ts ≠ [] := by
          rintro rfl
          obtain ⟨u, hu, _⟩ := hmem
          cases hu
        simp only [hts, false_and, if_false]
        cases hq : qPow q false t.exp with
        | error e => exact ⟨e, rfl⟩
        | ok p => exact loop ts p hmem
  obtain ⟨e, he⟩ := herr
  obtain ⟨g1, _⟩ := after_spec (build := b) us kept_new
  exact ⟨e, (observe_spec g1 _).2.2.2 _ he⟩

/-- **C102** is violated: if all powers cancel, as in `r/r`, the lookup raises `KeyError`. -/
theorem c102_cancelled (order : Finset Name → List Name) (ho : Iterates order) (systems : List System)
    (property : Name → Quantity A κ ν) (us : List Use) (x : Symbolic.Stars.Expr) (hx : x.Ok) (hnew : ∀ c, ¬ NameOf x.text c)
    (h0 : ∀ k ∈ x.names, x.power k 1 = 0)
    (b : Name → Except QErr (Quantity A κ ν)) (hb : b = buildObservable order systems property) :
    ((afterUses b us noNames).observe b x.text).2 = .error .key := by
  obtain ⟨vs, h1, h2, h3⟩ := Symbolic.Stars.expression_terms hx
  have hvs : vs = [] := by
    cases vs with
    | nil => rfl
    | cons v vs =>
      obtain ⟨_, hm, hp, hne⟩ := (h2 v).1 List.mem_cons_self
      exact absurd (hp.trans (h0 _ hm)) hne
  rw [if_pos hvs] at h3
  have hone : ∀ k ∈ [Symbolic.one], (∀ p ∈ metadata, k ∉ groupOf p) ∧ ∀ d ∈ definitions, k ∉ aliasesOf d := by
    set_option maxHeartbeats 100000000 in decide +kernel
  have hone := hone _ List.mem_cons_self
  have hd : Symbolic.one ∉ defined order := by
    rw [mem_defined ho]
    rintro ⟨d, hd, hm⟩
    exact hone.2 d hd hm
  have hbuild : b x.text = .error .key := by
    rw [hb]
    simp only [buildObservable, resolve_other ho hnew, h3, buildTerms, getObservable, resolve_other ho (not_named hone.1), hd,
      if_false]
  obtain ⟨g1, _⟩ := after_spec (build := b) us kept_new
  exact (observe_spec g1 _).2.2.2 _ hbuild

/-- **C102** is violated: the subscription of a quantity that was looked up with a compound name raises an exception for all
arguments, unless the name reduces to one name with the power one. -/
theorem c102_subscription (order : Finset Name → List Name) (ho : Iterates order) (c : Conv ℝ)
    (property : Name → Quantity A κ ν) (us : List Use) (x : Symbolic.Stars.Expr) (hx : x.Ok) (hnew : ∀ c, ¬ NameOf x.text c)
    (hmany : ¬ ∃ k ∈ x.names, x.power k 1 = 1 ∧ ∀ k' ∈ x.names, k' ≠ k → x.power k' 1 = 0)
    (b : Name → Except QErr (Quantity A κ ν)) (hb : b = buildObservable order c.systems property) (i : ℕ) (q : Quantity A κ ν)
    (hq : ((afterUses b us noNames).observe b x.text).2 = .ok (i, q))
    (st : Cache ℝ) (parse : List (κ × Numeric.Arg) → Except QErr A) (args : Numeric.Unwrapped) :
    ∃ e, (subscript c st parse q args).2 = .error e := by
  by_cases hsome : ∃ k ∈ x.names, x.power k 1 ≠ 0
  · obtain ⟨vs, h3, h1, h2⟩ := c102_terms hx hsome
    have hbuild : b x.text = buildTerms c.systems (getObservable order property) (fun _ => false) vs := by
      rw [hb]
      simp only [buildObservable, resolve_other ho hnew, h3]
    obtain ⟨g1, _⟩ := after_spec (build := b) us kept_new
    obtain ⟨_, _, o3, o4⟩ := observe_spec g1 x.text
    cases hbt : b x.text with
    | error e => rw [o4 e hbt] at hq; cases hq
    | ok q' =>
      obtain ⟨j, hj, _⟩ := o3 q' hbt
      rw [hj] at hq
      cases hq
      refine c86_compound_name c st parse (getObservable order property) (fun _ => false) vs ?_ q (hbuild ▸ hbt) args
      rintro ⟨t, rfl, ht⟩
      obtain ⟨_, hm, hp, _⟩ := (h2 t).1 List.mem_cons_self
      refine hmany ⟨t.base, hm, hp ▸ ht, fun k' hk' hne => ?_⟩
      by_contra h0
      have := (h2 ⟨1, k', x.power k' 1⟩).2 ⟨rfl, hk', rfl, h0⟩
      rw [List.mem_singleton] at this
      exact hne (by rw [← this])
  · push Not at hsome
    rw [c102_cancelled order ho c.systems property us x hx hnew hsome b hb] at hq
    cases hq

set_option maxHeartbeats 100000000 in
/-- **C102** is violated by the reading of asterisks and signs: one asterisk before a number is a power, and so is a sign alone;
spaces around two asterisks are not accepted; the power zero is read as one; an alias with parentheses or bars is not read as a name
inside a compound name. -/
theorem c102_misread :
    Symbolic.Stars.expression (c! "r*2") = .ok [⟨1, c! "r", 2⟩] ∧
    Symbolic.Stars.expression (c! "r * 2") = .ok [⟨2, Symbolic.one, 1⟩, ⟨1, c! "r", 1⟩] ∧
    Symbolic.Stars.expression (c! "r ** 2") = .error .operatorWithoutOperand ∧
    Symbolic.Stars.expression (c! "r-1") = .ok [⟨1, c! "r", -1⟩] ∧
    Symbolic.Stars.expression (c! "r**0") = .ok [⟨1, c! "r", 1⟩] ∧
    Symbolic.Stars.expression (c! "J(E)/r") = Symbolic.Stars.expression (c! "J * E / r") ∧
    Symbolic.Stars.expression (c! "|B| / r") = .error .failedToParse := by decide +kernel

/-! ### the hypotheses can be met -/

/-- the text `mfp/(r**2)` -/
def mfpOverArea : Symbolic.Stars.Expr :=
  .cons (.name (c! "mfp") [] none) (.div 0 0) (.one (.group (.one (.name (c! "r") [] (some (.int false ['2'])))) none))

/-- the text `r / R` -/
def ratio : Symbolic.Stars.Expr := .cons (.name (c! "r") [] none) (.div 1 1) (.one (.name (c! "r") [] none))

theorem mfpOverArea_ok : mfpOverArea.Ok ∧ ratio.Ok := by
  have h1 : ¬ ['s', 'q', 'r', 't'] <+: c! "mfp" := by decide +kernel
  have h2 : ¬ ['s', 'q', 'r', 't'] <+: c! "r" := by decide +kernel
  have h3 : (Symbolic.Lit.int false ['2']).value ≠ 0 := by decide +kernel
  refine ⟨⟨⟨by decide, by decide, by simp, trivial, h1⟩, ⟨trivial, by decide, by decide, by simp, ⟨⟨by decide, by decide⟩, h3⟩, h2⟩,
    by simp⟩, ⟨⟨by decide, by decide, by simp, trivial, h2⟩, ⟨by decide, by decide, by simp, trivial, h2⟩, by simp⟩⟩

set_option maxHeartbeats 100000000 in
theorem mfpOverArea_new : ∀ k ∈ [mfpOverArea.text, ratio.text], ∀ p ∈ metadata, k ∉ groupOf p := by decide +kernel

theorem mfpOverArea_power : mfpOverArea.names = [c! "mfp", c! "r"] ∧ mfpOverArea.power (c! "mfp") 1 = 1 ∧
    mfpOverArea.power (c! "r") 1 = -2 ∧ ratio.names = [c! "r", c! "r"] ∧ ratio.power (c! "r") 1 = 0 ∧
    mfpOverArea.text = c! "mfp/(r**2)" ∧ ratio.text = c! "r / r" := by decide +kernel

/-- All quantities are lengths here. -/
example (order : Finset Name → List Name) (ho : Iterates order)
    (b : Name → Except QErr (Quantity Unit String Nat))
    (hb : b = buildObservable order [.mks, .cgs] (fun _ => ⟨fun _ => .error .type, [⟨1, c! "m", 1⟩], ["time", "shell"]⟩)) :
    (∀ e, ((afterUses b [] noNames).observe b (c! "mfp/(r**2)")).2 = .error e → e = .value) ∧
    ((afterUses b [] noNames).observe b (c! "r / r")).2 = .error .key := by
  obtain ⟨n1, n2, n3, n4, n5, n6, n7⟩ := mfpOverArea_power
  constructor
  · rw [← n6]
    refine (c102_compound_partial order ho [.mks, .cgs] (.inl rfl) _ [] mfpOverArea mfpOverArea_ok.1
      (not_named (mfpOverArea_new _ (by simp))) id ?_ ⟨c! "r", by rw [n1]; simp, by rw [n3]; norm_num⟩ ?_ b hb).1
    · intro k hk _
      rw [n1] at hk
      have hk : k = c! "mfp" ∨ k = c! "r" := by simpa using hk
      rcases hk with rfl | rfl
      · exact ⟨⟨(c! "mfp", [c! "mean_free_path", c! "mean free path"]), by decide +kernel, rfl, .inl rfl⟩, by decide +kernel,
          m_quarter, by decide, 1, by rw [n2]; norm_num⟩
      · exact ⟨⟨(c! "r", [c! "radius", c! "R"]), by decide +kernel, rfl, .inl rfl⟩, by decide +kernel,
          m_quarter, by decide, -2, by rw [n3]; norm_num⟩
    · have hm : weight [⟨1, c! "m", 1⟩] = 1 := by decide +kernel
      have hs : (mfpOverArea.names.toFinset : Finset Name) = {c! "mfp", c! "r"} := by rw [n1]; simp
      rw [hs, Finset.sum_pair (by decide), n2, n3]
      simp only [hm]
      norm_num
  · rw [← n7]
    exact c102_cancelled order ho _ _ [] ratio mfpOverArea_ok.2 (not_named (mfpOverArea_new _ (by simp)))
      (by intro k hk; rw [n4] at hk; have : k = c! "r" := by simpa using hk
          rw [this]; exact n5) b hb

end Eprem.Observable
