import Verif.Lemmas.MetricSwap
import Verif.Props.Metric
import Verif.Props.Symbolic

/-!
# C24: conversion of compound units

`convert c u v` is the factor the package computes to convert the unit string `u` to the unit string `v`.
-/

namespace Eprem.Metric

open Eprem Eprem.Symbolic

theorem namesOnly_of (ts : List Term) (h : ts ≠ [] ∧ ∀ t ∈ ts, t.coeff = 1 ∧ (t.exp.den = 1 ∧ t.exp ≠ 0) ∧
    t.base ≠ [] ∧ (∀ x ∈ t.base, isLetter x = true) ∧ ¬ ['s', 'q', 'r', 't'] <+: t.base) : NamesOnly ts :=
  ⟨h.1, fun t ht => (h.2 t ht).1, fun t ht => (h.2 t ht).2.1, fun t ht => Or.inl ⟨t.base, [], by simp,
    (h.2 t ht).2.2.1, (h.2 t ht).2.2.2.1, by simp, (h.2 t ht).2.2.2.2⟩⟩

/-- **C24**, compound units that differ by replacing some units (`swaps`), and agree otherwise (`kept`): the factor is
the product of the individual factors raised to the exponents.  The conditions say that each replaced unit has a
dimension, that it can be converted to and from its replacement, and that there is no other replaced unit of the
opposite power (counting the replacements as inverses) that it could be converted to. -/
theorem c24_matching (nodes : List Name) (systems : List System) (swaps : List Swap) (kept : List Term)
    (factor : Swap → ℚ) (u v : Name) (a b : List Term)
    (hu : exprOfString false u = .ok a) (hv : exprOfString false v = .ok b) (na : NamesOnly a) (nb : NamesOnly b)
    (ha : a.Perm (swaps.map Swap.oldTerm ++ kept)) (hb : b.Perm (swaps.map Swap.newTerm ++ kept))
    (hnd : ((swaps.map Swap.oldTerm ++ swaps.map Swap.newTerm ++ kept).map Term.base).Nodup)
    (hsym : ∀ s ∈ swaps, s.old ∉ unity ∧ s.new ∉ unity)
    (hdim : ∀ s ∈ swaps, dimensionless s.old = .ok false ∧ dimensionless s.new = .ok false)
    (hconv : ∀ s ∈ swaps, convertAsStrings (realEnv nodes) s.old s.new = some (factor s) ∧
      (convertAsStrings (realEnv nodes) s.new s.old).isSome)
    (hamb : ∀ s ∈ swaps, ∀ s' ∈ swaps, s ≠ s' →
      (s.power = s'.power → convertAsStrings (realEnv nodes) s.old s'.new = none ∧
        convertAsStrings (realEnv nodes) s.new s'.old = none) ∧
      (s.power = -s'.power → convertAsStrings (realEnv nodes) s.old s'.old = none ∧
        convertAsStrings (realEnv nodes) s.new s'.new = none))
    (hstr : convertAsStrings (realEnv nodes) u v = none) :
    convert (realConv nodes systems) u v = .ok ((swaps.map (fun s => (factor s : ℝ) ^ s.power)).prod) := by
  obtain ⟨n1, n2, n3, n4, n5⟩ := swap_nodup hnd
  have hsizes := real_sizes nodes
  have hp : ∀ s ∈ swaps, s.power ≠ 0 := by
    intro s hs h0
    have := (na.exp s.oldTerm (ha.mem_iff.2 (by simp; exact Or.inl ⟨s, hs, rfl⟩))).2
    exact this (by simp [Swap.oldTerm, h0])
  have hone : ∀ s ∈ swaps, s.old ≠ one ∧ s.new ≠ one := by
    intro s hs
    obtain ⟨h1, h2⟩ := hsym s hs
    refine ⟨?_, ?_⟩ <;> rintro h
    · rw [h] at h1; exact h1 (by decide +kernel)
    · rw [h] at h2; exact h2 (by decide +kernel)
  suffices h : convertAsExpressions (realConv nodes systems) u v =
      .ok (some ((swaps.map (fun s => (factor s : ℝ) ^ s.power)).prod)) by
    have hs' : convertAsStrings (realConv nodes systems).env u v = none := hstr
    have hne : ((swaps.map (fun s => (factor s : ℝ) ^ s.power)).prod) ≠ 0 := by
      refine List.prod_ne_zero ?_
      intro hm
      obtain ⟨s, hs, h0⟩ := List.mem_map.1 hm
      have hf := strings_sound hsizes conversions_nodup (hconv s hs).1
      have : (factor s : ℝ) ≠ 0 := by
        have : factor s ≠ 0 := by
          rw [hf]; exact div_ne_zero (size_pos _).ne' (size_pos _).ne'
        exact_mod_cast this
      exact zpow_ne_zero _ this h0
    unfold convert
    rw [hs', h]
    simp [truthy, hne]
  unfold convertAsExpressions
  simp only [ofSym, hu, hv, bind, Except.bind, pure, Except.pure]
  by_cases hsw : swaps = []
  · subst hsw
    simp only [List.map_nil, List.nil_append, List.prod_nil] at ha hb ⊢
    have : exprEq a b = true := exprEq_of_perm (ha.trans hb.symm) (by rw [(ha.map Term.base).nodup_iff]; exact n5)
    rw [this]; rfl
  · obtain ⟨s₀, hs₀⟩ := List.exists_mem_of_ne_nil _ hsw
    have hneq : exprEq a b = false := by
      cases h : exprEq a b
      · rfl
      · obtain ⟨t, ht, hbase⟩ := exprEq_mem h (t := s₀.oldTerm) (ha.mem_iff.2 (by simp; exact Or.inl ⟨s₀, hs₀, rfl⟩))
        rcases List.mem_append.1 (hb.mem_iff.1 ht) with hm | hm
        · obtain ⟨s, hs, rfl⟩ := List.mem_map.1 hm
          exact absurd hbase.symm (n3 s₀ hs₀ s hs)
        · exact absurd hbase.symm (n4 s₀ hs₀ t hm).1
    obtain ⟨r, vs, hdiv, hr, hvnd, hvm⟩ := quotient_terms na nb
    have hmem : ∀ t, t ∈ vs ↔ t ∈ swaps.map Swap.oldTerm ++ swaps.map (fun s => s.newTerm.inv) := fun t => by
      rw [hvm, quotient_mem hnd ha hb hp hone]
    have hold : ∀ s ∈ swaps, s.oldTerm ∈ vs := fun s hs => (hmem _).2 (by simp; exact Or.inl ⟨s, hs, rfl⟩)
    have hnew : ∀ s ∈ swaps, s.newTerm.inv ∈ vs := fun s hs => (hmem _).2 (by simp; exact Or.inr ⟨s, hs, rfl⟩)
    have hcases : ∀ t ∈ vs, ∃ s ∈ swaps, t = s.oldTerm ∨ t = s.newTerm.inv := by
      intro t ht
      rcases List.mem_append.1 ((hmem t).1 ht) with hm | hm
      · obtain ⟨s, hs, rfl⟩ := List.mem_map.1 hm; exact ⟨s, hs, Or.inl rfl⟩
      · obtain ⟨s, hs, rfl⟩ := List.mem_map.1 hm; exact ⟨s, hs, Or.inr rfl⟩
    have hrv : r = vs := by
      rcases hr with h | ⟨h, _⟩
      · exact h
      · exact absurd (hold s₀ hs₀) (by simp [h])
    subst hrv
    have hfil : r.filter (fun t => decide (t.base ∉ unity)) = r := by
      rw [List.filter_eq_self]
      intro t ht
      obtain ⟨s, hs, rfl | rfl⟩ := hcases t ht
      · exact decide_eq_true (hsym s hs).1
      · exact decide_eq_true (hsym s hs).2
    have hT : ∀ x ∈ r, ∀ y ∈ r, termEq x y = true → x = y := by
      intro x hx y hy h
      simp only [termEq, decide_eq_true_eq] at h
      exact List.inj_on_of_nodup_map hvnd hx hy h.1
    have hrnd : r.Nodup := List.Nodup.of_map _ hvnd
    have hdims : ∀ t ∈ r, dimensionless t.base = .ok false := by
      intro t ht
      obtain ⟨s, hs, rfl | rfl⟩ := hcases t ht
      · exact (hdim s hs).1
      · exact (hdim s hs).2
    have hne : ∀ s ∈ swaps, s.newTerm.inv ≠ s.oldTerm := by
      intro s hs h
      have : s.new = s.old := congrArg Term.base h
      exact n3 s hs s hs this.symm
    have hpart : ∀ t ∈ r, partner swaps t ∈ r := by
      intro t ht
      obtain ⟨s, hs, rfl | rfl⟩ := hcases t ht
      · rw [partner_old hnd hs]; exact hnew s hs
      · rw [partner_new hnd hs]; exact hold s hs
    have hinv : ∀ t ∈ r, partner swaps (partner swaps t) = t := by
      intro t ht
      obtain ⟨s, hs, rfl | rfl⟩ := hcases t ht
      · rw [partner_old hnd hs, partner_new hnd hs]
      · rw [partner_new hnd hs, partner_old hnd hs]
    have hcand : ∀ t ∈ r, Candidate (realConv nodes systems) t (partner swaps t) := by
      intro t ht
      obtain ⟨s, hs, rfl | rfl⟩ := hcases t ht
      · rw [partner_old hnd hs]
        exact ⟨hne s hs, rfl, factor s, (hconv s hs).1⟩
      · rw [partner_new hnd hs]
        obtain ⟨f, hf⟩ := Option.isSome_iff_exists.1 (hconv s hs).2
        exact ⟨(hne s hs).symm, by simp [Swap.oldTerm, Swap.newTerm, Term.inv], f, hf⟩
    have hcast : ∀ {m n : ℤ}, (m : ℚ) = (n : ℚ) → m = n := fun h => by exact_mod_cast h
    have huniq : ∀ t ∈ r, ∀ z ∈ r, Candidate (realConv nodes systems) t z → z = partner swaps t := by
      intro t ht z hz hc
      obtain ⟨hzt, hexp, f, hf⟩ := hc
      have hf' : convertAsStrings (realEnv nodes) t.base z.base = some f := hf
      obtain ⟨s, hs, h | h⟩ := hcases t ht <;> obtain ⟨s', hs', h' | h'⟩ := hcases z hz <;> subst h <;> subst h'
      · exfalso
        by_cases hss : s = s'
        · subst hss; exact hzt rfl
        · have h1 : (s'.power : ℚ) = -(s.power : ℚ) := hexp
          have := ((hamb s hs s' hs' hss).2 (by
            have : ((-s'.power : ℤ) : ℚ) = s.power := by push_cast; rw [h1]; ring
            exact (hcast this).symm)).1
          simp only [Swap.oldTerm] at hf'
          rw [this] at hf'; cases hf'
      · by_cases hss : s = s'
        · subst hss; rw [partner_old hnd hs]
        · exfalso
          have h1 : -(s'.power : ℚ) = -(s.power : ℚ) := hexp
          have := ((hamb s hs s' hs' hss).1 (hcast (neg_injective h1).symm)).1
          simp only [Swap.oldTerm, Swap.newTerm, Term.inv] at hf'
          rw [this] at hf'; cases hf'
      · by_cases hss : s = s'
        · subst hss; rw [partner_new hnd hs]
        · exfalso
          have h1 : (s'.power : ℚ) = -(-(s.power : ℚ)) := hexp
          rw [neg_neg] at h1
          have := ((hamb s hs s' hs' hss).1 (hcast h1.symm)).2
          simp only [Swap.oldTerm, Swap.newTerm, Term.inv] at hf'
          rw [this] at hf'; cases hf'
      · exfalso
        by_cases hss : s = s'
        · subst hss; exact hzt rfl
        · have h1 : -(s'.power : ℚ) = -(-(s.power : ℚ)) := hexp
          have := ((hamb s hs s' hs' hss).2 (by
            have : ((-s'.power : ℤ) : ℚ) = s.power := by push_cast; rw [h1]; ring
            exact (hcast this).symm)).2
          simp only [Swap.newTerm, Term.inv] at hf'
          rw [this] at hf'; cases hf'
    obtain ⟨g, hg⟩ := resolveLoop_complete (c := realConv nodes systems) hT hrnd hdims hpart hinv hcand huniq r [] r 1
      (fun _ h => h) (fun _ h => h) hrnd (by simp) hpart (by simp) (fun t ht => Or.inl ht)
    have hlen : ¬ r.length ≤ 1 := by
      intro hle
      have h1 := hold s₀ hs₀
      have h2 := hnew s₀ hs₀
      match r, hle, h1, h2 with
      | [x], _, h1, h2 =>
        simp only [List.mem_singleton] at h1 h2
        exact hne s₀ hs₀ (h2.trans h1.symm)
    have hres : resolveTerms (realConv nodes systems) r = .ok (some g) := by
      unfold resolveTerms; rw [if_neg hlen]; exact hg
    have hgv : g = (swaps.map (fun s => (factor s : ℝ) ^ s.power)).prod := by
      rw [resolveTerms_sound (c := realConv nodes systems) (φ := size) (fun _ _ => rfl) size_pos
        (fun x y f h => strings_sound hsizes conversions_nodup h) hT
        (fun t ht h => by rw [hdims t ht] at h; cases h) hres]
      have hperm : r.Perm (swaps.map Swap.oldTerm ++ swaps.map (fun s => s.newTerm.inv)) := by
        refine (List.perm_ext_iff_of_nodup hrnd ?_).2 hmem
        have e : ((swaps.map Swap.oldTerm ++ swaps.map (fun s => s.newTerm.inv)).map Term.base) =
            swaps.map Swap.old ++ swaps.map Swap.new := by
          simp [Swap.oldTerm, Swap.newTerm, Term.inv, Function.comp_def]
        refine List.Nodup.of_map Term.base ?_
        rw [e, List.nodup_append]
        refine ⟨n1, n2, ?_⟩
        intro x hx y hy
        obtain ⟨s, hs, rfl⟩ := List.mem_map.1 hx
        obtain ⟨s', hs', rfl⟩ := List.mem_map.1 hy
        exact n3 s hs s' hs'
      rw [(hperm.map _).prod_eq, List.map_append, List.prod_append, List.map_map, List.map_map, ← List.prod_map_mul]
      congr 1
      refine List.map_congr_left ?_
      intro s hs
      rw [strings_sound hsizes conversions_nodup (hconv s hs).1]
      have h1 : (0 : ℝ) < (size s.old : ℝ) := by exact_mod_cast size_pos _
      have h2 : (0 : ℝ) < (size s.new : ℝ) := by exact_mod_cast size_pos _
      simp only [Function.comp_apply, P, Swap.oldTerm, Swap.newTerm, Term.inv]
      push_cast
      rw [Real.rpow_intCast, Real.rpow_neg h2.le, Real.rpow_intCast, div_zpow, div_eq_mul_inv]
    have hg0 : g ≠ 0 := by
      rw [hgv]
      refine List.prod_ne_zero ?_
      intro hm
      obtain ⟨s, hs, h0⟩ := List.mem_map.1 hm
      have hf := strings_sound hsizes conversions_nodup (hconv s hs).1
      have : (factor s : ℝ) ≠ 0 := by
        have : factor s ≠ 0 := by
          rw [hf]; exact div_ne_zero (size_pos _).ne' (size_pos _).ne'
        exact_mod_cast this
      exact zpow_ne_zero _ this h0
    rw [hneq]
    simp only [Bool.false_eq_true, if_false, hdiv, hfil, hres]
    simp only [truthy, hg0, if_false]
    rw [hgv]

/-- kilometres per second to metres per hour, with the energy unit kept: the conditions can be met -/
theorem c24_speed (nodes : List Name) (hn : ∀ n, n ∈ nodes ↔ n ∈ tableNodes) (systems : List System) :
    convert (realConv nodes systems) c! "MeV * km / s" c! "m * MeV / h" = .ok 3600000 := by
  have key := c19_order_independent nodes tableNodes hn
  have h := c24_matching nodes systems [⟨c! "km", c! "m", 1⟩, ⟨c! "s", c! "h", -1⟩] [⟨1, c! "MeV", 1⟩]
    (fun s => if s.power = 1 then 1000 else 1 / 3600) c! "MeV * km / s" c! "m * MeV / h"
    [⟨1, c! "MeV", 1⟩, ⟨1, c! "km", 1⟩, ⟨1, c! "s", -1⟩] [⟨1, c! "MeV", 1⟩, ⟨1, c! "m", 1⟩, ⟨1, c! "h", -1⟩]
    (by decide +kernel) (by decide +kernel) ?_ ?_ (by decide +kernel) (by decide +kernel) (by decide +kernel)
    (by decide +kernel) (by decide +kernel) ?_ ?_ ?_
  · rw [h]; norm_num
  · exact namesOnly_of _ (by decide +kernel)
  · exact namesOnly_of _ (by decide +kernel)
  · simp only [key]; decide +kernel
  · simp only [key]; decide +kernel
  · simp only [key]; decide +kernel

example : ∃ nodes : List Name, ∀ n, n ∈ nodes ↔ n ∈ tableNodes := ⟨tableNodes.reverse, by simp⟩

/-- **C24**, any pairing of terms.  Whenever the terms of the quotient of two compound units can be paired off, by
whatever pairing and in whatever order, the factor is the quotient of the sizes of the two compounds - for every size
that agrees with the tables and gives dimensionless units the size 1. -/
theorem c24_resolved (nodes : List Name) (systems : List System) (φ : Name → ℚ)
    (hφ : Sizes named (fun a b => conversions.get? (a, b)) φ) (u v : Name) (a b q : List Term) (f : ℝ)
    (hu : exprOfString false u = .ok a) (hv : exprOfString false v = .ok b) (na : NamesOnly a) (nb : NamesOnly b)
    (hq : exprDiv a b = .ok q) (hneq : exprEq a b = false)
    (hdim : ∀ t ∈ a ++ b, (t.base ∈ unity ∨ dimensionless t.base = .ok true) → φ t.base = 1)
    (hstr : convertAsStrings (realEnv nodes) u v = none)
    (hres : resolveTerms (realConv nodes systems) (q.filter (fun t => decide (t.base ∉ unity))) = .ok (some f)) :
    convert (realConv nodes systems) u v = .ok f ∧
      f = value (fun n => (φ n : ℝ)) a / value (fun n => (φ n : ℝ)) b := by
  have hpos : Positive (fun n => (φ n : ℝ)) := fun n => by
    show (0 : ℝ) < (φ n : ℝ)
    exact_mod_cast hφ.pos n
  obtain ⟨r, vs, hdiv, hr, hvnd, hvm⟩ := quotient_terms na nb
  obtain ⟨r', hdiv', _, _, hval⟩ := c04_names_div a b na nb
  rw [hq, Except.ok.injEq] at hdiv hdiv'
  subst hdiv
  subst hdiv'
  have hvals : ∀ t ∈ vs, Term.val (fun n => (φ n : ℝ)) t = P φ t := by
    intro t ht
    obtain ⟨h1, h2, _, _⟩ := (hvm t).1 ht
    simp [Term.val, P, h1, h2]
  have hvq : value (fun n => (φ n : ℝ)) q = (vs.map (P φ)).prod := by
    rcases hr with rfl | ⟨rfl, rfl⟩
    · unfold value
      rw [List.map_congr_left hvals]
    · simp [value, Term.val]
  have hfil : q.filter (fun t => decide (t.base ∉ unity)) = vs.filter (fun t => decide (t.base ∉ unity)) := by
    rcases hr with rfl | ⟨rfl, rfl⟩
    · rfl
    · decide +kernel
  rw [hfil] at hres
  have hmemab : ∀ t ∈ vs, ∃ x ∈ a ++ b, x.base = t.base := by
    intro t ht
    obtain ⟨_, _, h3, h4⟩ := (hvm t).1 ht
    by_contra hno
    apply h3
    rw [h4, expOf_of_not_mem a, expOf_of_not_mem b, sub_zero]
    · intro hm
      obtain ⟨x, hx, he⟩ := List.mem_map.1 hm
      exact hno ⟨x, by simp [hx], he⟩
    · intro hm
      obtain ⟨x, hx, he⟩ := List.mem_map.1 hm
      exact hno ⟨x, by simp [hx], he⟩
  have hsound := resolveTerms_sound (c := realConv nodes systems) (φ := φ) (fun _ _ => rfl) hφ.pos
    (fun x y g h => strings_sound (E := realEnv nodes) hφ conversions_nodup h)
    (fun x hx y hy h => by
      simp only [termEq, decide_eq_true_eq] at h
      exact List.inj_on_of_nodup_map hvnd (List.mem_filter.1 hx).1 (List.mem_filter.1 hy).1 h.1)
    (fun t ht h => by
      obtain ⟨x, hx, he⟩ := hmemab t (List.mem_filter.1 ht).1
      have := hdim x hx (Or.inr (he ▸ h))
      rwa [he] at this) hres
  have hrest : ((vs.filter (fun t => decide (t.base ∉ unity))).map (P φ)).prod = (vs.map (P φ)).prod := by
    have hone : ∀ t ∈ vs, t.base ∈ unity → P φ t = 1 := by
      intro t ht hm
      obtain ⟨x, hx, he⟩ := hmemab t ht
      have := hdim x hx (Or.inl (he ▸ hm))
      rw [he] at this
      simp [P, this]
    clear hsound hres hfil hmemab hvq hvals hvm hvnd hr
    induction vs with
    | nil => rfl
    | cons t vs ih =>
      have ih := ih (fun x hx => hone x (by simp [hx]))
      by_cases hm : t.base ∈ unity
      · rw [List.filter_cons_of_neg (by simpa using hm), ih, List.map_cons, List.prod_cons, hone t (by simp) hm, one_mul]
      · rw [List.filter_cons_of_pos (by simpa using hm), List.map_cons, List.map_cons, List.prod_cons, List.prod_cons, ih]
  have hf : f = value (fun n => (φ n : ℝ)) a / value (fun n => (φ n : ℝ)) b := by
    rw [hsound, hrest, ← hvq, hval _ hpos]
  refine ⟨?_, hf⟩
  have hf0 : f ≠ 0 := by
    rw [hf]
    refine div_ne_zero ?_ ?_
    · rw [value_eq _ hpos]
      have : (coefOf a : ℝ) ≠ 0 := by exact_mod_cast coefOf_ne_zero na.wf
      exact mul_ne_zero this (Real.exp_pos _).ne'
    · rw [value_eq _ hpos]
      have : (coefOf b : ℝ) ≠ 0 := by exact_mod_cast coefOf_ne_zero nb.wf
      exact mul_ne_zero this (Real.exp_pos _).ne'
  have hs' : convertAsStrings (realConv nodes systems).env u v = none := hstr
  have hfil' : q.filter (fun t => decide (t.base ∉ unity)) = vs.filter (fun t => decide (t.base ∉ unity)) := hfil
  unfold convert convertAsExpressions
  simp only [hs', ofSym, hu, hv, bind, Except.bind, pure, Except.pure, hneq, Bool.false_eq_true, if_false, hq, hfil', hres,
    truthy, hf0]

/-- a flux per energy, where the radians (dimensionless) have size 1 and are kept -/
example : ∃ f, convert (realConv tableNodes []) c! "1 / (cm^2 s sr MeV)" c! "m^-2 s^-1 sr^-1 J^-1" = .ok f := by
  have hq : exprDiv [⟨1, c! "MeV", -1⟩, ⟨1, c! "s", -1⟩, ⟨1, c! "sr", -1⟩, ⟨1, c! "cm", -2⟩]
      [⟨1, c! "J", -1⟩, ⟨1, c! "s", -1⟩, ⟨1, c! "sr", -1⟩, ⟨1, c! "m", -2⟩] =
      .ok [⟨1, c! "m", 2⟩, ⟨1, c! "J", 1⟩, ⟨1, c! "MeV", -1⟩, ⟨1, c! "cm", -2⟩] := by decide +kernel
  have hr := resolveTerms_cast (systems := [])
    (ts := [⟨1, c! "m", 2⟩, ⟨1, c! "J", 1⟩, ⟨1, c! "MeV", -1⟩, ⟨1, c! "cm", -2⟩]) (by decide +kernel)
    (show resolveTerms ratConv _ = .ok (some (10 ^ 17 / 16022 * 10000)) by decide +kernel)
  exact ⟨_, (c24_resolved tableNodes [] size (real_sizes []) c! "1 / (cm^2 s sr MeV)" c! "m^-2 s^-1 sr^-1 J^-1" _ _ _ _
    (by decide +kernel) (by decide +kernel) (namesOnly_of _ (by decide +kernel)) (namesOnly_of _ (by decide +kernel)) hq
    (by decide +kernel) (by decide +kernel) (by decide +kernel) hr).1⟩

/-! ## Where C24 does not extend

The conversions are evaluated with rational factors, for both orders of the two metric systems. -/

/-- the conversions of the package, for an order of the metric systems -/
def ratConvs : List (Conv ℚ) := [⟨realEnv tableNodes, ratPow, [.mks, .cgs]⟩, ⟨realEnv tableNodes, ratPow, [.cgs, .mks]⟩]

set_option maxHeartbeats 100000000 in
/-- **C24**, the restriction to units with a dimension is necessary: degrees per second convert to radians per second
by the factor 1, although degrees convert to radians by pi / 180. -/
theorem c24_not_dimensionless : ∀ c ∈ ratConvs, convert c c! "deg / s" c! "rad / s" = .ok 1 ∧
    convertAsStrings c.env c! "deg" c! "rad" = some (piFloat / 180) ∧ piFloat / 180 ≠ (1 : ℚ) := by decide +kernel

set_option maxHeartbeats 100000000 in
/-- **C24**, the restriction to matching terms is necessary: a kilojoule becomes 10^7 `g cm^2 / s^2`, the value of a
joule, instead of 10^10. -/
theorem c24_not_by_dimensions : ∀ c ∈ ratConvs,
    convert c c! "kJ" c! "g * cm^2 / s^2" = .ok (10 ^ 7) ∧ convert c c! "J" c! "g * cm^2 / s^2" = .ok (10 ^ 7) ∧
    convert c c! "kJ" c! "J" = .ok 1000 := by decide +kernel

set_option maxHeartbeats 100000000 in
/-- **C24**, some conversions between units of the same dimension are refused, and refusal is not symmetric. -/
theorem c24_refused : ∀ c ∈ ratConvs,
    convert c c! "km" c! "Mau" = .error .conversion ∧ convert c c! "nT" c! "uG" = .error .conversion ∧
    convert c c! "# / s" c! "1 / s" = .error .conversion ∧
    (∃ f, convert c c! "MeV / nuc" c! "J / kg" = .ok f) ∧ convert c c! "J / kg" c! "MeV / nuc" = .error .value := by
  intro c hc
  have h : ∀ c ∈ ratConvs, (convert c c! "km" c! "Mau" = .error .conversion ∧ convert c c! "nT" c! "uG" = .error .conversion ∧
      convert c c! "# / s" c! "1 / s" = .error .conversion) ∧ (convert c c! "MeV / nuc" c! "J / kg").toOption.isSome = true ∧
      convert c c! "J / kg" c! "MeV / nuc" = .error .value := by decide +kernel
  obtain ⟨⟨h1, h2, h3⟩, h4, h5⟩ := h c hc
  refine ⟨h1, h2, h3, ?_, h5⟩
  cases hx : convert c c! "MeV / nuc" c! "J / kg" with
  | ok f => exact ⟨f, rfl⟩
  | error e => rw [hx] at h4; cases h4

end Eprem.Metric
