import Verif.Lemmas.Reduce
import Mathlib.Algebra.BigOperators.Group.Finset.Basic
import Mathlib.Algebra.BigOperators.Ring.Finset

namespace Eprem.Symbolic

/-- logarithm of the symbolic part -/
noncomputable def logPart (ρ : Str → ℝ) (ts : List Term) : ℝ :=
  (ts.map (fun t => if t.base = one then 0 else (t.exp : ℝ) * Real.log (ρ t.base))).sum

theorem value_eq (ρ : Str → ℝ) (hρ : Positive ρ) (ts : List Term) :
    value ρ ts = (coefOf ts : ℝ) * Real.exp (logPart ρ ts) := by
  induction ts with
  | nil => simp [value, logPart]
  | cons t ts ih =>
    have : value ρ (t :: ts) = t.val ρ * value ρ ts := by simp [value]
    rw [this, ih]
    simp only [coefOf_cons, logPart, List.map_cons, List.sum_cons, Term.val, Real.exp_add]
    split
    · simp; ring
    · rw [Real.rpow_def_of_pos (hρ _), mul_comm (Real.log _)]; push_cast; ring

theorem logPart_eq (ρ : Str → ℝ) (ts : List Term) (S : Finset Str)
    (hS : ∀ t ∈ ts, t.base ≠ one → t.base ∈ S) (h1 : one ∉ S) :
    logPart ρ ts = ∑ b ∈ S, (expOf b ts : ℝ) * Real.log (ρ b) := by
  induction ts with
  | nil => simp [logPart]
  | cons t ts ih =>
    have ih := ih (fun t ht => hS t (by simp [ht]))
    have : logPart ρ (t :: ts) = (if t.base = one then 0 else (t.exp : ℝ) * Real.log (ρ t.base)) + logPart ρ ts := by
      simp [logPart]
    rw [this, ih]
    simp only [expOf_cons]
    push_cast
    simp only [add_mul, Finset.sum_add_distrib]
    congr 1
    by_cases hb : t.base = one
    · rw [if_pos hb]
      symm
      apply Finset.sum_eq_zero
      intro b hbS
      rw [if_neg (by rintro rfl; exact h1 (hb ▸ hbS))]; simp
    · rw [if_neg hb]
      have hm := hS t (by simp) hb
      rw [Finset.sum_eq_single t.base]
      · simp
      · intro b _ hne; rw [if_neg (Ne.symm hne)]; simp
      · intro h; exact absurd hm h

/-- The value depends only on the total coefficient and the total exponents. -/
theorem value_congr (ρ : Str → ℝ) (hρ : Positive ρ) (a b : List Term)
    (hc : coefOf a = coefOf b) (he : ∀ x, x ≠ one → expOf x a = expOf x b) :
    value ρ a = value ρ b := by
  classical
  rw [value_eq ρ hρ, value_eq ρ hρ, hc]
  let S : Finset Str := ((a ++ b).map Term.base).toFinset.erase one
  have h1 : one ∉ S := by simp [S]
  rw [logPart_eq ρ a S (fun t ht hb => by simp only [S, Finset.mem_erase, List.mem_toFinset]; exact ⟨hb, List.mem_map_of_mem (by simp [ht])⟩) h1,
    logPart_eq ρ b S (fun t ht hb => by simp only [S, Finset.mem_erase, List.mem_toFinset]; exact ⟨hb, List.mem_map_of_mem (by simp [ht])⟩) h1]
  congr 2
  apply Finset.sum_congr rfl
  intro x hx
  rw [he x (by rintro rfl; exact h1 hx)]

theorem Parts.coefOf_vs {ts c vs} (h : Parts ts c vs) : coefOf vs = 1 := by
  have : ∀ v ∈ vs, v.coeff = 1 := fun v hv => ((h.mem v).1 hv).1
  clear h
  induction vs with
  | nil => rfl
  | cons v vs ih => simp [this v (by simp), ih (fun v hv => this v (by simp [hv]))]

theorem Parts.expOf_vs {ts c vs} (h : Parts ts c vs) (b) (hb : b ≠ one) : expOf b vs = expOf b ts := by
  by_cases hm : b ∈ vs.map Term.base
  · obtain ⟨v, hv, rfl⟩ := List.mem_map.1 hm
    rw [expOf_of_nodup vs h.nodup v hv]
    exact ((h.mem v).1 hv).2.2.2
  · rw [expOf_of_not_mem vs b hm]
    by_contra hne
    exact hm (List.mem_map.2 ⟨⟨1, b, expOf b ts⟩, (h.mem _).2 ⟨rfl, hb, Ne.symm hne, rfl⟩, rfl⟩)

theorem coefOf_ne_zero {ts} (h : WF ts) : coefOf ts ≠ 0 := by
  induction ts with
  | nil => simp
  | cons t ts ih =>
    rw [coefOf_cons]
    exact mul_ne_zero (h t (by simp)).1 (ih (fun t ht => h t (by simp [ht])))

theorem mkTerm_const {c : Rat} (hc : c ≠ 0) : mkTerm c one 1 = ⟨c, one, 1⟩ := by
  simp [mkTerm, orOne, orOneStr, hc, one]

theorem coefOf_assemble {ts c vs} (h : Parts ts c vs) (hc : c ≠ 0) :
    coefOf (assemble c vs) = c := by
  unfold assemble
  rw [mkTerm_const hc]
  split
  · simp
  · split
    · rename_i h1; rw [h.coefOf_vs, h1]
    · simp [h.coefOf_vs]

theorem expOf_assemble {ts c vs} (h : Parts ts c vs) (hc : c ≠ 0) (b) (hb : b ≠ one) :
    expOf b (assemble c vs) = expOf b ts := by
  unfold assemble
  rw [mkTerm_const hc]
  have hbo : ¬ one = b := fun e => hb e.symm
  split
  · rename_i h0
    rw [← h.expOf_vs b hb, h0]; simp [expOf_cons, hbo]
  · split
    · exact h.expOf_vs b hb
    · simp [expOf_cons, hbo, h.expOf_vs b hb]

/-- `reduce` succeeds with a list of the same coefficient and exponents. -/
theorem reduce_ok {ts : List Term} (hne : ts ≠ []) (hw : WF ts) :
    ∃ r vs, Parts ts (coefOf ts) vs ∧ r = assemble (coefOf ts) vs ∧ reduce ts = .ok r ∧
      coefOf r = coefOf ts ∧ ∀ b, b ≠ one → expOf b r = expOf b ts := by
  obtain ⟨vs, hp, hr⟩ := reduce_eq ts hne (fun t ht => (hw t ht).2.1)
  have hc := coefOf_ne_zero hw
  exact ⟨_, vs, hp, rfl, hr, coefOf_assemble hp hc, fun b hb => expOf_assemble hp hc b hb⟩

/-- Two lists with the same coefficient and exponents reduce to the same list. -/
theorem reduce_congr {a b : List Term} (ha : a ≠ []) (hb : b ≠ [])
    (wa : ∀ t ∈ a, t.base ≠ []) (wb : ∀ t ∈ b, t.base ≠ [])
    (hc : coefOf a = coefOf b) (he : ∀ x, x ≠ one → expOf x a = expOf x b) :
    reduce a = reduce b := by
  obtain ⟨va, hpa, hra⟩ := reduce_eq a ha wa
  obtain ⟨vb, hpb, hrb⟩ := reduce_eq b hb wb
  rw [hra, hrb]
  obtain ⟨h1, h2⟩ := hpa.unique hpb hc he
  rw [h1, h2]

theorem Parts.bases_ne {ts c vs} (h : Parts ts c vs) (hb : ∀ t ∈ ts, t.base ≠ []) :
    ∀ v ∈ vs, v.base ≠ [] := by
  intro v hv hcon
  obtain ⟨_, _, h3, h4⟩ := (h.mem v).1 hv
  rw [h4] at h3
  apply h3
  apply expOf_of_not_mem
  rw [hcon]
  intro hm
  obtain ⟨t, ht, e⟩ := List.mem_map.1 hm
  exact hb t ht e

theorem assemble_wf {ts c vs} (h : Parts ts c vs) (hb : ∀ t ∈ ts, t.base ≠ []) (hc : c ≠ 0) :
    WF (assemble c vs) ∧ assemble c vs ≠ [] := by
  have hv : WF vs := fun v hv => by
    obtain ⟨h1, h2, h3, _⟩ := (h.mem v).1 hv
    exact ⟨by rw [h1]; exact one_ne_zero, h.bases_ne hb v hv, h3⟩
  unfold assemble
  rw [mkTerm_const hc]
  have hone : (⟨c, one, 1⟩ : Term).coeff ≠ 0 ∧ (⟨c, one, 1⟩ : Term).base ≠ [] ∧ (⟨c, one, 1⟩ : Term).exp ≠ 0 :=
    ⟨hc, by simp [one], by simp⟩
  split
  · exact ⟨fun t ht => by rw [List.mem_singleton] at ht; rw [ht]; exact hone, by simp⟩
  · split
    · exact ⟨hv, ‹_›⟩
    · refine ⟨fun t ht => ?_, by simp⟩
      rcases List.mem_cons.1 ht with rfl | ht
      · exact hone
      · exact hv t ht

theorem assemble_canonical {ts c vs} (h : Parts ts c vs) (hc : c ≠ 0) : Canonical (assemble c vs) := by
  have hvs : ∀ v ∈ vs, v.coeff = 1 ∧ v.base ≠ one ∧ v.exp ≠ 0 := fun v hv =>
    ⟨((h.mem v).1 hv).1, ((h.mem v).1 hv).2.1, ((h.mem v).1 hv).2.2.1⟩
  have hord : ∀ (i j : Nat) (hi : i < vs.length) (hj : j < vs.length), i < j →
      vs[j].exp < vs[i].exp ∨ (vs[i].exp = vs[j].exp ∧ StrLt vs[i].base vs[j].base) := by
    intro i j hi hj hij
    have := List.pairwise_iff_getElem.1 h.sorted i j hi hj hij
    rcases this with h1 | ⟨h1, h2⟩
    · exact Or.inl h1
    · refine Or.inr ⟨h1, strLt_of_strLe_ne h2 ?_⟩
      have := List.pairwise_iff_getElem.1 h.nodup i j (by simpa) (by simpa) hij
      simpa using this
  unfold assemble
  rw [mkTerm_const hc]
  split
  · constructor
    · simp
    · simp
    · intro t ht hb; simp only [List.mem_singleton] at ht; subst ht; exact absurd rfl hb
    · intro t ht hb; simp only [List.mem_singleton] at ht; subst ht; exact ⟨rfl, hc⟩
    · intro i hi; simp at hi; omega
    · intro t ht hb hl; simp at hl
    · intro i j hi hj hij; simp at hi hj; omega
  · rename_i hne
    split
    · constructor
      · exact hne
      · exact h.nodup
      · intro t ht _; exact ⟨(hvs t ht).1, (hvs t ht).2.2⟩
      · intro t ht hb; exact absurd hb (hvs t ht).2.1
      · intro i hi hb; exact absurd hb (hvs _ (List.getElem_mem hi)).2.1
      · intro t ht hb; exact absurd hb (hvs t ht).2.1
      · intro i j hi hj hij _ _; exact hord i j hi hj hij
    · rename_i hc1
      constructor
      · simp
      · simp only [List.map_cons, List.nodup_cons]
        refine ⟨?_, h.nodup⟩
        intro hm
        obtain ⟨v, hv, e⟩ := List.mem_map.1 hm
        exact (hvs v hv).2.1 e
      · intro t ht hb
        rcases List.mem_cons.1 ht with rfl | ht
        · exact absurd rfl hb
        · exact ⟨(hvs t ht).1, (hvs t ht).2.2⟩
      · intro t ht hb
        rcases List.mem_cons.1 ht with rfl | ht
        · exact ⟨rfl, hc⟩
        · exact absurd hb (hvs t ht).2.1
      · intro i hi hb
        cases i with
        | zero => rfl
        | succ i => exact absurd hb (hvs _ (List.getElem_mem (by simpa using hi))).2.1
      · intro t ht hb _
        rcases List.mem_cons.1 ht with rfl | ht
        · exact hc1
        · exact absurd hb (hvs t ht).2.1
      · intro i j hi hj hij hbi hbj
        cases i with
        | zero => exact absurd rfl hbi
        | succ i =>
          cases j with
          | zero => omega
          | succ j => exact hord i j (by simpa using hi) (by simpa using hj) (by omega)

/-- A canonical list is its own reduction. -/
theorem Canonical.reduce_self {ts : List Term} (h : Canonical ts) (hb : ∀ t ∈ ts, t.base ≠ []) :
    reduce ts = .ok ts := by
  obtain ⟨vs, hp, hr⟩ := reduce_eq ts h.nonempty hb
  rw [hr]
  congr 1
  -- split off the number
  have hw : WF ts := fun t ht => by
    by_cases hbase : t.base = one
    · exact ⟨(h.number t ht hbase).2, hb t ht, by rw [(h.number t ht hbase).1]; exact one_ne_zero⟩
    · exact ⟨by rw [(h.symbol t ht hbase).1]; exact one_ne_zero, hb t ht, (h.symbol t ht hbase).2⟩
  have hc := coefOf_ne_zero hw
  -- the symbols of ts satisfy Parts
  have key : ∀ ws : List Term, ws.Sublist ts → (∀ t, t ∈ ws ↔ t ∈ ts ∧ t.base ≠ one) →
      (ws.Pairwise VarLe) → ws = vs := by
    intro ws hsub hws hpw
    have hP : Parts ts (coefOf ts) ws := by
      refine ⟨rfl, ?_, List.Nodup.sublist (hsub.map _) h.nodup, hpw⟩
      intro v
      rw [hws]
      constructor
      · rintro ⟨hv, hvb⟩
        exact ⟨(h.symbol v hv hvb).1, hvb, (h.symbol v hv hvb).2, (expOf_of_nodup ts h.nodup v hv).symm⟩
      · rintro ⟨h1, h2, h3, h4⟩
        have hm : v.base ∈ ts.map Term.base := by
          by_contra hcon
          exact h3 (h4.trans (expOf_of_not_mem ts v.base hcon))
        obtain ⟨t, ht, hte⟩ := List.mem_map.1 hm
        have he : t.exp = v.exp := by rw [← expOf_of_nodup ts h.nodup t ht, hte, ← h4]
        have hcf := (h.symbol t ht (hte ▸ h2)).1
        have : v = t := by cases v; cases t; simp_all
        exact ⟨this ▸ ht, h2⟩
    exact (hP.unique hp rfl (fun _ _ => rfl)).2
  have hpw : ∀ (i j : Nat) (hi : i < ts.length) (hj : j < ts.length), i < j →
      ts[i].base ≠ one → ts[j].base ≠ one → VarLe ts[i] ts[j] := by
    intro i j hi hj hij h1 h2
    rcases h.ordered i j hi hj hij h1 h2 with h3 | ⟨h3, h4⟩
    · exact Or.inl h3
    · exact Or.inr ⟨h3, h4.le⟩
  cases ts with
  | nil => exact absurd rfl h.nonempty
  | cons t us =>
    have hus : ∀ u ∈ us, u.base ≠ one := by
      intro u hu hcon
      obtain ⟨i, hi, e⟩ := List.getElem_of_mem hu
      have := h.numberFirst (i + 1) (by simpa using hi) (by simpa [e] using hcon)
      omega
    by_cases hb1 : t.base = one
    · have hvs : us = vs := by
        apply key us (List.sublist_cons_self t us)
        · intro x
          constructor
          · intro hx; exact ⟨by simp [hx], hus x hx⟩
          · rintro ⟨hx, hxb⟩
            rcases List.mem_cons.1 hx with rfl | hx
            · exact absurd hb1 hxb
            · exact hx
        · rw [List.pairwise_iff_getElem]
          intro i j hi hj hij
          have := hpw (i+1) (j+1) (by simpa using hi) (by simpa using hj) (by omega)
            (by simpa using hus _ (List.getElem_mem hi)) (by simpa using hus _ (List.getElem_mem hj))
          simpa using this
      have hcoef : coefOf (t :: us) = t.coeff := by
        rw [coefOf_cons]
        have : coefOf us = 1 := by rw [hvs]; exact hp.coefOf_vs
        rw [this, mul_one]
      have ht : (⟨t.coeff, one, 1⟩ : Term) = t := by
        have := (h.number t (by simp) hb1).1
        cases t; simp_all
      rw [hcoef] at hc ⊢
      unfold assemble
      rw [mkTerm_const hc, ht]
      split
      · rename_i h0; rw [hvs, h0]
      · rename_i h0
        have hl : (t :: us).length ≠ 1 := by
          intro hl; apply h0; rw [← hvs]; simpa using hl
        rw [if_neg (h.numberNeOne t (by simp) hb1 hl), hvs]
    · have hvs : t :: us = vs := by
        apply key _ (List.Sublist.refl _)
        · intro x
          constructor
          · intro hx
            refine ⟨hx, ?_⟩
            rcases List.mem_cons.1 hx with rfl | hx
            · exact hb1
            · exact hus x hx
          · exact fun h => h.1
        · rw [List.pairwise_iff_getElem]
          intro i j hi hj hij
          have hall : ∀ x ∈ t :: us, x.base ≠ one := by
            intro x hx
            rcases List.mem_cons.1 hx with rfl | hx
            · exact hb1
            · exact hus x hx
          exact hpw i j hi hj hij (hall _ (List.getElem_mem hi)) (hall _ (List.getElem_mem hj))
      have hcoef : coefOf (t :: us) = 1 := by rw [hvs]; exact hp.coefOf_vs
      unfold assemble
      rw [← hvs, hcoef]
      simp

end Eprem.Symbolic
