import Verif.Lemmas.MetricConvert

/-! # Quotients of compound units with matching parts -/

namespace Eprem.Metric

open Eprem Eprem.Symbolic

theorem quotient_terms {a b : List Term} (ha : NamesOnly a) (hb : NamesOnly b) :
    ∃ r vs, exprDiv a b = .ok r ∧ (r = vs ∨ vs = [] ∧ r = [⟨1, one, 1⟩]) ∧ (vs.map Term.base).Nodup ∧
      ∀ v, v ∈ vs ↔ v.coeff = 1 ∧ v.base ≠ one ∧ v.exp ≠ 0 ∧ v.exp = expOf v.base a - expOf v.base b := by
  have hw := ha.wf.append hb.wf.inv
  have hne : a ++ b.map Term.inv ≠ [] := by simp [hb.nonempty]
  obtain ⟨r, vs, hp, hrv, hr, hc, he⟩ := reduce_ok hne hw
  have hca : coefOf a = 1 := by
    unfold coefOf; exact List.prod_eq_one (by simpa using fun t ht => ha.coeff t ht)
  have hcb : coefOf b = 1 := by
    unfold coefOf; exact List.prod_eq_one (by simpa using fun t ht => hb.coeff t ht)
  have hone : coefOf (a ++ b.map Term.inv) = 1 := by rw [coefOf_append, coefOf_inv, hca, hcb]; norm_num
  have hN : NamesOnly r := reduce_names hne
    (by intro t ht
        rcases List.mem_append.1 ht with h | h
        · exact ha.coeff t h
        · obtain ⟨u, hu, rfl⟩ := List.mem_map.1 h
          simp [Term.inv, hb.coeff u hu])
    (by intro t ht
        rcases List.mem_append.1 ht with h | h
        · exact ha.exp t h
        · obtain ⟨u, hu, rfl⟩ := List.mem_map.1 h
          simpa [Term.inv] using hb.exp u hu)
    (by intro t ht
        rcases List.mem_append.1 ht with h | h
        · exact (ha.base t h).imp id And.left
        · obtain ⟨u, hu, rfl⟩ := List.mem_map.1 h
          exact (hb.base u hu).imp id And.left) hr
  refine ⟨r, vs, exprDiv_eq hb.nonempty ha.wf hb.wf hr hN.exact, ?_, hp.nodup, ?_⟩
  · rw [hrv, hone]
    unfold assemble
    split
    next h => right; exact ⟨h, by rw [mkTerm_const one_ne_zero]⟩
    next => left; simp
  · intro v
    rw [hp.mem, expOf_append, expOf_inv, sub_eq_add_neg]

theorem expOf_unique {L : List Term} (h : (L.map Term.base).Nodup) {t : Term} (ht : t ∈ L) {x : Name} (hx : t.base = x) :
    expOf x L = t.exp := hx ▸ expOf_of_nodup L h t ht

section swaps
variable {swaps : List Swap} {kept : List Term}

/-- the partner of a term -/
def partner (swaps : List Swap) (t : Term) : Term :=
  match swaps.find? (fun s => s.old = t.base) with
  | some s => s.newTerm.inv
  | none => match swaps.find? (fun s => s.new = t.base) with
    | some s => s.oldTerm
    | none => t

variable (hnd : ((swaps.map Swap.oldTerm ++ swaps.map Swap.newTerm ++ kept).map Term.base).Nodup)
include hnd

theorem swap_nodup : (swaps.map Swap.old).Nodup ∧ (swaps.map Swap.new).Nodup ∧
    (∀ s ∈ swaps, ∀ s' ∈ swaps, s.old ≠ s'.new) ∧
    (∀ s ∈ swaps, ∀ k ∈ kept, s.old ≠ k.base ∧ s.new ≠ k.base) ∧ (kept.map Term.base).Nodup := by
  rw [List.map_append, List.map_append, List.nodup_append, List.nodup_append] at hnd
  obtain ⟨⟨h1, h2, h3⟩, h4, h5⟩ := hnd
  have e1 : (swaps.map Swap.oldTerm).map Term.base = swaps.map Swap.old := by simp [Swap.oldTerm, Function.comp_def]
  have e2 : (swaps.map Swap.newTerm).map Term.base = swaps.map Swap.new := by simp [Swap.newTerm, Function.comp_def]
  rw [e1] at h1 h3 h5
  rw [e2] at h2 h3 h5
  refine ⟨h1, h2, ?_, ?_, h4⟩
  · intro s hs s' hs'
    exact h3 _ (List.mem_map_of_mem hs) _ (List.mem_map_of_mem hs')
  · intro s hs k hk
    exact ⟨h5 _ (by simp only [List.mem_append]; left; exact List.mem_map_of_mem hs) _ (List.mem_map_of_mem hk),
      h5 _ (by simp only [List.mem_append]; right; exact List.mem_map_of_mem hs) _ (List.mem_map_of_mem hk)⟩

theorem old_inj {s s' : Swap} (hs : s ∈ swaps) (hs' : s' ∈ swaps) (h : s.old = s'.old) : s = s' :=
  List.inj_on_of_nodup_map (swap_nodup hnd).1 hs hs' h

theorem new_inj {s s' : Swap} (hs : s ∈ swaps) (hs' : s' ∈ swaps) (h : s.new = s'.new) : s = s' :=
  List.inj_on_of_nodup_map (swap_nodup hnd).2.1 hs hs' h

theorem partner_old {s : Swap} (hs : s ∈ swaps) : partner swaps s.oldTerm = s.newTerm.inv := by
  unfold partner
  cases h : swaps.find? (fun s' => s'.old = s.oldTerm.base) with
  | none =>
    rw [List.find?_eq_none] at h
    exact absurd (by simp [Swap.oldTerm]) (h s hs)
  | some s' =>
    have h1 := List.mem_of_find?_eq_some h
    have h2 := List.find?_some h
    simp only [decide_eq_true_eq] at h2
    rw [old_inj hnd h1 hs h2]

theorem partner_new {s : Swap} (hs : s ∈ swaps) : partner swaps s.newTerm.inv = s.oldTerm := by
  unfold partner
  cases h : swaps.find? (fun s' => s'.old = s.newTerm.inv.base) with
  | some s' =>
    have h1 := List.mem_of_find?_eq_some h
    have h2 := List.find?_some h
    simp only [decide_eq_true_eq] at h2
    exact absurd h2 ((swap_nodup hnd).2.2.1 s' h1 s hs)
  | none =>
    simp only
    cases h : swaps.find? (fun s' => s'.new = s.newTerm.inv.base) with
    | none =>
      rw [List.find?_eq_none] at h
      exact absurd (by simp [Swap.newTerm, Term.inv]) (h s hs)
    | some s' =>
      have h1 := List.mem_of_find?_eq_some h
      have h2 := List.find?_some h
      simp only [decide_eq_true_eq] at h2
      rw [new_inj hnd h1 hs h2]

/-- the terms of the quotient -/
theorem quotient_mem {a b : List Term} (ha : a.Perm (swaps.map Swap.oldTerm ++ kept))
    (hb : b.Perm (swaps.map Swap.newTerm ++ kept)) (hp : ∀ s ∈ swaps, s.power ≠ 0)
    (hone : ∀ s ∈ swaps, s.old ≠ one ∧ s.new ≠ one) (v : Term) :
    (v.coeff = 1 ∧ v.base ≠ one ∧ v.exp ≠ 0 ∧ v.exp = expOf v.base a - expOf v.base b) ↔
      v ∈ swaps.map Swap.oldTerm ++ swaps.map (fun s => s.newTerm.inv) := by
  obtain ⟨h1, h2, h3, h4, h5⟩ := swap_nodup hnd
  have hold : ((swaps.map Swap.oldTerm).map Term.base) = swaps.map Swap.old := by simp [Swap.oldTerm, Function.comp_def]
  have hnew : ((swaps.map Swap.newTerm).map Term.base) = swaps.map Swap.new := by simp [Swap.newTerm, Function.comp_def]
  have key : expOf v.base a - expOf v.base b =
      expOf v.base (swaps.map Swap.oldTerm) - expOf v.base (swaps.map Swap.newTerm) := by
    rw [expOf_perm _ ha, expOf_perm _ hb, expOf_append, expOf_append]; ring
  rw [key, List.mem_append]
  constructor
  · rintro ⟨e1, e2, e3, e4⟩
    by_cases ho : v.base ∈ swaps.map Swap.old
    · obtain ⟨s, hs, he⟩ := List.mem_map.1 ho
      left
      have hz : expOf v.base (swaps.map Swap.newTerm) = 0 := expOf_of_not_mem _ _ (by
        rw [hnew]
        rintro hm
        obtain ⟨s', hs', he'⟩ := List.mem_map.1 hm
        exact h3 s hs s' hs' (he.trans he'.symm))
      have hx : expOf v.base (swaps.map Swap.oldTerm) = s.power :=
        expOf_unique (by rw [hold]; exact h1) (List.mem_map_of_mem hs) he
      refine List.mem_map.2 ⟨s, hs, ?_⟩
      rw [hz, hx, sub_zero] at e4
      cases v
      simp only [Swap.oldTerm] at *
      simp [e1, e4, he]
    · have hz : expOf v.base (swaps.map Swap.oldTerm) = 0 := expOf_of_not_mem _ _ (by rw [hold]; exact ho)
      by_cases hn : v.base ∈ swaps.map Swap.new
      · obtain ⟨s, hs, he⟩ := List.mem_map.1 hn
        right
        have hx : expOf v.base (swaps.map Swap.newTerm) = s.power :=
          expOf_unique (by rw [hnew]; exact h2) (List.mem_map_of_mem hs) he
        refine List.mem_map.2 ⟨s, hs, ?_⟩
        rw [hz, hx, zero_sub] at e4
        cases v
        simp only [Swap.newTerm, Term.inv] at *
        simp [e1, e4, he]
      · have hz' : expOf v.base (swaps.map Swap.newTerm) = 0 := expOf_of_not_mem _ _ (by rw [hnew]; exact hn)
        rw [hz, hz'] at e4
        exact absurd (by simpa using e4) e3
  · rintro (hm | hm)
    · obtain ⟨s, hs, rfl⟩ := List.mem_map.1 hm
      have hz : expOf s.old (swaps.map Swap.newTerm) = 0 := expOf_of_not_mem _ _ (by
        rw [hnew]
        rintro hm
        obtain ⟨s', hs', he'⟩ := List.mem_map.1 hm
        exact h3 s hs s' hs' he'.symm)
      have hx : expOf s.old (swaps.map Swap.oldTerm) = s.power :=
        expOf_unique (by rw [hold]; exact h1) (List.mem_map_of_mem hs) rfl
      refine ⟨rfl, (hone s hs).1, ?_, ?_⟩
      · simpa [Swap.oldTerm] using hp s hs
      · show (s.power : ℚ) = expOf s.old _ - expOf s.old _
        rw [hz, hx, sub_zero]
    · obtain ⟨s, hs, rfl⟩ := List.mem_map.1 hm
      have hz : expOf s.new (swaps.map Swap.oldTerm) = 0 := expOf_of_not_mem _ _ (by
        rw [hold]
        rintro hm
        obtain ⟨s', hs', he'⟩ := List.mem_map.1 hm
        exact h3 s' hs' s hs he')
      have hx : expOf s.new (swaps.map Swap.newTerm) = s.power :=
        expOf_unique (by rw [hnew]; exact h2) (List.mem_map_of_mem hs) rfl
      refine ⟨by simp [Term.inv, Swap.newTerm], (hone s hs).2, ?_, ?_⟩
      · simpa [Swap.newTerm, Term.inv] using hp s hs
      · show -(s.power : ℚ) = expOf s.new _ - expOf s.new _
        rw [hz, hx, zero_sub]

end swaps

theorem keyLe_base {x y : Term} (h : keyLe x y = true) : strLe x.base y.base = true := by
  unfold keyLe at h
  split at h
  next hb => rw [hb]; exact strLe_refl _
  next => exact h

theorem keyLe_base_false {x y : Term} (h : keyLe x y = false) : strLe y.base x.base = true := by
  unfold keyLe at h
  split at h
  next hb => rw [hb]; exact strLe_refl _
  next =>
    rcases strLe_total x.base y.base with h' | h'
    · rw [h'] at h; cases h
    · exact h'

theorem sortKey_pairwise (l : List Term) : (sortBy keyLe l).Pairwise (fun a b => strLe a.base b.base = true) := by
  induction l with
  | nil => simp [sortBy]
  | cons a l ih =>
    exact insertBy_pairwise ih (fun b _ h => keyLe_base h) (fun b _ h => keyLe_base_false h)
      (fun b _ c _ h1 h2 => strLe_trans (keyLe_base h1) h2)

/-- the same factors, each of another symbol, in any order -/
theorem exprEq_of_perm {a b : List Term} (h : a.Perm b) (hnd : (a.map Term.base).Nodup) : exprEq a b = true := by
  have hs : sortBy keyLe a = sortBy keyLe b := by
    refine List.Perm.eq_of_pairwise ?_ (sortKey_pairwise a) (sortKey_pairwise b)
      ((sortKey_perm a).trans (h.trans (sortKey_perm b).symm))
    intro x y hx hy h1 h2
    exact List.inj_on_of_nodup_map hnd ((sortKey_perm a).mem_iff.1 hx)
      (h.mem_iff.2 ((sortKey_perm b).mem_iff.1 hy)) (strLe_antisymm h1 h2)
  unfold exprEq
  simp only [h.length_eq, hs, true_and, decide_eq_true_eq]
  rw [List.all_eq_true]
  intro p hp
  obtain ⟨i, hi, rfl⟩ := List.getElem_of_mem hp
  simp [termEq]

theorem exprEq_mem {a b : List Term} (h : exprEq a b = true) {t : Term} (ht : t ∈ a) : ∃ u ∈ b, u.base = t.base := by
  unfold exprEq at h
  simp only [decide_eq_true_eq] at h
  have hl : (sortBy keyLe a).length = (sortBy keyLe b).length := by
    rw [(sortKey_perm a).length_eq, (sortKey_perm b).length_eq]; exact h.1
  obtain ⟨i, hi, hti⟩ := List.getElem_of_mem ((sortKey_perm a).mem_iff.2 ht)
  have hi' : i < (sortBy keyLe b).length := hl ▸ hi
  refine ⟨(sortBy keyLe b)[i], (sortKey_perm b).mem_iff.1 (List.getElem_mem _), ?_⟩
  have hz : ((sortBy keyLe a)[i], (sortBy keyLe b)[i]) ∈ (sortBy keyLe a).zip (sortBy keyLe b) := by
    rw [List.mem_iff_getElem]
    exact ⟨i, by simp [hi, hi'], by simp⟩
  have := List.all_eq_true.1 h.2 _ hz
  simp only [termEq, decide_eq_true_eq] at this
  rw [← this.1, hti]

end Eprem.Metric
