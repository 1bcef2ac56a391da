import Verif.Model.Interpolate
import Verif.Spec.Interpolate
import Verif.Lemmas.Observable
import Verif.Props.Container
import Verif.Lemmas.Numpy
import Verif.Props.Transpose
import Mathlib.Data.List.GetD

/-!
# Lemmas about interpolation
-/

namespace Eprem.Interpolate

open Eprem Eprem.Numeric Eprem.Physical
open Eprem.Symbolic (Term)

theorem countP_sorted {l : List ℝ} (hs : l.Pairwise (· < ·)) (t : ℝ) [DecidablePred (fun v : ℝ => v < t)] (i : Nat)
    (hi : i < l.length) : l[i] < t ↔ i < l.countP (fun v => decide (v < t)) := by
  induction l generalizing i with
  | nil => simp at hi
  | cons a l ih =>
    obtain ⟨h1, h2⟩ := List.pairwise_cons.1 hs
    rw [List.countP_cons]
    by_cases ha : a < t
    · cases i with
      | zero => simp [ha]
      | succ i =>
        have hi' : i < l.length := by simpa using hi
        rw [List.getElem_cons_succ, ih h2 i hi']
        simp [ha]
    · have hz : l.countP (fun v => decide (v < t)) = 0 := by
        rw [List.countP_eq_zero]
        intro b hb
        have := h1 b hb
        simp only [decide_eq_true_eq, not_lt]
        linarith [not_lt.1 ha]
      have : ¬ (a :: l)[i] < t := by
        cases i with
        | zero => exact ha
        | succ i =>
          have hi' : i < l.length := by simpa using hi
          rw [List.getElem_cons_succ]
          have := h1 l[i] (List.getElem_mem hi')
          linarith [not_lt.1 ha]
      simp [hz, ha, this]

theorem linear_ok {x : List ℝ} {y : ND ℝ} {t : ℝ} {s : List Nat} (hs : x.Pairwise (· < ·)) (hn : 2 ≤ x.length)
    (hy : y.shape = x.length :: s) (h0 : x.getD 0 0 ≤ t) (h1 : t ≤ x.getD (x.length - 1) 0) :
    ∃ r, linear x y t = .ok r ∧ r.shape = s ∧ ∀ p, Valid p s →
      OnPolygon x.length (fun i => x.getD i 0) (fun i => y.get (i :: p)) t (r.get p) := by
  classical
  have hind : (List.range x.length).mergeSort (fun i j => decide (x.getD i 0 ≤ x.getD j 0)) = List.range x.length := by
    apply List.mergeSort_of_pairwise
    rw [List.pairwise_iff_getElem]
    intro i j hi hj hij
    simp only [List.length_range] at hi hj
    simp only [List.getElem_range, decide_eq_true_eq]
    rw [List.getD_eq_getElem _ _ hi, List.getD_eq_getElem _ _ hj]
    exact (List.pairwise_iff_getElem.1 hs i j hi hj hij).le
  have hxs : (List.range x.length).map (fun i => x.getD i 0) = x := by
    apply List.ext_getElem
    · simp
    · intro i h1 h2
      rw [List.getElem_map, List.getElem_range, List.getD_eq_getElem _ _ h2]
  have hh : x.head? = some (x.getD 0 0) := by
    rw [List.head?_eq_getElem?, List.getD_eq_getElem _ _ (by omega), List.getElem?_eq_getElem]
  have hl : x.getLast? = some (x.getD (x.length - 1) 0) := by
    rw [List.getLast?_eq_getElem?, List.getD_eq_getElem _ _ (by omega), List.getElem?_eq_getElem]
  have hlin : linear x y t = .ok (.ofFn s (fun p =>
      (y.get ((List.range x.length).getD (min (max (x.countP (fun v => decide (v < t))) 1) (x.length - 1)) 0 :: p) -
        y.get ((List.range x.length).getD (min (max (x.countP (fun v => decide (v < t))) 1) (x.length - 1) - 1) 0 :: p)) /
      (x.getD (min (max (x.countP (fun v => decide (v < t))) 1) (x.length - 1)) 0 -
        x.getD (min (max (x.countP (fun v => decide (v < t))) 1) (x.length - 1) - 1) 0) *
      (t - x.getD (min (max (x.countP (fun v => decide (v < t))) 1) (x.length - 1) - 1) 0) +
        y.get ((List.range x.length).getD (min (max (x.countP (fun v => decide (v < t))) 1) (x.length - 1) - 1) 0 :: p))) := by
    unfold linear
    rw [if_neg (by rw [hy]; simp)]
    simp only [hind, hxs, hh, hl]
    rw [if_neg (by push Not; exact ⟨h0, h1⟩), hy]
    rfl
  refine ⟨_, hlin, rfl, fun p hp => ?_⟩
  rw [get_ofFn hp]
  set c := x.countP (fun v => decide (v < t)) with hc
  have hci : ∀ i (hi : i < x.length), x.getD i 0 < t ↔ i < c := by
    intro i hi
    rw [List.getD_eq_getElem _ _ hi]
    exact countP_sorted hs t i hi
  have hinc : ∀ i j, i < j → j < x.length → x.getD i 0 < x.getD j 0 := by
    intro i j hij hj
    rw [List.getD_eq_getElem _ _ hj, List.getD_eq_getElem _ _ (by omega)]
    exact List.pairwise_iff_getElem.1 hs i j (by omega) hj hij
  have hr : ∀ i < x.length, (List.range x.length).getD i 0 = i := by
    intro i hi
    rw [List.getD_eq_getElem _ _ (by simpa using hi), List.getElem_range]
  have key : ∀ i, i + 1 < x.length → x.getD i 0 ≤ t → t ≤ x.getD (i + 1) 0 →
      (y.get ((List.range x.length).getD (min (max c 1) (x.length - 1)) 0 :: p) -
        y.get ((List.range x.length).getD (min (max c 1) (x.length - 1) - 1) 0 :: p)) /
      (x.getD (min (max c 1) (x.length - 1)) 0 - x.getD (min (max c 1) (x.length - 1) - 1) 0) *
      (t - x.getD (min (max c 1) (x.length - 1) - 1) 0) +
        y.get ((List.range x.length).getD (min (max c 1) (x.length - 1) - 1) 0 :: p) =
      y.get (i :: p) + (t - x.getD i 0) / (x.getD (i + 1) 0 - x.getD i 0) * (y.get ((i + 1) :: p) - y.get (i :: p)) := by
    intro i hi a0 a1
    have hnc : ¬ i + 1 < c := by
      rw [← hci (i + 1) hi]; exact not_lt.2 a1
    have hd := hinc i (i + 1) (by omega) hi
    rcases lt_or_eq_of_le a0 with hlt | heq
    · have : i < c := (hci i (by omega)).1 hlt
      have e : min (max c 1) (x.length - 1) = i + 1 := by omega
      rw [e, Nat.add_sub_cancel, hr _ hi, hr _ (by omega)]
      ring
    · have hnc' : ¬ i < c := by
        rw [← hci i (by omega), heq]; exact lt_irrefl t
      rcases Nat.eq_zero_or_pos i with hz | hz
      · subst hz
        have e : min (max c 1) (x.length - 1) = 1 := by omega
        rw [e, hr _ hi, hr _ (by omega)]
        simp only [Nat.sub_self, zero_add]
        ring
      · have h2 : i - 1 < c := by
          rw [← hci (i - 1) (by omega), ← heq]
          exact hinc (i - 1) i (by omega) (by omega)
        have e : min (max c 1) (x.length - 1) = i := by omega
        rw [e, hr _ (by omega), hr _ (by omega), heq]
        have hd' := hinc (i - 1) i (by omega) (by omega)
        rw [heq] at hd'
        have : t - x.getD (i - 1) 0 ≠ 0 := by linarith
        field_simp
        ring
  refine ⟨fun i hi hx => ?_, key⟩
  have hx' : x.getD i 0 = t := hx
  by_cases hi1 : i + 1 < x.length
  · have := key i hi1 hx'.le (by rw [← hx']; exact (hinc i (i + 1) (by omega) hi1).le)
    rw [hx', sub_self, zero_div, zero_mul, add_zero] at this
    exact this
  · have e : i - 1 + 1 = i := by omega
    have := key (i - 1) (by omega) (by rw [← hx']; exact (hinc (i - 1) i (by omega) hi).le) (by rw [e, hx'])
    rw [e, hx'] at this
    have hd := hinc (i - 1) i (by omega) hi
    rw [hx'] at hd
    rw [div_self (by linarith)] at this
    refine this.trans ?_
    ring

/-! ## Lists of arrays -/

theorem each_ok {α β : Type} {f : α → Except Err β} {P : α → β → Prop} {l : List α} (h : ∀ a ∈ l, ∃ b, f a = .ok b ∧ P a b) :
    ∃ bs, each f l = .ok bs ∧ List.Forall₂ P l bs := by
  induction l with
  | nil => exact ⟨[], rfl, .nil⟩
  | cons a l ih =>
    obtain ⟨b, h1, h2⟩ := h a (List.mem_cons_self ..)
    obtain ⟨bs, h3, h4⟩ := ih (fun x hx => h x (List.mem_cons_of_mem _ hx))
    exact ⟨b :: bs, by simp only [each, h1, h3], .cons h2 h4⟩

theorem stack_ok {l : List (ND ℝ)} {s : List Nat} (hne : l ≠ []) (hs : ∀ d ∈ l, d.shape = s) :
    ∃ r, stack l = .ok r ∧ r.shape = l.length :: s ∧ ∀ k (hk : k < l.length) p, Valid p s → r.get (k :: p) = l[k].get p := by
  cases l with
  | nil => exact absurd rfl hne
  | cons d l =>
    have hd : d.shape = s := hs d (List.mem_cons_self ..)
    refine ⟨.ofFn ((l.length + 1) :: d.shape) (fun p => ((d :: l).getD (p.headD 0) d).get p.tail), ?_, ?_, fun k hk p hp => ?_⟩
    · refine if_pos ?_
      rw [List.all_eq_true]
      intro e he
      rw [decide_eq_true_eq, hd]
      exact hs e (List.mem_cons_of_mem _ he)
    · show _ = _
      rw [← hd]; rfl
    · have hv : Valid (k :: p) ((l.length + 1) :: d.shape) := by rw [hd]; exact Valid.cons hk hp
      rw [get_ofFn hv]
      show ((d :: l).getD k d).get p = _
      rw [List.getD_eq_getElem _ _ hk]

theorem sub_one {a : ND ℝ} {n : Nat} {s : List Nat} (hs : a.shape = n :: s) {i : Nat} (hi : i < n) :
    ∃ r, sub a [i] = .ok r ∧ r.shape = s ∧ ∀ p, Valid p s → r.get p = a.get (i :: p) := by
  refine ⟨.ofFn s (fun p => a.get (i :: p)), ?_, rfl, fun p hp => get_ofFn hp⟩
  unfold sub
  rw [if_pos]
  · rw [hs]; rfl
  · refine ⟨by rw [ND.ndim, hs]; simp, fun k hk => ?_⟩
    have : k = 0 := by simpa using hk
    subst this
    rw [hs]
    exact hi

/-! ## One target, one-dimensional reference -/

theorem ravel_one (n i : Nat) : ravel [n] [i] = i := by simp [ravel, Numeric.sizeOf]

theorem elements_one {a : ND ℝ} {n : Nat} (hs : a.shape = [n]) : elements a = (List.range n).map (fun i => a.get [i]) := by
  unfold elements ND.size
  rw [hs]
  have : Numeric.sizeOf [n] = n := by simp [Numeric.sizeOf]
  rw [this]
  apply List.map_congr_left
  intro i _
  unfold ND.get
  rw [hs, ravel_one]

theorem getD_range_map (f : Nat → ℝ) (n i : Nat) (hi : i < n) : ((List.range n).map f).getD i 0 = f i := by
  rw [List.getD_eq_getElem _ _ (by simpa using hi)]
  simp

theorem OnPolygon.congr {n : Nat} {x x' y y' : Nat → ℝ} {t v : ℝ} (h : OnPolygon n x y t v) (hx : ∀ i < n, x i = x' i)
    (hy : ∀ i < n, y i = y' i) : OnPolygon n x' y' t v := by
  refine ⟨fun i hi e => (h.1 i hi ((hx i hi).trans e)).trans (hy i hi), fun i hi h0 h1 => ?_⟩
  rw [← hx i (by omega)] at h0
  rw [← hx (i + 1) hi] at h1
  rw [← hx i (by omega), ← hx (i + 1) hi, ← hy i (by omega), ← hy (i + 1) hi]
  exact h.2 i hi h0 h1

theorem onPolygon_grid {n : Nat} {x y : Nat → ℝ} (hx : Increasing n x) {i : Nat} (hi : i < n) : OnPolygon n x y (x i) (y i) := by
  have hinj : ∀ j < n, x j = x i → j = i := by
    intro j hj e
    rcases Nat.lt_trichotomy j i with h | h | h
    · have := hx j i h hi; linarith
    · exact h
    · have := hx i j h hj; linarith
  refine ⟨fun j hj e => by rw [hinj j hj e], fun j hj h0 h1 => ?_⟩
  have hd := hx j (j + 1) (by omega) hj
  have hji : j ≤ i := by
    by_contra hc
    have := hx i j (by omega) (by omega)
    linarith
  have hij : i ≤ j + 1 := by
    by_contra hc
    have := hx (j + 1) i (by omega) hi
    linarith
  rcases Nat.eq_or_lt_of_le hji with e | e
  · subst e; simp
  · have : i = j + 1 := by omega
    subst this
    rw [div_self (by linarith)]
    ring

theorem pairwise_of_increasing {n : Nat} {x : Nat → ℝ} (hx : Increasing n x) : ((List.range n).map x).Pairwise (· < ·) := by
  rw [List.pairwise_iff_getElem]
  intro i j hi hj hij
  simp only [List.length_map, List.length_range] at hi hj
  simp only [List.getElem_map, List.getElem_range]
  exact hx i j hij hj

theorem nearest_mem {l : List ℝ} {t : ℝ} (h : t ∈ l) : ∃ i : Nat, Container.nearest l t .none = .ok ((i : ℤ), t) ∧ l[i]? = some t := by
  obtain ⟨i, v, h1, h2, w, h3, h4⟩ := Container.c11_nearest l t (List.ne_nil_of_mem h)
  obtain ⟨k, hk, e⟩ := List.mem_iff_getElem.1 h
  rw [h2] at h3
  cases h3
  have hv : v = t := by
    have := (h4 k t (by rw [List.getElem?_eq_getElem hk, e])).1
    rw [sub_self, abs_zero] at this
    have := abs_eq_zero.1 (le_antisymm this (abs_nonneg _))
    linarith
  subst hv
  exact ⟨i, h1, h2⟩

theorem interp_one {array reference : ND ℝ} {n : Nat} {s : List Nat} {t : ℝ} (hr : reference.shape = [n])
    (hx : Increasing n (fun i => reference.get [i])) (ha : array.shape = n :: s) (hn : 0 < n)
    (h0 : reference.get [0] ≤ t) (h1 : t ≤ reference.get [n - 1]) :
    ∃ r, applyInterp1d array reference t = .ok r ∧ r.shape = s ∧ ∀ p, Valid p s →
      OnPolygon n (fun i => reference.get [i]) (fun i => array.get (i :: p)) t (r.get p) := by
  classical
  unfold applyInterp1d
  rw [elements_one hr]
  by_cases hm : t ∈ (List.range n).map (fun i => reference.get [i])
  · rw [if_pos hm]
    obtain ⟨i, h2, h3⟩ := nearest_mem hm
    rw [h2]
    obtain ⟨hi, e⟩ := List.getElem?_eq_some_iff.1 h3
    simp only [List.length_map, List.length_range] at hi
    simp only [List.getElem_map, List.getElem_range] at e
    have hu : unravel reference.shape (Int.toNat (i : ℤ)) = [i] := by
      rw [hr, Int.toNat_natCast]
      have := unravel_ravel (show Valid [i] [n] from .cons hi .nil)
      rwa [ravel_one] at this
    simp only [hu]
    obtain ⟨r, k1, k2, k3⟩ := sub_one ha hi
    refine ⟨r, k1, k2, fun p hp => ?_⟩
    rw [k3 p hp, ← e]
    exact onPolygon_grid (x := fun i => reference.get [i]) (y := fun i => array.get (i :: p)) hx hi
  · rw [if_neg hm, hr]
    simp only
    have hn2 : n ≠ 1 := by
      rintro rfl
      exact hm (List.mem_map.2 ⟨0, by simp, le_antisymm h0 h1⟩)
    rw [if_neg hn2]
    have hlen : ((List.range n).map (fun i => reference.get [i])).length = n := by simp
    obtain ⟨r, k1, k2, k3⟩ := linear_ok (x := (List.range n).map (fun i => reference.get [i])) (y := array) (t := t) (s := s)
      (pairwise_of_increasing hx) (by rw [hlen]; omega) (by rw [ha, hlen])
      (by rw [getD_range_map (fun i => reference.get [i]) _ _ hn]; exact h0)
      (by rw [hlen, getD_range_map (fun i => reference.get [i]) _ _ (by omega)]; exact h1)
    refine ⟨r, k1, k2, fun p hp => ?_⟩
    have := k3 p hp
    rw [hlen] at this
    exact this.congr (fun i hi => getD_range_map (fun i => reference.get [i]) _ _ hi) (fun _ _ => rfl)

/-! ## One target, two-dimensional reference -/

theorem ravel_two (m n i j : Nat) : ravel [m, n] [i, j] = i * n + j := by simp [ravel, Numeric.sizeOf]

theorem mem_elements_two {a : ND ℝ} {m n : Nat} (hs : a.shape = [m, n]) (t : ℝ) :
    t ∈ elements a ↔ ∃ i < m, ∃ j < n, a.get [i, j] = t := by
  have hsz : Numeric.sizeOf [m, n] = m * n := by simp [Numeric.sizeOf]
  unfold elements ND.size
  rw [hs, hsz]
  simp only [List.mem_map, List.mem_range]
  constructor
  · rintro ⟨k, hk, e⟩
    have hn : 0 < n := by
      rcases Nat.eq_zero_or_pos n with h | h
      · subst h; simp at hk
      · exact h
    refine ⟨k / n, Nat.div_lt_of_lt_mul (by rwa [Nat.mul_comm] at hk), k % n, Nat.mod_lt _ hn, ?_⟩
    unfold ND.get
    rw [hs, ravel_two, Nat.div_add_mod', e]
  · rintro ⟨i, hi, j, hj, e⟩
    refine ⟨i * n + j, ?_, ?_⟩
    · calc i * n + j < i * n + n := by omega
        _ = (i + 1) * n := by ring
        _ ≤ m * n := Nat.mul_le_mul_right _ hi
    · rw [← e, ND.get, hs, ravel_two]

theorem interp_two {array reference : ND ℝ} {m m' n : Nat} {s : List Nat} {t : ℝ} (hr : reference.shape = [m, n])
    (hx : ∀ i < m, Increasing n (fun j => reference.get [i, j])) (ha : array.shape = m' :: n :: s) (hm : m' ≤ m)
    (hm0 : 0 < m') (hn : 2 ≤ n) (ht : ∀ i < m, ∀ j < n, reference.get [i, j] ≠ t)
    (h0 : ∀ i < m', reference.get [i, 0] ≤ t) (h1 : ∀ i < m', t ≤ reference.get [i, n - 1]) :
    ∃ r, applyInterp1d array reference t = .ok r ∧ r.shape = m' :: s ∧ ∀ i < m', ∀ p, Valid p s →
      OnPolygon n (fun j => reference.get [i, j]) (fun j => array.get (i :: j :: p)) t (r.get (i :: p)) := by
  classical
  unfold applyInterp1d
  rw [if_neg (fun h => by
    obtain ⟨i, hi, j, hj, e⟩ := (mem_elements_two hr t).1 h
    exact ht i hi j hj e)]
  rw [hr]
  simp only [ha, List.headD_cons, Nat.min_eq_right hm]
  obtain ⟨l, e1, e2⟩ := each_ok (f := rowInterp array reference t) (l := List.range m')
    (P := fun i r => r.shape = s ∧ ∀ p, Valid p s →
      OnPolygon n (fun j => reference.get [i, j]) (fun j => array.get (i :: j :: p)) t (r.get p)) (fun i hi => by
    rw [List.mem_range] at hi
    obtain ⟨x, a1, a2, a3⟩ := sub_one hr (show i < m by omega)
    obtain ⟨y, b1, b2, b3⟩ := sub_one ha hi
    unfold rowInterp
    simp only [a1, b1]
    rw [elements_one a2]
    have hlen : ((List.range n).map (fun j => x.get [j])).length = n := by simp
    have hxg : ∀ j < n, x.get [j] = reference.get [i, j] := fun j hj => a3 [j] (.cons hj .nil)
    have hinc : Increasing n (fun j => x.get [j]) := by
      intro j k hjk hk
      simp only
      rw [hxg j (by omega), hxg k hk]
      exact hx i (by omega) j k hjk hk
    obtain ⟨r, k1, k2, k3⟩ := linear_ok (x := (List.range n).map (fun j => x.get [j])) (y := y) (t := t) (s := s)
      (pairwise_of_increasing hinc) (by rw [hlen]; omega) (by rw [b2, hlen])
      (by rw [getD_range_map (fun j => x.get [j]) _ _ (by omega), hxg 0 (by omega)]; exact h0 i hi)
      (by rw [hlen, getD_range_map (fun j => x.get [j]) _ _ (by omega), hxg _ (by omega)]; exact h1 i hi)
    refine ⟨r, k1, k2, fun p hp => ?_⟩
    have := k3 p hp
    rw [hlen] at this
    exact this.congr (fun j hj => by
      rw [getD_range_map (fun j => x.get [j]) _ _ hj, hxg j hj]) (fun j hj => b3 (j :: p) (Valid.cons hj hp)))
  rw [e1]
  simp only
  have hlen : l.length = m' := by rw [← e2.length_eq]; simp
  have hget : ∀ i (hi : i < l.length), (l[i]).shape = s ∧ ∀ p, Valid p s →
      OnPolygon n (fun j => reference.get [i, j]) (fun j => array.get (i :: j :: p)) t (l[i].get p) := by
    intro i hi
    have := (List.forall₂_iff_get.1 e2).2 i (by simpa [hlen] using hi) hi
    simpa using this
  obtain ⟨r, k1, k2, k3⟩ := stack_ok (l := l) (s := s) (by rintro rfl; simp at hlen; omega) (fun d hd => by
    obtain ⟨i, hi, rfl⟩ := List.mem_iff_getElem.1 hd
    exact (hget i hi).1)
  refine ⟨r, k1, by rw [k2, hlen], fun i hi p hp => ?_⟩
  rw [k3 i (by rw [hlen]; exact hi) p hp]
  exact (hget i (by rw [hlen]; exact hi)).2 p hp

/-! ## Moving axes -/

section Move

variable {κ : Type} [DecidableEq κ]

/-- The array `a` has these dimensions with these sizes, and `g pos` at each named position. -/
structure HasDims (D : List κ) (size : κ → Nat) (g : (κ → Nat) → ℝ) (a : ND ℝ) : Prop where
  nodup : D.Nodup
  shape : a.shape = D.map size
  get : ∀ pos, (∀ d ∈ D, pos d < size d) → a.get (D.map pos) = g pos

theorem transpose_dims {D N : List κ} {size : κ → Nat} {g : (κ → Nat) → ℝ} {a : ND ℝ} (h : HasDims D size g a)
    (hp : N.Perm D) : ∃ d, a.transpose (N.map (fun n => D.idxOf n)) = .ok d ∧ HasDims N size g d := by
  have wn : WellNamed (⟨a, D, false⟩ : Named κ ℝ) := ⟨h.nodup, by simp [h.shape]⟩
  have hsz : ∀ n ∈ D, (⟨a, D, false⟩ : Named κ ℝ).shapeGet n = size n := by
    have e := (shape_eq wn).symm.trans h.shape
    intro n hn
    exact (List.map_inj_left.1 e) n hn
  obtain ⟨d, h1, h2, h3⟩ := transpose_perm wn hp
  refine ⟨d, h1, hp.nodup_iff.2 h.nodup, ?_, fun pos hpos => ?_⟩
  · rw [h2]
    exact List.map_congr_left (fun n hn => hsz n (hp.mem_iff.1 hn))
  · rw [h3 pos (fun n hn => by rw [hsz n hn]; exact hpos n (hp.mem_iff.2 hn))]
    exact h.get pos (fun n hn => hpos n (hp.mem_iff.2 hn))

theorem moveOrder_in {src dst is js rest : List Nat} (h : ∀ i ∈ is, i ∈ dst) :
    moveOrder src dst (is ++ js) rest = is.map (fun i => src.getD (dst.idxOf i) 0) ++ moveOrder src dst js rest := by
  induction is with
  | nil => rfl
  | cons i is ih =>
    show moveOrder src dst (i :: (is ++ js)) rest = _
    refine (if_pos (h i (List.mem_cons_self ..))).trans ?_
    rw [ih (fun x hx => h x (List.mem_cons_of_mem _ hx))]
    rfl

theorem moveOrder_out {src dst is rest : List Nat} (h : ∀ i ∈ is, i ∉ dst) (hl : is.length = rest.length) :
    moveOrder src dst is rest = rest := by
  induction is generalizing rest with
  | nil => cases rest with
    | nil => rfl
    | cons => simp at hl
  | cons i is ih => cases rest with
    | nil => simp at hl
    | cons r rs =>
      refine (if_neg (h i (List.mem_cons_self ..))).trans ?_
      show r :: moveOrder src dst is rs = _
      rw [ih (fun x hx => h x (List.mem_cons_of_mem _ hx)) (by simpa using hl)]

theorem map_idxOf {D : List κ} (hn : D.Nodup) : D.map (fun d => D.idxOf d) = List.range D.length := by
  apply List.ext_getElem
  · simp
  · intro i h1 h2
    simp only [List.getElem_map, List.getElem_range]
    exact hn.idxOf_getElem i (by simpa using h1)

theorem idxOf_range {k i : Nat} (h : i < k) : (List.range k).idxOf i = i := by
  have := List.nodup_range.idxOf_getElem (xs := List.range k) i (by simpa using h)
  simpa using this

/-- The dimensions of the reference first, then the others. -/
def front (D R : List κ) : List κ := R ++ D.filter (fun d => decide (d ∉ R))

theorem front_perm {D R : List κ} (hD : D.Nodup) (hR : R.Nodup) (h : ∀ d ∈ R, d ∈ D) : (front D R).Perm D := by
  rw [List.perm_ext_iff_of_nodup _ hD]
  · intro d
    unfold front
    simp only [List.mem_append, List.mem_filter, decide_eq_true_eq]
    constructor
    · rintro (h1 | h1)
      · exact h d h1
      · exact h1.1
    · intro h1
      by_cases h2 : d ∈ R
      · exact .inl h2
      · exact .inr ⟨h1, h2⟩
  · refine List.nodup_append.2 ⟨hR, hD.filter _, ?_⟩
    intro a ha b hb hab
    subst hab
    simp [ha] at hb

theorem mem_map_idxOf {D R : List κ} (h : ∀ d ∈ R, d ∈ D) {d : κ} (hd : d ∈ D) :
    D.idxOf d ∈ R.map (fun r => D.idxOf r) ↔ d ∈ R := by
  rw [List.mem_map]
  constructor
  · rintro ⟨r, hr, e⟩
    have := (List.idxOf_inj (h r hr)).1 e
    rwa [← this]
  · intro hr
    exact ⟨d, hr, rfl⟩

theorem order_front {D R : List κ} (hD : D.Nodup) (hR : R.Nodup) (h : ∀ d ∈ R, d ∈ D) :
    moveOrder (R.map (fun d => D.idxOf d)) (List.range R.length) (List.range D.length)
      ((List.range D.length).filter (fun i => decide (i ∉ R.map (fun d => D.idxOf d)))) =
      (front D R).map (fun d => D.idxOf d) := by
  have hle : R.length ≤ D.length := (List.subperm_of_subset hR h).length_le
  have hrest : (List.range D.length).filter (fun i => decide (i ∉ R.map (fun d => D.idxOf d))) =
      (D.filter (fun d => decide (d ∉ R))).map (fun d => D.idxOf d) := by
    rw [← map_idxOf hD, List.filter_map]
    congr 1
    apply List.filter_congr
    intro d hd
    exact decide_eq_decide.2 (not_congr (mem_map_idxOf h hd))
  have hlen : (D.filter (fun d => decide (d ∉ R))).length = D.length - R.length := by
    have := (front_perm hD hR h).length_eq
    unfold front at this
    rw [List.length_append] at this
    omega
  have hr : List.range D.length = List.range R.length ++ (List.range (D.length - R.length)).map (R.length + ·) := by
    rw [← List.range_add]
    congr 1
    omega
  rw [hrest, hr, moveOrder_in (by simp), moveOrder_out (by simp)
    (by rw [List.length_map, List.length_map, List.length_range, hlen])]
  unfold front
  rw [List.map_append]
  congr 1
  apply List.ext_getElem
  · simp
  · intro i h1 h2
    have hi : i < R.length := by simpa using h1
    simp only [List.getElem_map, List.getElem_range]
    rw [idxOf_range hi, List.getD_eq_getElem _ _ (by simpa using hi)]
    simp

theorem order_back {D R : List κ} (hD : D.Nodup) (hR : R.Nodup) (h : ∀ d ∈ R, d ∈ D) :
    moveOrder (List.range R.length) (R.map (fun d => D.idxOf d)) (List.range D.length)
      ((List.range D.length).filter (fun i => decide (i ∉ List.range R.length))) =
      D.map (fun d => (front D R).idxOf d) := by
  have hN := (front_perm hD hR h)
  have hNn : (front D R).Nodup := hN.nodup_iff.2 hD
  have hle : R.length ≤ D.length := (List.subperm_of_subset hR h).length_le
  have hlen : (D.filter (fun d => decide (d ∉ R))).length = D.length - R.length := by
    have := hN.length_eq
    unfold front at this
    rw [List.length_append] at this
    omega
  have hrest : (List.range D.length).filter (fun i => decide (i ∉ List.range R.length)) =
      (D.filter (fun d => decide (d ∉ R))).map (fun d => (front D R).idxOf d) := by
    have hr : List.range D.length = List.range R.length ++ (List.range (D.length - R.length)).map (R.length + ·) := by
      rw [← List.range_add]
      congr 1
      omega
    have e1 : (List.range D.length).filter (fun i => decide (i ∉ List.range R.length)) =
        (List.range (D.length - R.length)).map (R.length + ·) := by
      rw [hr, List.filter_append]
      have a1 : (List.range R.length).filter (fun i => decide (i ∉ List.range R.length)) = [] := by
        rw [List.filter_eq_nil_iff]; intro a ha; simp at ha; simp [ha]
      rw [a1, List.nil_append, List.filter_eq_self]
      intro a ha
      simp only [List.mem_map, List.mem_range] at ha
      obtain ⟨b, _, rfl⟩ := ha
      simp
    rw [e1, ← hlen]
    apply List.ext_getElem
    · simp
    · intro i h1 h2
      have hi : i < (D.filter (fun d => decide (d ∉ R))).length := by simpa using h1
      simp only [List.getElem_map, List.getElem_range]
      have hlt : R.length + i < (front D R).length := by unfold front; rw [List.length_append]; omega
      have := hNn.idxOf_getElem (R.length + i) hlt
      have e2 : (front D R)[R.length + i] = (D.filter (fun d => decide (d ∉ R)))[i] := by
        refine (List.getElem_append_right (as := R) (by omega)).trans ?_
        simp
      rw [e2] at this
      exact this.symm
  rw [hrest, ← map_idxOf hD]
  have key : ∀ E : List κ, (∀ d ∈ E, d ∈ D) →
      moveOrder (List.range R.length) (R.map (fun d => D.idxOf d)) (E.map (fun d => D.idxOf d))
        ((E.filter (fun d => decide (d ∉ R))).map (fun d => (front D R).idxOf d)) =
      E.map (fun d => (front D R).idxOf d) := by
    intro E hE
    induction E with
    | nil => rfl
    | cons d E ih =>
      have hd := hE d (List.mem_cons_self ..)
      have ih := ih (fun x hx => hE x (List.mem_cons_of_mem _ hx))
      simp only [List.map_cons]
      by_cases hdr : d ∈ R
      · rw [List.filter_cons_of_neg (by simp [hdr])]
        refine (if_pos ((mem_map_idxOf h hd).2 hdr)).trans ?_
        rw [ih]
        congr 1
        have e1 : (R.map (fun d => D.idxOf d)).idxOf (D.idxOf d) = R.idxOf d := by
          have hmn : (R.map (fun d => D.idxOf d)).Nodup :=
            hR.map_on (fun x hx y _ e => (List.idxOf_inj (h x hx)).1 e)
          have hlt := List.idxOf_lt_length_of_mem hdr
          have := hmn.idxOf_getElem (R.idxOf d) (by simpa using hlt)
          rw [List.getElem_map, List.getElem_idxOf] at this
          exact this
        rw [e1, List.getD_eq_getElem _ _ (by simpa using List.idxOf_lt_length_of_mem hdr), List.getElem_range]
        unfold front
        rw [List.idxOf_append_of_mem hdr]
      · rw [List.filter_cons_of_pos (by simp [hdr]), List.map_cons]
        refine (if_neg (fun hc => hdr ((mem_map_idxOf h hd).1 hc))).trans ?_
        exact congrArg _ ih
  exact key D (fun d hd => hd)

theorem moveaxis_front {D R : List κ} {size : κ → Nat} {g : (κ → Nat) → ℝ} {a : ND ℝ} (ha : HasDims D size g a)
    (hR : R.Nodup) (h : ∀ d ∈ R, d ∈ D) :
    ∃ b, moveaxis a (R.map (fun d => D.idxOf d)) (List.range R.length) = .ok b ∧ HasDims (front D R) size g b := by
  have hnd : a.ndim = D.length := by rw [ND.ndim, ha.shape, List.length_map]
  unfold moveaxis
  rw [hnd, order_front ha.nodup hR h]
  exact transpose_dims ha (front_perm ha.nodup hR h)

theorem moveaxis_back {D R : List κ} {size : κ → Nat} {g : (κ → Nat) → ℝ} {a : ND ℝ} (hD : D.Nodup)
    (ha : HasDims (front D R) size g a) (hR : R.Nodup) (h : ∀ d ∈ R, d ∈ D) :
    ∃ b, moveaxis a (List.range R.length) (R.map (fun d => D.idxOf d)) = .ok b ∧ HasDims D size g b := by
  have hp := front_perm hD hR h
  have hnd : a.ndim = D.length := by rw [ND.ndim, ha.shape, List.length_map, hp.length_eq]
  unfold moveaxis
  rw [hnd, order_back hD hR h]
  exact transpose_dims ha hp.symm

theorem hasDims_self {D : List κ} {size : κ → Nat} {a : ND ℝ} (hD : D.Nodup) (hs : a.shape = D.map size) :
    HasDims D size (fun pos => a.get (D.map pos)) a := ⟨hD, hs, fun _ _ => rfl⟩

theorem front_one {D : List κ} {d : κ} : front D [d] = d :: D.filter (fun e => decide (e ∉ [d])) := rfl

theorem front_two {D : List κ} {c d : κ} : front D [c, d] = c :: d :: D.filter (fun e => decide (e ∉ [c, d])) := rfl

/-- Interpolation along the dimension `d`, whose coordinates are the reference. -/
theorem update_one {D : List κ} {size : κ → Nat} {g : (κ → Nat) → ℝ} {a reference : ND ℝ} (ha : HasDims D size g a)
    {d : κ} (hd : d ∈ D) (hr : reference.shape = [size d]) (hx : Increasing (size d) (fun i => reference.get [i]))
    (hn : 0 < size d) {targets : List ℝ} (hT : targets ≠ [])
    (h0 : ∀ t ∈ targets, reference.get [0] ≤ t) (h1 : ∀ t ∈ targets, t ≤ reference.get [size d - 1]) :
    ∃ b, updateInterpolation D a [d] reference targets = .ok b ∧
      b.shape = D.map (Function.update size d targets.length) ∧
      ∀ pos, (∀ e ∈ D, pos e < Function.update size d targets.length e) → ∀ t, targets[pos d]? = some t →
        OnPolygon (size d) (fun i => reference.get [i]) (fun i => g (Function.update pos d i)) t (b.get (D.map pos)) := by
  have hR : ([d] : List κ).Nodup := List.nodup_singleton d
  have hsub : ∀ e ∈ [d], e ∈ D := by simpa using hd
  obtain ⟨x, hx1, hx2⟩ := moveaxis_front ha hR hsub
  have hfn : (front D [d]).Nodup := hx2.nodup
  obtain ⟨hdr, hrn⟩ := List.nodup_cons.1 (front_one (D := D) (d := d) ▸ hfn)
  have hxs : x.shape = size d :: (D.filter (fun e => decide (e ∉ [d]))).map size := by rw [hx2.shape]; rfl
  obtain ⟨l, hl1, hl2⟩ := each_ok (f := applyInterp1d x reference) (l := targets)
    (P := fun t r => r.shape = (D.filter (fun e => decide (e ∉ [d]))).map size ∧
      ∀ p, Valid p ((D.filter (fun e => decide (e ∉ [d]))).map size) →
        OnPolygon (size d) (fun i => reference.get [i]) (fun i => x.get (i :: p)) t (r.get p))
    (fun t ht => interp_one hr hx hxs hn (h0 t ht) (h1 t ht))
  have hlen : l.length = targets.length := hl2.length_eq.symm
  have hlne : l ≠ [] := by
    rintro rfl
    exact hT (List.length_eq_zero_iff.1 hlen.symm)
  have hget := (List.forall₂_iff_get.1 hl2).2
  obtain ⟨y, hy1, hy2, hy3⟩ := stack_ok hlne (s := (D.filter (fun e => decide (e ∉ [d]))).map size) (fun r hr => by
    obtain ⟨i, hi, rfl⟩ := List.mem_iff_getElem.1 hr
    exact (hget i (by omega) hi).1)
  have hsz : ∀ e ∈ D.filter (fun e => decide (e ∉ [d])), Function.update size d targets.length e = size e := by
    intro e he
    rw [Function.update_of_ne]
    rintro rfl
    exact hdr he
  have hys : y.shape = (front D [d]).map (Function.update size d targets.length) := by
    rw [hy2, front_one, List.map_cons, Function.update_self, hlen, List.map_congr_left hsz]
  obtain ⟨b, hb1, hb2⟩ := moveaxis_back (R := [d]) ha.nodup (hasDims_self hfn hys) hR hsub
  refine ⟨b, ?_, hb2.shape, fun pos hpos t ht => ?_⟩
  · unfold updateInterpolation
    rw [if_neg (by push Not; exact ⟨by simp, hsub⟩)]
    have hnd : ¬ reference.ndim = 2 := by rw [ND.ndim, hr]; simp
    simp only [hx1, applyInterpolation, hl1, hy1, if_neg hnd]
    exact hb1
  · rw [hb2.get pos hpos, front_one, List.map_cons]
    have hk : pos d < l.length := by
      have := hpos d hd
      rw [Function.update_self] at this
      omega
    have hv : Valid ((D.filter (fun e => decide (e ∉ [d]))).map pos) ((D.filter (fun e => decide (e ∉ [d]))).map size) :=
      valid_map.2 (fun e he => by
        have := hpos e (List.mem_filter.1 he).1
        rwa [hsz e he] at this)
    rw [hy3 (pos d) hk _ hv]
    obtain ⟨ht1, ht2⟩ := List.getElem?_eq_some_iff.1 ht
    have := (hget (pos d) ht1 hk).2 _ hv
    simp only [List.get_eq_getElem] at this
    rw [ht2] at this
    refine this.congr (fun _ _ => rfl) (fun i hi => ?_)
    have e : i :: (D.filter (fun e => decide (e ∉ [d]))).map pos = (front D [d]).map (Function.update pos d i) := by
      rw [front_one, List.map_cons, Function.update_self]
      congr 1
      apply List.map_congr_left
      intro e he
      rw [Function.update_of_ne]
      rintro rfl
      exact hdr he
    rw [e]
    apply hx2.get
    intro e he
    rw [front_one] at he
    rcases List.mem_cons.1 he with rfl | he
    · rw [Function.update_self]; exact hi
    · have hne : e ≠ d := by rintro rfl; exact hdr he
      rw [Function.update_of_ne hne]
      have := hpos e (List.mem_filter.1 he).1
      rwa [hsz e he] at this

end Move

theorem swapaxes_ok {a : ND ℝ} {m n : Nat} {s : List Nat} (hs : a.shape = m :: n :: s) :
    ∃ b, swapaxes a = .ok b ∧ b.shape = n :: m :: s ∧ ∀ i j p, Valid (i :: j :: p) (m :: n :: s) →
      b.get (j :: i :: p) = a.get (i :: j :: p) := by
  have hnd : a.ndim = s.length + 2 := by rw [ND.ndim, hs]; rfl
  have hD : (List.range (s.length + 2)) = 0 :: 1 :: (List.range s.length).map (· + 2) := by
    rw [List.range_succ_eq_map, List.range_succ_eq_map]
    simp [Function.comp_def]
  have hgetD : ∀ q : List Nat, q.length = s.length →
      ((List.range s.length).map (· + 2)).map (fun k => (m :: n :: q).getD k 0) = q := by
    intro q hq
    rw [List.map_map]
    apply List.ext_getElem
    · simp [hq]
    · intro i h1 h2
      simp [List.getD_eq_getElem?_getD, h2]
  have ha : HasDims (List.range (s.length + 2)) (fun k => (m :: n :: s).getD k 0) (fun pos => a.get ((List.range (s.length + 2)).map pos)) a := by
    refine hasDims_self List.nodup_range ?_
    rw [hs, hD, List.map_cons, List.map_cons, hgetD s rfl]
    rfl
  have hperm : (1 :: 0 :: (List.range s.length).map (· + 2)).Perm (List.range (s.length + 2)) := by
    rw [hD]
    exact List.Perm.swap ..
  obtain ⟨b, hb1, hb2⟩ := transpose_dims ha hperm
  have hmap : (1 :: 0 :: (List.range s.length).map (· + 2)).map (fun k => (List.range (s.length + 2)).idxOf k) =
      1 :: 0 :: (List.range s.length).map (· + 2) := by
    refine (List.map_congr_left (g := id) (fun k hk => ?_)).trans (List.map_id _)
    exact idxOf_range (List.mem_range.1 (hperm.mem_iff.1 hk))
  rw [hmap] at hb1
  refine ⟨b, ?_, ?_, fun i j p hv => ?_⟩
  · unfold swapaxes
    rw [hnd, if_neg (by omega)]
    exact hb1
  · rw [hb2.shape, List.map_cons, List.map_cons, hgetD s rfl]
    rfl
  · have hlen : p.length = s.length := by
      have := hv.length_eq
      simpa using this
    have hp2 : ∀ q : List Nat, q.length = s.length →
      ((List.range s.length).map (· + 2)).map (fun k => (i :: j :: q).getD k 0) = q := by
      intro q hq
      rw [List.map_map]
      apply List.ext_getElem
      · simp [hq]
      · intro i h1 h2
        simp [List.getD_eq_getElem?_getD, h2]
    have := hb2.get (fun k => (i :: j :: p).getD k 0) (fun k hk => by
      rw [hperm.mem_iff, List.mem_range] at hk
      have h2 := (List.forall₂_iff_get.1 hv).2 k (by simp [hlen]; omega) (by simp; omega)
      simp only [List.get_eq_getElem] at h2
      rw [List.getD_eq_getElem _ _ (by simp [hlen]; omega), List.getD_eq_getElem _ _ (by simp; omega)]
      exact h2)
    rw [List.map_cons, List.map_cons, hp2 p hlen, hD, List.map_cons, List.map_cons, hp2 p hlen] at this
    exact this

section Move2

variable {κ : Type} [DecidableEq κ]

/-- Interpolation along the dimension `d` with respect to a reference that depends on `c` and on `d`, to values that the
reference does not contain. -/
theorem update_two {D : List κ} {size : κ → Nat} {g : (κ → Nat) → ℝ} {a reference : ND ℝ} (ha : HasDims D size g a)
    {c d : κ} (hc : c ∈ D) (hd : d ∈ D) (hcd : c ≠ d) {m : Nat} (hr : reference.shape = [m, size d]) (hm : size c ≤ m)
    (hm0 : 0 < size c) (hn : 2 ≤ size d) (hx : ∀ i < m, Increasing (size d) (fun j => reference.get [i, j]))
    {targets : List ℝ} (hT : targets ≠ []) (ht : ∀ t ∈ targets, ∀ i < m, ∀ j < size d, reference.get [i, j] ≠ t)
    (h0 : ∀ t ∈ targets, ∀ i < size c, reference.get [i, 0] ≤ t)
    (h1 : ∀ t ∈ targets, ∀ i < size c, t ≤ reference.get [i, size d - 1]) :
    ∃ b, updateInterpolation D a [c, d] reference targets = .ok b ∧
      b.shape = D.map (Function.update size d targets.length) ∧
      ∀ pos, (∀ e ∈ D, pos e < Function.update size d targets.length e) → ∀ t, targets[pos d]? = some t →
        OnPolygon (size d) (fun j => reference.get [pos c, j]) (fun j => g (Function.update pos d j)) t (b.get (D.map pos)) := by
  have hR : ([c, d] : List κ).Nodup := by simp [hcd]
  have hsub : ∀ e ∈ [c, d], e ∈ D := by simp [hc, hd]
  obtain ⟨x, hx1, hx2⟩ := moveaxis_front ha hR hsub
  have hfn : (front D [c, d]).Nodup := hx2.nodup
  obtain ⟨hcr, hrn⟩ := List.nodup_cons.1 (front_two (D := D) (c := c) (d := d) ▸ hfn)
  obtain ⟨hdr, hrn⟩ := List.nodup_cons.1 hrn
  have hcr := fun h => hcr (List.mem_cons_of_mem _ h)
  set rest := D.filter (fun e => decide (e ∉ [c, d])) with hrest
  have hF : front D [c, d] = c :: d :: rest := rfl
  have hxs : x.shape = size c :: size d :: rest.map size := by rw [hx2.shape]; rfl
  obtain ⟨l, hl1, hl2⟩ := each_ok (f := applyInterp1d x reference) (l := targets)
    (P := fun t r => r.shape = size c :: rest.map size ∧ ∀ i < size c, ∀ p, Valid p (rest.map size) →
      OnPolygon (size d) (fun j => reference.get [i, j]) (fun j => x.get (i :: j :: p)) t (r.get (i :: p)))
    (fun t htt => interp_two hr hx hxs hm hm0 hn (ht t htt) (h0 t htt) (h1 t htt))
  have hlen : l.length = targets.length := hl2.length_eq.symm
  have hlne : l ≠ [] := by
    rintro rfl
    exact hT (List.length_eq_zero_iff.1 hlen.symm)
  have hget := (List.forall₂_iff_get.1 hl2).2
  obtain ⟨y, hy1, hy2, hy3⟩ := stack_ok hlne (s := size c :: rest.map size) (fun r hr => by
    obtain ⟨i, hi, rfl⟩ := List.mem_iff_getElem.1 hr
    exact (hget i (by omega) hi).1)
  obtain ⟨z, hz1, hz2, hz3⟩ := swapaxes_ok hy2
  have hsz : ∀ e ∈ rest, Function.update size d targets.length e = size e := by
    intro e he
    rw [Function.update_of_ne]
    rintro rfl
    exact hdr he
  have hzs : z.shape = (front D [c, d]).map (Function.update size d targets.length) := by
    rw [hz2, hF, List.map_cons, List.map_cons, Function.update_self, hlen, List.map_congr_left hsz, Function.update_of_ne hcd]
  obtain ⟨b, hb1, hb2⟩ := moveaxis_back (R := [c, d]) ha.nodup (hasDims_self hfn hzs) hR hsub
  refine ⟨b, ?_, hb2.shape, fun pos hpos t htt => ?_⟩
  · unfold updateInterpolation
    rw [if_neg (by push Not; exact ⟨by simp, hsub⟩)]
    have hnd : reference.ndim = 2 := by rw [ND.ndim, hr]; rfl
    simp only [hx1, applyInterpolation, hl1, hy1, if_pos hnd, hz1]
    exact hb1
  · rw [hb2.get pos hpos, hF, List.map_cons, List.map_cons]
    have hk : pos d < l.length := by
      have := hpos d hd
      rw [Function.update_self] at this
      omega
    have hpc : pos c < size c := by
      have := hpos c hc
      rwa [Function.update_of_ne hcd] at this
    have hv : Valid (rest.map pos) (rest.map size) :=
      valid_map.2 (fun e he => by
        have := hpos e (List.mem_filter.1 he).1
        rwa [hsz e he] at this)
    rw [hz3 (pos d) (pos c) _ (.cons hk (.cons hpc hv)), hy3 (pos d) hk _ (.cons hpc hv)]
    obtain ⟨ht1, ht2⟩ := List.getElem?_eq_some_iff.1 htt
    have := (hget (pos d) ht1 hk).2 (pos c) hpc _ hv
    simp only [List.get_eq_getElem] at this
    rw [ht2] at this
    refine this.congr (fun _ _ => rfl) (fun i hi => ?_)
    have e : pos c :: i :: rest.map pos = (front D [c, d]).map (Function.update pos d i) := by
      rw [hF, List.map_cons, List.map_cons, Function.update_self, Function.update_of_ne hcd]
      congr 2
      apply List.map_congr_left
      intro e he
      rw [Function.update_of_ne]
      rintro rfl
      exact hdr he
    rw [e]
    apply hx2.get
    intro e he
    rw [hF] at he
    rcases List.mem_cons.1 he with rfl | he
    · rw [Function.update_of_ne hcd]; exact hpc
    rcases List.mem_cons.1 he with rfl | he
    · rw [Function.update_self]; exact hi
    · have hne : e ≠ d := by rintro rfl; exact hdr he
      rw [Function.update_of_ne hne]
      have := hpos e (List.mem_filter.1 he).1
      rwa [hsz e he] at this

end Move2

end Eprem.Interpolate
