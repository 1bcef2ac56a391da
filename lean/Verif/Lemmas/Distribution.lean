import Verif.Model.Distribution
import Verif.Lemmas.Gradient
import Verif.Lemmas.ConvertCast
import Verif.Lemmas.ObservableAlgebra
import Verif.Props.Fluence
import Verif.Props.Transpose
import Verif.Props.Subscript

/-!
# Lemmas for the moments of the distribution (C91, C92)
-/

namespace Eprem.Observable

open Eprem Eprem.Symbolic Eprem.Metric Eprem.Numeric Eprem.Measured Eprem.Physical

variable {κ ν : Type} [DecidableEq κ] {G : Grid κ ν}

theorem merge_sublist' {x y : List κ} (hx : x.Nodup) (h : y.Sublist x) : Container.merge y x = .ok x := by
  have hy : y.Nodup := hx.sublist h
  cases hm : Container.merge y x with
  | error e =>
    refine absurd ((Container.c09_merge_fails_iff y x hy hx).1 ⟨e, hm⟩) ?_
    rintro ⟨a, b, h1, h2⟩
    exact before_asymm hx (h1.trans h) h2
  | ok r =>
    have hM := Container.c09_merge_ok y x r hy hx hm
    have : x.Perm r := (List.perm_ext_iff_of_nodup hx hM.nodup).2 (fun a => by
      rw [hM.mem]; exact ⟨.inr, fun h' => h'.elim (fun h' => h.subset h') id⟩)
    rw [hM.right.eq_of_length this.length_eq]

/-- A function of the elements along the last dimension, of an array on the grid. -/
theorem reduce_grid {front : List κ} {d : κ} {u : List Term} {g : (κ → Nat) → ℝ} {c : Arr κ ν ℝ} (f : List ℝ → ℝ)
    (h : OnGrid G (front ++ [d]) u g (.array c)) {op : Named κ ℝ → Except Numeric.Err (Named κ ℝ)}
    (hop : ∃ r, op c.arr.data = .ok r ∧ ReducesAlong f c.arr.data d r) :
    ∃ r, reduceAxis op c = .ok r ∧
      OnGrid G front u (fun p => f ((List.range (G.size d)).map (fun i => g (Function.update p d i)))) r := by
  obtain ⟨hn, c', h', hp, hd, hs, hax, hcu, hg⟩ := h
  cases h'
  have wn : WellNamed c.arr.data := OnGrid.wellNamed hn hd hs
  obtain ⟨r, h1, h2⟩ := hop
  have hdf : d ∉ front := fun hf => by
    have := (List.nodup_append.1 hn).2.2 d hf d (List.mem_singleton.2 rfl)
    exact this rfl
  have hnf : front.Nodup := (List.nodup_append.1 hn).1
  have hfilter : (front ++ [d]).filter (fun n => decide (n ≠ d)) = front := by
    rw [List.filter_append, List.filter_eq_self.2 (fun a ha => by
      simp only [decide_eq_true_eq]; rintro rfl; exact hdf ha)]
    simp
  have hcd : c.arr.data.dims = front ++ [d] := hd
  have hrd : r.dims = front := by rw [h2.dims, hcd, hfilter]
  have hrs : r.data.shape = front.map G.size := by
    rw [shape_eq h2.named, hrd]
    apply List.map_congr_left
    intro e he
    rw [shapeGet_eq h2.named, h2.size e (by rw [hrd]; exact he),
      sizeAlong_grid (c := c.arr.data) hd hs (List.mem_append_left _ he)]; rfl
  have hl : Axes.lookupAll (G.axes (front ++ [d])) front = .ok (G.axes front) := by
    obtain ⟨axes, m1, m2, m3⟩ := Axes.lookupAll_ok (G.axes (front ++ [d])) front (fun k hk => by
      rw [keys_axes]; exact List.mem_append_left _ hk)
    have hu : Container.unique front = front := dimensions_nodup hnf
    have e : axes = G.axes front := by
      refine get_eq_dict (by rw [m2, keys_axes, hu]) (by unfold Dict.WF; rw [m2, hu]; exact hnf) (fun k hk => ?_)
      rw [m2, hu] at hk
      rw [m3, if_pos hk, get_axes hk, get_axes (List.mem_append_left _ hk)]
    rw [m1, e]
  obtain ⟨z, hz1, hz2⟩ := newArray_grid (G := G) (u := u) hnf hrs
    (g := fun p => f ((List.range (G.size d)).map (fun i => g (Function.update p d i)))) (fun pos hpos => by
      have hh : r.Has pos := by
        intro e n hen
        by_cases hem : e ∈ front
        · rw [h2.size e (by rw [hrd]; exact hem), sizeAlong_grid (c := c.arr.data) hd hs (List.mem_append_left _ hem)] at hen
          cases hen
          exact hpos e hem
        · rw [sizeAlong_none h2.named (by rw [hrd]; exact hem)] at hen
          cases hen
      have := h2.element pos hh
      rw [Named.at, hrd] at this
      rw [this]
      unfold Named.along
      rw [sizeAlong_grid (c := c.arr.data) hd hs (List.mem_append_right _ (List.mem_singleton.2 rfl)), Option.getD_some]
      congr 1
      apply List.map_congr_left
      intro i hi
      rw [List.mem_range] at hi
      refine hg _ (fun e hem => ?_)
      by_cases hed : e = d
      · subst hed; rw [Function.update_self]; exact hi
      · rw [Function.update_of_ne hed]
        exact hpos e ((List.mem_append.1 hem).resolve_right (fun h => hed (List.mem_singleton.1 h))))
  refine ⟨z, ?_, hz2⟩
  unfold reduceAxis
  simp only [h1, hax, hrd, hl, hcu]
  exact hz1

theorem last_axis {front : List κ} {d : κ} {c : Arr κ ν ℝ} {u : List Term} {g : (κ → Nat) → ℝ} (f : List ℝ → ℝ)
    (h : OnGrid G (front ++ [d]) u g (.array c)) :
    (∃ r, sumAxis f c.arr.data (-1) none = .ok r ∧ ReducesAlong f c.arr.data d r) ∧
    (∃ r, meanAxis f c.arr.data (-1) none = .ok r ∧ ReducesAlong f c.arr.data d r) := by
  obtain ⟨hn, c', h', hp, hd, hs, hax, hcu, hg⟩ := h
  cases h'
  have hcd : c.arr.data.dims = front ++ [d] := hd
  refine c69_reduce_partial f c.arr.data (OnGrid.wellNamed hn hd hs) (-1) front.length d ?_ ?_
  · rw [hcd]
    refine axisIndex_ok.2 ⟨by simp, .inr ?_⟩
    simp
  · rw [hcd]; simp

theorem sumLast_grid {front : List κ} {d : κ} {u : List Term} {g : (κ → Nat) → ℝ} {a : Operand κ ν ℝ}
    (h : OnGrid G (front ++ [d]) u g a) :
    ∃ r, sumLast a = .ok r ∧ OnGrid G front u (fun p => ∑ i ∈ Finset.range (G.size d), g (Function.update p d i)) r := by
  obtain ⟨c, rfl⟩ := h.isArray
  exact reduce_grid List.sum h (op := fun y => sumAxis List.sum y (-1) none) (last_axis List.sum h).1

theorem meanLast_grid {front : List κ} {d : κ} {u : List Term} {g : (κ → Nat) → ℝ} {a : Operand κ ν ℝ}
    (h : OnGrid G (front ++ [d]) u g a) :
    ∃ r, meanLast a = .ok r ∧
      OnGrid G front u (fun p => (∑ i ∈ Finset.range (G.size d), g (Function.update p d i)) / G.size d) r := by
  obtain ⟨c, rfl⟩ := h.isArray
  obtain ⟨r, h1, h2⟩ := reduce_grid mean h (op := fun y => meanAxis mean y (-1) none) (last_axis mean h).2
  refine ⟨r, h1, ?_⟩
  convert h2 using 2 with p
  unfold mean
  rw [List.length_map, List.length_range]
  rfl

theorem gradientLast_grid (order : List System) {front : List κ} {d : κ} {u : List Term} {g : (κ → Nat) → ℝ} {a : Operand κ ν ℝ}
    (h : OnGrid G (front ++ [d]) u g a) (h2 : 2 ≤ G.size d) :
    ∃ r, gradientLast order a = .ok r ∧ OnGrid G (front ++ [d]) u
      (fun p => gradientAt (G.size d) (fun i => i) (fun i => g (Function.update p d i)) (p d)) r := by
  obtain ⟨x, rfl⟩ := h.isArray
  obtain ⟨r, h1, h3⟩ := applyGradient_grid (w := u) h (k := front.length) (d := d) (by simp) (axis := -1) (sp := .uniform 1)
    (t := fun i => i) (t' := fun i => i * 1) (axisIndex_ok.2 ⟨by simp, .inr (by simp)⟩) rfl (fun i _ => by ring) h2
  refine ⟨r, ?_, h3⟩
  have hxu : x.arr.unit = u := h.unit_eq
  rw [← hxu] at h1
  exact h1

/-- The sum of `v**n * fiso * dv` on the grid. -/
theorem moment_grid (order : List System) (n : ℕ) {front vs : List κ} {energy : κ} {uv uf w1 w2 w3 : List Term}
    {V F : (κ → Nat) → ℝ} {v fiso : Operand κ ν ℝ} (hv : OnGrid G (vs ++ [energy]) uv V v)
    (hf : OnGrid G (front ++ [energy]) uf F fiso) (hsub : vs.Sublist front) (h2 : 2 ≤ G.size energy)
    (hw1 : unitPow false uv n = .ok w1) (hw2 : unitMul order w1 uf = .ok w2) (hw3 : unitMul order w2 uv = .ok w3) :
    ∃ r, moment order n v fiso = .ok r ∧ OnGrid G front w3 (fun p => ∑ i ∈ Finset.range (G.size energy),
      V (Function.update p energy i) ^ n * F (Function.update p energy i) *
        gradientAt (G.size energy) (fun i => (i : ℝ)) (fun j => V (Function.update p energy j)) i) r := by
  have hs : (vs ++ [energy]).Sublist (front ++ [energy]) := hsub.append (List.Sublist.refl _)
  obtain ⟨dv, e1, g1⟩ := gradientLast_grid order hv h2
  obtain ⟨vn, e2, g2⟩ := raised_grid hv n (pow_units hw1)
  obtain ⟨a, e3, g3⟩ := mul_grid order true (fun x y => x * y) g2 hf (merge_sublist' hf.nodup hs) (combine_mul hw2)
  obtain ⟨b, e4, g4⟩ := mul_grid order true (fun x y => x * y) g3 g1 (merge_sublist hf.nodup hs) (combine_mul hw3)
  obtain ⟨r, e5, g5⟩ := sumLast_grid g4
  refine ⟨r, ?_, ?_⟩
  · simp only [moment, times, e1, e2, e3, e4, e5, bind, Except.bind]
  · simpa only [Function.update_self, Function.update_idem] using g5

/-- Conversion of an array on the grid to a unit that differs in its expression only. -/
theorem toUnit_grid (c : Conv ℝ) (rs : List (Name × Name)) {dims : List κ} {u w : List Term} {g : (κ → Nat) → ℝ}
    {a : Operand κ ν ℝ} (h : OnGrid G dims u g a) (hs : Unscaled a) (h1 : convert c (showExpr u) (showExpr w) = .ok 1)
    (h2 : convert c (showExpr w) (showExpr u) = .ok 1) (hu : freshUnit (showExpr u) = .ok u)
    (hw : freshUnit (showExpr w) = .ok w) (he : exprEq u w = false) :
    ∃ r, toUnit c (afterRequests c [] rs) a w = .ok r ∧ OnGrid G dims w g r := by
  obtain ⟨x, rfl⟩ := h.isArray
  have hxu : x.arr.unit = u := h.unit_eq
  have key := conversion_ok c rs u (showExpr w) u w 1 h1 (by rw [h2]; norm_num) hu hw
  have hg := converter_grid h (hs x rfl) ⟨1, u, w⟩
  refine ⟨.array ⟨converter ⟨1, u, w⟩ x.arr, x.axes⟩, ?_, ?_⟩
  · unfold toUnit PArr.withunit
    simp only [hxu, key]
  · simpa [he] using hg

theorem gradientAt_pos {n : Nat} {f : Nat → ℝ} (h2 : 2 ≤ n) (hf : Increasing n f) {i : Nat} (hi : i < n) :
    0 < gradientAt n (fun i => (i : ℝ)) f i := by
  have ht : Increasing n (fun i => (i : ℝ)) := fun i j hij _ => by
    show (i : ℝ) < j
    exact_mod_cast hij
  have key : ∀ j, j + 1 < n → 0 < (f (j + 1) - f j) / (((j + 1 : ℕ) : ℝ) - (j : ℕ)) := fun j hj => by
    have := hf j (j + 1) (by omega) hj
    push_cast
    rw [add_sub_cancel_left, div_one]
    linarith
  rcases Nat.eq_zero_or_pos i with rfl | h0
  · unfold gradientAt
    rw [if_pos rfl]
    exact key 0 (by omega)
  · by_cases h1 : i + 1 = n
    · unfold gradientAt
      rw [if_neg (by omega), if_pos h1]
      have := key (i - 1) (by omega)
      rwa [Nat.sub_add_cancel h0] at this
    · obtain ⟨w, w0, w1, e⟩ := gradientAt_inner (f := f) ht h0 (by omega : i + 1 < n)
      have k1 := key (i - 1) (by omega)
      rw [Nat.sub_add_cancel h0] at k1
      have k2 := key i (by omega)
      rw [e]
      have : 0 < 1 - w := by linarith
      positivity

/-- The slopes of increasing values are positive. -/
theorem slopes_pos {n : Nat} {f r : Nat → ℝ} (h2 : 2 ≤ n) (hf : Increasing n f) (hr : r = gradientAt n (fun i => (i : ℝ)) f) :
    ∀ i < n, 0 < r i := by
  subst hr
  exact fun i hi => gradientAt_pos h2 hf hi

end Eprem.Observable
