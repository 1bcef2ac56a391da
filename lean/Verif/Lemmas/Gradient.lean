import Verif.Model.Gradient
import Verif.Spec.Gradient
import Verif.Lemmas.Observable
import Mathlib.Tactic.FieldSimp
import Mathlib.Tactic.LinearCombination
import Mathlib.Tactic.Positivity

/-!
# Lemmas about gradients
-/

namespace Eprem.Observable

open Eprem Eprem.Symbolic Eprem.Metric Eprem.Numeric Eprem.Measured Eprem.Physical

variable {κ ν : Type} [DecidableEq κ] {G : Grid κ ν}

/-- Only the values at the coordinate and its neighbours matter. -/
theorem gradientAt_congr {n : Nat} {t t' f f' : Nat → ℝ} {i : Nat} (h2 : 2 ≤ n) (hi : i < n)
    (ht : ∀ j < n, t j = t' j) (hf : ∀ j < n, f j = f' j) : gradientAt n t f i = gradientAt n t' f' i := by
  unfold gradientAt
  by_cases h0 : i = 0
  · rw [if_pos h0, if_pos h0, ht 0 (by omega), ht 1 (by omega), hf 0 (by omega), hf 1 (by omega)]
  · rw [if_neg h0, if_neg h0]
    by_cases h1 : i + 1 = n
    · rw [if_pos h1, if_pos h1, ht i hi, ht (i - 1) (by omega), hf i hi, hf (i - 1) (by omega)]
    · rw [if_neg h1, if_neg h1]
      simp only [ht i hi, ht (i - 1) (by omega), ht (i + 1) (by omega), hf i hi, hf (i - 1) (by omega),
        hf (i + 1) (by omega)]

theorem gradientAt_slopes {n : Nat} {t f : Nat → ℝ} (h2 : 2 ≤ n) (ht : Increasing n t) :
    Slopes n t f (gradientAt n t f) := by
  refine ⟨fun a b h h' => ?_, fun a b h h' => ?_, fun i h0 h1 a b c h => ?_⟩
  · have := ht 0 1 (by omega) (by omega)
    unfold gradientAt
    rw [if_pos rfl, ← h, ← h', div_eq_iff (by linarith)]
    ring
  · have := ht (n - 2) (n - 1) (by omega) (by omega)
    unfold gradientAt
    by_cases hn : n - 1 = 0
    · omega
    · rw [if_neg hn, if_pos (by omega), show n - 1 - 1 = n - 2 by omega, ← h, ← h', div_eq_iff (by linarith)]
      ring
  · have hd1 := ht (i - 1) i (by omega) (by omega)
    have hd2 := ht i (i + 1) (by omega) (by omega)
    unfold gradientAt
    rw [if_neg (by omega), if_neg (by omega)]
    simp only
    rw [← h (i - 1) (by simp), ← h i (by simp), ← h (i + 1) (by simp)]
    have e1 : t i - t (i - 1) ≠ 0 := by linarith
    have e2 : t (i + 1) - t i ≠ 0 := by linarith
    have e3 : t i - t (i - 1) + (t (i + 1) - t i) ≠ 0 := by linarith
    generalize ex : t (i - 1) = x at *
    generalize ey : t i = y at *
    generalize ez : t (i + 1) = z at *
    field_simp
    ring

/-- The inner slopes lie between those of the two adjacent intervals. -/
theorem gradientAt_inner {n : Nat} {t f : Nat → ℝ} (ht : Increasing n t) {i : Nat} (h0 : 0 < i) (h1 : i + 1 < n) :
    ∃ w : ℝ, 0 < w ∧ w < 1 ∧ gradientAt n t f i =
      w * ((f i - f (i - 1)) / (t i - t (i - 1))) + (1 - w) * ((f (i + 1) - f i) / (t (i + 1) - t i)) := by
  have hd1 := ht (i - 1) i (by omega) (by omega)
  have hd2 := ht i (i + 1) (by omega) (by omega)
  have e1 : 0 < t i - t (i - 1) := by linarith
  have e2 : 0 < t (i + 1) - t i := by linarith
  refine ⟨(t (i + 1) - t i) / (t i - t (i - 1) + (t (i + 1) - t i)), by positivity, ?_, ?_⟩
  · rw [div_lt_one (by positivity)]; linarith
  · unfold gradientAt
    rw [if_neg (by omega), if_neg (by omega)]
    simp only
    have e3 : t i - t (i - 1) + (t (i + 1) - t i) ≠ 0 := by positivity
    have e1 := e1.ne'
    have e2 := e2.ne'
    generalize t i - t (i - 1) = x at *
    generalize t (i + 1) - t i = y at *
    field_simp
    ring

/-- A lower bound of the slopes of all intervals bounds the gradient. -/
theorem gradientAt_ge {n : Nat} {t f : Nat → ℝ} {m : ℝ} (h2 : 2 ≤ n) (ht : Increasing n t)
    (hm : ∀ i, i + 1 < n → m * (t (i + 1) - t i) ≤ f (i + 1) - f i) {i : Nat} (hi : i < n) : m ≤ gradientAt n t f i := by
  have key : ∀ j, j + 1 < n → m ≤ (f (j + 1) - f j) / (t (j + 1) - t j) := fun j hj => by
    rw [le_div_iff₀ (by linarith [ht j (j + 1) (by omega) hj])]
    exact hm j hj
  rcases Nat.eq_zero_or_pos i with rfl | h0
  · unfold gradientAt
    rw [if_pos rfl]
    exact key 0 (by omega)
  · by_cases h1 : i + 1 = n
    · unfold gradientAt
      rw [if_neg (by omega), if_pos h1]
      have := key (i - 1) (by omega)
      rwa [show i - 1 + 1 = i by omega] at this
    · obtain ⟨w, w0, w1, e⟩ := gradientAt_inner (f := f) ht h0 (by omega)
      rw [e]
      have k1 := key (i - 1) (by omega)
      rw [show i - 1 + 1 = i by omega] at k1
      have k2 := key i (by omega)
      nlinarith

theorem gradientAt_smul {n : Nat} {t f : Nat → ℝ} (x : ℝ) (i : Nat) :
    gradientAt n t (fun j => x * f j) i = x * gradientAt n t f i := by
  unfold gradientAt
  split
  · ring
  · split
    · ring
    · ring

theorem gradientAt_neg {n : Nat} {t f : Nat → ℝ} (i : Nat) :
    gradientAt n t (fun j => - f j) i = - gradientAt n t f i := by
  have := gradientAt_smul (n := n) (t := t) (f := f) (-1) i
  simpa using this

theorem set_map {dims : List κ} (hn : dims.Nodup) {k : Nat} {d : κ} (hk : dims[k]? = some d) (pos : κ → Nat) (i : Nat) :
    (dims.map pos).set k i = dims.map (Function.update pos d i) := by
  apply List.ext_getElem?
  intro j
  rw [List.getElem?_set, List.getElem?_map, List.length_map, List.getElem?_map]
  obtain ⟨hlt, hkd⟩ := List.getElem?_eq_some_iff.1 hk
  by_cases hj : k = j
  · subst hj
    rw [if_pos rfl, if_pos hlt, hk]
    simp
  · rw [if_neg hj]
    cases hd : dims[j]? with
    | none => rfl
    | some e =>
      obtain ⟨hlt', hje⟩ := List.getElem?_eq_some_iff.1 hd
      have : e ≠ d := fun h => hj (by
        rw [← hkd, ← hje] at h
        exact ((List.Nodup.getElem_inj_iff hn).1 h).symm)
      simp [this]

/-- `_apply_gradient` of an array on the grid. -/
theorem applyGradient_grid {dims : List κ} {u w : List Term} {g : (κ → Nat) → ℝ} {c : Arr κ ν ℝ}
    (h : OnGrid G dims u g (.array c)) {k : Nat} {d : κ} (hk : dims[k]? = some d) {axis : ℤ}
    (ha : axisIndex dims.length axis = .ok k) {sp : Spacing ℝ} {t t' : Nat → ℝ} (hsp : coordinatesOf (G.size d) sp = .ok t')
    (ht : ∀ i < G.size d, t' i = t i) (h2 : 2 ≤ G.size d) :
    ∃ r, applyGradient w c sp axis = .ok r ∧
      OnGrid G dims w (fun p => gradientAt (G.size d) t (fun i => g (Function.update p d i)) (p d)) r := by
  obtain ⟨hn, c', h', hp, hd, hs, hax, hcu, hg⟩ := h
  cases h'
  have hs' : c.arr.data.data.shape = dims.map G.size := hs
  obtain ⟨hlt, hkd⟩ := List.getElem?_eq_some_iff.1 hk
  have hmem : d ∈ dims := hkd ▸ List.getElem_mem hlt
  have hsz : c.arr.data.data.shape.getD k 0 = G.size d := by
    rw [hs', List.getD_eq_getElem?_getD, List.getElem?_map, hk]; rfl
  obtain ⟨r, h1, h3⟩ := newArray_grid (G := G) (u := w) hn (d := .ofFn c.arr.data.data.shape (fun p =>
      gradientAt (G.size d) t' (fun i => c.arr.data.data.get (p.set k i)) (p.getD k 0))) hs'
    (g := fun p => gradientAt (G.size d) t (fun i => g (Function.update p d i)) (p d)) (fun pos hpos => by
      rw [get_ofFn (by rw [hs']; exact grid_valid.2 hpos)]
      have e : (dims.map pos).getD k 0 = pos d := by
        rw [List.getD_eq_getElem?_getD, List.getElem?_map, hk]; rfl
      rw [e]
      refine gradientAt_congr h2 (hpos d hmem) ht (fun j hj => ?_)
      rw [set_map hn hk, ← data_at hd]
      refine hg _ (fun e he => ?_)
      by_cases hed : e = d
      · subst hed; rw [Function.update_self]; exact hj
      · rw [Function.update_of_ne hed]; exact hpos e he)
  refine ⟨r, ?_, h3⟩
  unfold applyGradient npGradient
  have hnd : c.arr.data.data.ndim = dims.length := by rw [ND.ndim, hs', List.length_map]
  rw [hnd]
  simp only [ha, hsz, hsp, if_neg (show ¬ G.size d < 2 by omega), hax]
  exact h1

end Eprem.Observable
