import Mathlib.Data.Real.Basic
import Mathlib.Tactic.Linarith
import Mathlib.Tactic.FieldSimp
import Mathlib.Tactic.Ring

/-!
# Specification vocabulary for interpolation (C57, C58)
-/

namespace Eprem.Interpolate

/-- `v` is the value at `t` of the polygon through the points `(x i, y i)`, `i < n`. -/
def OnPolygon (n : Nat) (x y : Nat → ℝ) (t v : ℝ) : Prop :=
  (∀ i < n, x i = t → v = y i) ∧
  ∀ i, i + 1 < n → x i ≤ t → t ≤ x (i + 1) → v = y i + (t - x i) / (x (i + 1) - x i) * (y (i + 1) - y i)

/-- `x` increases on the indices below `n`. -/
def Increasing (n : Nat) (x : Nat → ℝ) : Prop := ∀ i j, i < j → j < n → x i < x j

/-- A value on the polygon lies between the neighbouring values. -/
theorem OnPolygon.between {n : Nat} {x y : Nat → ℝ} {t v : ℝ} (h : OnPolygon n x y t v) (hx : Increasing n x) {i : Nat}
    (hi : i + 1 < n) (h0 : x i ≤ t) (h1 : t ≤ x (i + 1)) : min (y i) (y (i + 1)) ≤ v ∧ v ≤ max (y i) (y (i + 1)) := by
  have hlt := hx i (i + 1) (by omega) hi
  have hv := h.2 i hi h0 h1
  set s := (t - x i) / (x (i + 1) - x i) with hs
  have hd : 0 < x (i + 1) - x i := by linarith
  have s0 : 0 ≤ s := div_nonneg (by linarith) hd.le
  have s1 : s ≤ 1 := (div_le_one hd).2 (by linarith)
  rcases le_total (y i) (y (i + 1)) with hy | hy
  · rw [min_eq_left hy, max_eq_right hy, hv]
    constructor <;> nlinarith
  · rw [min_eq_right hy, max_eq_left hy, hv]
    constructor <;> nlinarith

/-- Inside the range of the `x i` there is at most one value on the polygon. -/
theorem OnPolygon.unique {n : Nat} {x y : Nat → ℝ} {t v w : ℝ} (hv : OnPolygon n x y t v) (hw : OnPolygon n x y t w)
    (hn : 0 < n) (h0 : x 0 ≤ t) (h1 : t ≤ x (n - 1)) : v = w := by
  classical
  by_cases h : ∃ i < n, x i = t
  · obtain ⟨i, hi, e⟩ := h
    rw [hv.1 i hi e, hw.1 i hi e]
  · -- the first index with a larger value
    have hex : ∃ k, t ≤ x k ∧ k < n := ⟨n - 1, h1, by omega⟩
    let k := Nat.find hex
    obtain ⟨k1, k2⟩ : t ≤ x k ∧ k < n := Nat.find_spec hex
    have hk0 : k ≠ 0 := by
      intro e
      rw [e] at k1
      exact h ⟨0, hn, le_antisymm h0 k1⟩
    have hk : x (k - 1) ≤ t := by
      have := Nat.find_min hex (show k - 1 < k by omega)
      by_contra hc
      exact this ⟨(not_le.1 hc).le, by omega⟩
    have e : k - 1 + 1 = k := by omega
    rw [hv.2 (k - 1) (by omega) hk (by rw [e]; exact k1), hw.2 (k - 1) (by omega) hk (by rw [e]; exact k1)]

end Eprem.Interpolate
