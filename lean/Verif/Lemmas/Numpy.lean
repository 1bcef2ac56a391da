import Verif.Model.Numpy
import Mathlib.Data.List.Forall2
import Mathlib.Tactic.Ring

/-!
# Facts about positions in arrays
-/

namespace Eprem.Numeric

variable {α : Type}

theorem sizeOf_cons (n : Nat) (s : List Nat) : sizeOf (n :: s) = n * sizeOf s := rfl

theorem sizeOf_nil : sizeOf [] = 1 := rfl

theorem sizeOf_append (s t : List Nat) : sizeOf (s ++ t) = sizeOf s * sizeOf t := by
  induction s with
  | nil => simp [sizeOf]
  | cons n s ih => rw [List.cons_append, sizeOf_cons, sizeOf_cons, ih, Nat.mul_assoc]

theorem sizeOf_replicate_one (k : Nat) : sizeOf (List.replicate k 1) = 1 := by
  induction k with
  | zero => rfl
  | succ k ih => rw [List.replicate_succ, sizeOf_cons, ih]

theorem ravel_lt {p s : List Nat} (h : Valid p s) : ravel s p < sizeOf s := by
  induction h with
  | nil => simp [ravel, sizeOf]
  | @cons i n p s hi hp ih =>
    rw [ravel, sizeOf_cons]
    calc i * sizeOf s + ravel s p < i * sizeOf s + sizeOf s := by omega
      _ = (i + 1) * sizeOf s := by ring
      _ ≤ n * sizeOf s := Nat.mul_le_mul_right _ hi

theorem unravel_ravel {p s : List Nat} (h : Valid p s) : unravel s (ravel s p) = p := by
  induction h with
  | nil => rfl
  | @cons i n p s hi hp ih =>
    have hlt := ravel_lt hp
    have h0 : 0 < sizeOf s := by omega
    rw [ravel, unravel]
    have h1 : (i * sizeOf s + ravel s p) / sizeOf s = i := by
      rw [Nat.add_comm, Nat.add_mul_div_right _ _ h0, Nat.div_eq_of_lt hlt, Nat.zero_add]
    have h2 : (i * sizeOf s + ravel s p) % sizeOf s = ravel s p := by
      rw [Nat.add_comm, Nat.add_mul_mod_self_right, Nat.mod_eq_of_lt hlt]
    rw [h1, h2, ih]

theorem get_ofFn {s : List Nat} {f : List Nat → α} {p : List Nat} (h : Valid p s) : (ND.ofFn s f).get p = f p := by
  simp only [ND.get, ND.ofFn, unravel_ravel h]

theorem Valid.length_eq {p s : List Nat} (h : Valid p s) : p.length = s.length := List.Forall₂.length_eq h

theorem Valid.cons {i n : Nat} {p s : List Nat} (h : i < n) (hp : Valid p s) : Valid (i :: p) (n :: s) :=
  List.Forall₂.cons h hp

theorem valid_cons {i n : Nat} {p s : List Nat} : Valid (i :: p) (n :: s) ↔ i < n ∧ Valid p s := List.forall₂_cons

theorem valid_nil {s : List Nat} : Valid [] s ↔ s = [] := by
  constructor
  · intro h; cases h; rfl
  · rintro rfl; exact .nil

theorem ravel_ones (k : Nat) (s p : List Nat) :
    ravel (List.replicate k 1 ++ s) (List.replicate k 0 ++ p) = ravel s p := by
  induction k with
  | zero => rfl
  | succ k ih => rw [List.replicate_succ, List.replicate_succ, List.cons_append, List.cons_append, ravel, ih]; omega

/-- the elements of `numpy.array(a, ndmin=n)` -/
theorem get_atLeast (a : ND α) (n : Nat) (p : List Nat) :
    (a.atLeast n).get (List.replicate (n - a.ndim) 0 ++ p) = a.get p := by
  simp only [ND.get, ND.atLeast, ravel_ones]

theorem atLeast_self (a : ND α) (n : Nat) (h : n ≤ a.ndim) : a.atLeast n = a := by
  have : n - a.ndim = 0 := by omega
  simp [ND.atLeast, this]

theorem valid_iff_getElem {p s : List Nat} :
    Valid p s ↔ p.length = s.length ∧ ∀ i (h₁ : i < p.length) (h₂ : i < s.length), p[i] < s[i] := by
  unfold Valid
  rw [List.forall₂_iff_get]
  simp only [List.get_eq_getElem]

/-! ## Ranges and slices -/

theorem rangeList_pos_mem {start stop step : ℤ} (hs : 0 < step) (x : ℤ) :
    x ∈ rangeList start stop step ↔ start ≤ x ∧ x < stop ∧ step ∣ (x - start) := by
  unfold rangeList arith rangeLen
  rw [if_pos hs]
  simp only [List.mem_map, List.mem_range]
  constructor
  · rintro ⟨k, hk, rfl⟩
    have hk' : (k : ℤ) < (stop - start + step - 1) / step := by omega
    have : ((k : ℤ) + 1) * step ≤ stop - start + step - 1 := by
      have := (Int.le_ediv_iff_mul_le hs).1 (show (k : ℤ) + 1 ≤ (stop - start + step - 1) / step by omega)
      exact this
    refine ⟨by nlinarith [Int.natCast_nonneg k], by nlinarith, ⟨k, by ring⟩⟩
  · rintro ⟨h1, h2, ⟨c, hc⟩⟩
    have hx : x = start + step * c := by linarith
    have hc0 : 0 ≤ c := by
      by_contra h
      have : step * c < 0 := mul_neg_of_pos_of_neg hs (by omega)
      omega
    refine ⟨c.toNat, ?_, by rw [Int.toNat_of_nonneg hc0]; exact hx.symm⟩
    have : c + 1 ≤ (stop - start + step - 1) / step := by
      rw [Int.le_ediv_iff_mul_le hs]; nlinarith
    omega

theorem rangeList_getElem? (start stop step : ℤ) (k : Nat) :
    (rangeList start stop step)[k]? = if k < rangeLen start stop step then some (start + step * k) else none := by
  unfold rangeList arith
  rw [List.getElem?_map]
  by_cases h : k < rangeLen start stop step
  · rw [if_pos h, List.getElem?_range h]; rfl
  · rw [if_neg h, List.getElem?_eq_none (by simpa using h)]; rfl

theorem rangeList_length (start stop step : ℤ) : (rangeList start stop step).length = rangeLen start stop step := by
  simp [rangeList, arith]

theorem rangeLen_one {start stop : ℤ} : rangeLen start stop 1 = (stop - start).toNat := by
  simp [rangeLen]

theorem rangeList_full (n : Nat) : (rangeList 0 n 1).map Int.toNat = List.range n := by
  apply List.ext_getElem?
  intro k
  rw [List.getElem?_map, rangeList_getElem?, rangeLen_one]
  by_cases h : k < n
  · rw [if_pos (by omega), List.getElem?_range h]; simp
  · rw [if_neg (by omega), List.getElem?_eq_none (by simpa using h)]; rfl

theorem slicePositions_full (n : Nat) : slicePositions n none none none = .ok (List.range n) := by
  simp only [slicePositions, Option.getD_none, sliceBound]
  rw [if_neg (by decide), if_pos (by decide), rangeList_full]

/-- Every position that a slice selects lies on the axis. -/
theorem slicePositions_lt {n : Nat} {a b s : Option ℤ} {l : List Nat} (h : slicePositions n a b s = .ok l) :
    ∀ i ∈ l, i < n := by
  unfold slicePositions at h
  simp only at h
  split at h
  · cases h
  split at h
  next hs =>
    cases h
    intro i hi
    rw [List.mem_map] at hi
    obtain ⟨x, hx, rfl⟩ := hi
    rw [rangeList_pos_mem hs] at hx
    have h1 : sliceBound n 0 n n b ≤ n := by
      unfold sliceBound
      split
      · exact le_refl _
      · split
        · omega
        · omega
    have h0 : 0 ≤ sliceBound n 0 n 0 a := by
      unfold sliceBound
      split
      · exact le_refl _
      · split
        · omega
        · omega
    omega
  next h0 hs =>
    cases h
    intro i hi
    have hst : s.getD 1 < 0 := by omega
    rw [List.mem_map] at hi
    obtain ⟨x, hx, rfl⟩ := hi
    unfold rangeList arith rangeLen at hx
    rw [if_neg hs] at hx
    simp only [List.mem_map, List.mem_range] at hx
    obtain ⟨k, hk, rfl⟩ := hx
    set st := s.getD 1 with hst'
    set A := sliceBound n (-1) (n - 1) (n - 1) a with hA
    set B := sliceBound n (-1) (n - 1) (-1) b with hB
    have hB1 : -1 ≤ B := by
      rw [hB]; unfold sliceBound
      split
      · exact le_refl _
      · split
        · omega
        · omega
    have hA1 : A ≤ n - 1 := by
      rw [hA]; unfold sliceBound
      split
      · exact le_refl _
      · split
        · omega
        · omega
    have hk' : (k : ℤ) + 1 ≤ (A - B + -st - 1) / (-st) := by omega
    rw [Int.le_ediv_iff_mul_le (by omega)] at hk'
    have hge : B < A + st * k := by nlinarith
    have hle : A + st * k ≤ A := by nlinarith [Int.natCast_nonneg k]
    omega

end Eprem.Numeric
