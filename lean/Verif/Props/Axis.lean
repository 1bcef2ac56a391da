import Verif.Spec.Axis
import Verif.Props.Container
import Verif.Props.NumericIndex
import Verif.Props.Measured

/-!
# C38 and C73: look-up of values on axes, and subscripted axes
-/

namespace Eprem.Axis

open Eprem Eprem.Numeric

/-! ## Lemmas -/

theorem collect_ok {α β ε : Type} {f : α → Except ε β} {P : α → β → Prop} :
    ∀ {l : List α}, (∀ x ∈ l, ∃ y, f x = .ok y ∧ P x y) → ∃ ys, collect f l = .ok ys ∧ List.Forall₂ P l ys
  | [], _ => ⟨[], rfl, .nil⟩
  | x :: xs, h => by
    obtain ⟨y, hy, hp⟩ := h x (List.mem_cons_self ..)
    obtain ⟨ys, hys, hps⟩ := collect_ok (P := P) (fun z hz => h z (List.mem_cons_of_mem _ hz))
    exact ⟨y :: ys, by simp only [collect, hy, hys], .cons hp hps⟩

theorem collect_inv {α β ε : Type} {f : α → Except ε β} :
    ∀ {l : List α} {ys : List β}, collect f l = .ok ys → List.Forall₂ (fun x y => f x = .ok y) l ys
  | [], ys, h => by cases h; exact .nil
  | x :: xs, ys, h => by
    simp only [collect] at h
    split at h
    · cases h
    · rename_i y hy
      split at h
      · cases h
      · rename_i zs hz
        cases h
        exact .cons hy (collect_inv hz)

theorem collect_error {α β ε : Type} {f : α → Except ε β} {e : ε} :
    ∀ {l : List α}, (∀ x ∈ l, (∃ y, f x = .ok y) ∨ f x = .error e) → (∃ x ∈ l, f x = .error e) → collect f l = .error e
  | [], _, ⟨_, hx, _⟩ => by cases hx
  | x :: xs, h, ⟨z, hz, he⟩ => by
    rcases h x (List.mem_cons_self ..) with ⟨y, hy⟩ | hx
    · have hzx : z ∈ xs := by
        rcases List.mem_cons.1 hz with rfl | h'
        · rw [hy] at he; cases he
        · exact h'
      have := collect_error (f := f) (e := e) (fun w hw => h w (List.mem_cons_of_mem _ hw)) ⟨z, hzx, he⟩
      simp only [collect, hy, this]
    · simp only [collect, hx]

theorem ofList_is (l : List ℤ) : (Index.ofList l).Is l := by
  match l with
  | [] => exact ⟨rfl, by simp⟩
  | [i] => rfl
  | i :: j :: l => exact ⟨rfl, by simp⟩

theorem firstAt_idxOf {α : Type} [DecidableEq α] {l : List α} {x : α} (h : x ∈ l) : FirstAt l x (l.idxOf x) := by
  refine ⟨?_, fun j hj hx => ?_⟩
  · rw [List.getElem?_eq_getElem (List.idxOf_lt_length_iff.2 h), List.getElem_idxOf]
  · obtain ⟨hl, rfl⟩ := List.getElem?_eq_some_iff.1 hx
    exact absurd (List.not_of_lt_findIdx (p := (· == l[j])) (xs := l) hj) (by simp)

theorem forall₂_map_right {α β γ : Type} {R : α → γ → Prop} {f : β → γ} {l : List α} {m : List β}
    (h : List.Forall₂ (fun a b => R a (f b)) l m) : List.Forall₂ R l (m.map f) :=
  List.forall₂_map_right_iff.2 h

/-- Positions found as naturals. -/
theorem collect_nat {α ε : Type} {f : α → Except ε ℤ} {P : α → Nat → Prop} {l : List α}
    (h : ∀ x ∈ l, ∃ i : Nat, f x = .ok (i : ℤ) ∧ P x i) :
    ∃ is : List Nat, collect f l = .ok (is.map (fun i : Nat => (i : ℤ))) ∧ List.Forall₂ P l is := by
  induction l with
  | nil => exact ⟨[], rfl, .nil⟩
  | cons x xs ih =>
    obtain ⟨i, hi, hp⟩ := h x (List.mem_cons_self ..)
    obtain ⟨is, his, hps⟩ := ih (fun z hz => h z (List.mem_cons_of_mem _ hz))
    exact ⟨i :: is, by simp only [collect, hi, his, List.map_cons], .cons hp hps⟩

/-! ## C38: points and symbols -/

/-- **C38**, points held in an array: the answer is the first position of every requested point. -/
theorem c38_points (x : Axis ℤ) (ps : List ℤ) (hne : ps ≠ []) (h : ∀ p ∈ ps, p ∈ x.data) :
    ∃ (r : Index) (is : List Nat), x.indexPoints true (.points ps) = .ok r ∧ r.Is (is.map (fun i : Nat => (i : ℤ))) ∧
      List.Forall₂ (FirstAt x.data) ps is := by
  obtain ⟨is, his, hp⟩ := collect_nat (f := pointIndex true x.data) (P := FirstAt x.data) (l := ps) (fun p hp =>
    ⟨x.data.idxOf p, by simp [pointIndex, h p hp], firstAt_idxOf (h p hp)⟩)
  refine ⟨_, is, ?_, ofList_is _, hp⟩
  cases ps with
  | nil => exact absurd rfl hne
  | cons p ps => simp only [Axis.indexPoints, normalizeTargets, his]

/-- **C38**, a point that is not on the axis is refused. -/
theorem c38_points_missing (x : Axis ℤ) (ps : List ℤ) (h : ∃ p ∈ ps, p ∉ x.data) :
    x.indexPoints true (.points ps) = .error .value := by
  obtain ⟨p, hp, hn⟩ := h
  have := collect_error (f := pointIndex true x.data) (e := .value) (l := ps) (fun q _ => by
    by_cases hq : q ∈ x.data
    · exact .inl ⟨_, by simp only [pointIndex, hq, if_true]; rfl⟩
    · exact .inr (by simp [pointIndex, hq])) ⟨p, hp, by simp [pointIndex, hn]⟩
  cases ps with
  | nil => cases hp
  | cons q qs => simp only [Axis.indexPoints, normalizeTargets, this]

/-- **C38** is violated by the axes that `axes_factory` makes from a shape, or from a list or range of integers: looking
up a point that is on such an axis always fails. -/
theorem c38_points_not (x : Axis ℤ) (p : ℤ) (h : p ∈ x.data) : x.indexPoints false (.points [p]) = .error .index := by
  simp [Axis.indexPoints, normalizeTargets, collect, pointIndex, h]

/-- **C38** does not hold for a request of all positions: points answer with themselves, which need not be positions. -/
theorem c38_points_all_not : (⟨[5, 6], none⟩ : Axis ℤ).indexPoints true (.points []) = .ok (.sequence [5, 6]) := by decide

example : (⟨[1, 10, 100, 10], none⟩ : Axis ℤ).indexPoints true (.points [10, 100]) = .ok (.sequence [1, 2]) := by decide
example : (⟨[1, 10, 100], none⟩ : Axis ℤ).indexPoints true (.points [10]) = .ok (.value 1) := by decide
example : (⟨[1, 10, 100], none⟩ : Axis ℤ).indexPoints true (.points [10, 11]) = .error .value := by decide
example : (⟨[0, 1, 2], none⟩ : Axis ℤ).indexPoints false (.points [1]) = .error .index := by decide

/-- **C38**, symbols: the answer is the first position of every requested symbol. -/
theorem c38_symbols {κ : Type} [DecidableEq κ] (x : Axis κ) (ss : List κ) (hne : ss ≠ []) (h : ∀ s ∈ ss, s ∈ x.data) :
    ∃ (r : Index) (is : List Nat), x.indexSymbols (ss.map .str) = .ok r ∧ r.Is (is.map (fun i : Nat => (i : ℤ))) ∧
      List.Forall₂ (FirstAt x.data) ss is := by
  obtain ⟨is, his, hp⟩ := collect_nat (f := symbolIndex x.data) (P := fun t i => ∃ s, t = .str s ∧ FirstAt x.data s i)
    (l := ss.map .str) (fun t ht => by
      obtain ⟨s, hs, rfl⟩ := List.mem_map.1 ht
      exact ⟨x.data.idxOf s, by simp [symbolIndex, h s hs], s, rfl, firstAt_idxOf (h s hs)⟩)
  refine ⟨_, is, ?_, ofList_is _, ?_⟩
  · unfold Axis.indexSymbols
    rw [if_neg (by simpa using hne), if_neg (by simp), his]
  · rw [List.forall₂_map_left_iff] at hp
    exact hp.imp (by rintro s i ⟨s', h1, h2⟩; cases h1; exact h2)

/-- **C38**, a symbol that is not on the axis is refused. -/
theorem c38_symbols_missing {κ : Type} [DecidableEq κ] (x : Axis κ) (ss : List κ) (h : ∃ s ∈ ss, s ∉ x.data) :
    x.indexSymbols (ss.map .str) = .error .value := by
  obtain ⟨s, hs, hn⟩ := h
  have := collect_error (f := symbolIndex x.data) (e := .value) (l := ss.map .str) (fun t ht => by
    obtain ⟨s, _, rfl⟩ := List.mem_map.1 ht
    by_cases hq : s ∈ x.data
    · exact .inl ⟨_, by simp only [symbolIndex, hq, if_true]; rfl⟩
    · exact .inr (by simp [symbolIndex, hq])) ⟨.str s, List.mem_map.2 ⟨s, hs, rfl⟩, by simp [symbolIndex, hn]⟩
  unfold Axis.indexSymbols
  rw [if_neg (by simpa using List.ne_nil_of_mem hs), if_neg (by simp), this]

/-- **C38**, a target that is not a string is refused. -/
theorem c38_symbols_type {κ : Type} [DecidableEq κ] (x : Axis κ) (ts : List (SymbolTarget κ)) (h : .other ∈ ts) :
    x.indexSymbols ts = .error .type := by
  unfold Axis.indexSymbols
  rw [if_neg (List.ne_nil_of_mem h), if_pos (List.any_eq_true.2 ⟨_, h, by simp⟩)]

/-- **C38**, a request of all positions. -/
theorem c38_symbols_all {κ : Type} [DecidableEq κ] (d : List κ) : (⟨d, none⟩ : Axis κ).indexSymbols [] =
    .ok (.sequence ((List.range d.length).map (fun i : Nat => (i : ℤ)))) := rfl

example : (⟨["a", "b0", "c"], none⟩ : Axis String).indexSymbols [.str "c", .str "a"] = .ok (.sequence [2, 0]) := by decide
example : (⟨["a", "b0", "c"], none⟩ : Axis String).indexSymbols [.str "b0"] = .ok (.value 1) := by decide
example : (⟨["a", "b0", "c"], none⟩ : Axis String).indexSymbols [.str "A"] = .error .value := by decide
example : (⟨["a", "b0", "c"], none⟩ : Axis String).indexSymbols [.str "A", .other] = .error .type := by decide

/-! ## C38: coordinates -/

section Coordinates
open Eprem.Metric Eprem.Symbolic Eprem.Measured Eprem.Container

variable {K : Type} [Field K] [LinearOrder K] [IsStrictOrderedRing K]

theorem nearestIndex_none {data : List K} {t : K} (hne : data ≠ []) :
    ∃ (i : Nat) (v : K), nearestIndex data t .none = .ok (i : ℤ) ∧ data[i]? = some v ∧ NearestAt data t i := by
  obtain ⟨i, v, h1, h2, h3⟩ := c11_nearest data t hne
  exact ⟨i, v, by simp [nearestIndex, h1], h2, h3⟩

theorem isclose_true {data : List K} {t : K} (h : isclose data t = .ok true) : data ≠ [] ∧
    ∃ d ∈ data, |t - d| ≤ 1 / 100000 * |d| := by
  unfold isclose at h
  split at h
  · rename_i hm
    exact ⟨List.ne_nil_of_mem hm, t, hm, by simp⟩
  · split at h
    · cases h
    · rename_i hne
      split at h
      · cases h
      · refine ⟨hne, ?_⟩
        simpa using h

/-- **C38**, coordinates: the answer is the first of the positions with the value nearest to the target, and this value
differs from the target by at most the 99999th part of it. -/
theorem c38_compute_sound (data : List K) (t : K) (i : ℤ) (h : computeIndex data .none t = .ok i) :
    ∃ (j : Nat) (v : K), i = j ∧ data[j]? = some v ∧ NearestAt data t j ∧ |v - t| ≤ |t| / 99999 := by
  unfold computeIndex at h
  split at h
  · cases h
  · rename_i hc
    obtain ⟨hne, d, hd, hclose⟩ := isclose_true hc
    obtain ⟨j, v, h1, h2, h3⟩ := nearestIndex_none (t := t) hne
    rw [h1] at h; cases h
    refine ⟨j, v, rfl, h2, h3, ?_⟩
    obtain ⟨v', hv', hN⟩ := h3
    rw [h2] at hv'; cases hv'
    obtain ⟨k, hk⟩ := List.mem_iff_getElem?.1 hd
    have h4 := (hN k d hk).1
    have h5 : |d - t| = |t - d| := abs_sub_comm d t
    have h6 : |d| ≤ |t| + |t - d| := by
      have := abs_add_le t (d - t)
      rw [show t + (d - t) = d by ring, h5] at this
      exact this
    rw [le_div_iff₀ (by norm_num)]
    rw [h5] at h4
    linarith
  · cases h

/-- **C38**, coordinates: a target on the axis is found exactly. -/
theorem c38_compute_exact (data : List K) (t : K) (c : Closest) (h : t ∈ data) :
    ∃ j : Nat, computeIndex data c t = .ok (j : ℤ) ∧ FirstAt data t j := by
  obtain ⟨j, v, h1, h2, v', h3, hN⟩ := nearestIndex_none (t := t) (List.ne_nil_of_mem h)
  rw [h2] at h3; cases h3
  have hv : v = t := by
    obtain ⟨k, hk⟩ := List.mem_iff_getElem?.1 h
    have := (hN k t hk).1
    simp only [sub_self, abs_zero] at this
    exact sub_eq_zero.1 (abs_nonpos_iff.1 this)
  subst hv
  refine ⟨j, by simp [computeIndex, isclose, h, h1], h2, fun k hk hx => ?_⟩
  have := (hN k v hx).2 rfl
  omega

/-- **C38**, coordinates: a target between two values of the axis that is within the hundred-thousandth part of one of
them is found. -/
theorem c38_compute_found (data : List K) (t d lo hi : K) (c : Closest) (hd : d ∈ data) (hclose : |t - d| ≤ 1 / 100000 * |d|)
    (hlo : lo ∈ data) (hlo' : lo ≤ t) (hhi : hi ∈ data) (hhi' : t ≤ hi) :
    ∃ j : Nat, computeIndex data c t = .ok (j : ℤ) ∧ NearestAt data t j := by
  obtain ⟨j, v, h1, h2, h3⟩ := nearestIndex_none (t := t) (List.ne_nil_of_mem hd)
  refine ⟨j, ?_, h3⟩
  have hi : isclose data t = .ok true := by
    unfold isclose
    split
    · rfl
    · rw [if_neg (List.ne_nil_of_mem hd), if_neg]
      · congr 1
        exact List.any_eq_true.2 ⟨d, hd, by simpa using hclose⟩
      · simp only [Bool.or_eq_true, List.all_eq_true, decide_eq_true_eq, not_or, not_forall]
        exact ⟨⟨lo, hlo, not_lt.2 hlo'⟩, ⟨hi, hhi, not_lt.2 hhi'⟩⟩
  simp only [computeIndex, hi, h1]

/-- **C38**, coordinates: a target that is not within the hundred-thousandth part of any value is refused. -/
theorem c38_compute_missing (data : List K) (t : K) (h : ∀ d ∈ data, 1 / 100000 * |d| < |t - d|) :
    computeIndex data .none t = .error .value := by
  have ht : t ∉ data := fun hm => by
    have := h t hm
    simp only [sub_self, abs_zero] at this
    have h0 := abs_nonneg t
    linarith
  unfold computeIndex isclose
  rw [if_neg ht]
  split
  · rename_i e he
    split at he
    · cases he; rfl
    · split at he <;> cases he
  · rename_i he
    exfalso
    split at he
    · cases he
    · split at he
      · cases he
      · have : (data.any fun d => decide (|t - d| ≤ 1 / 100000 * |d|)) = true := by simpa using he
        obtain ⟨d, hd, hc⟩ := List.any_eq_true.1 this
        exact absurd (h d hd) (not_lt.2 (by simpa using hc))
  · rfl

/-- **C38** does not hold in the other direction: a target just beyond the last value is refused, although it is closer to
it than targets that are found. -/
theorem c38_beyond : computeIndex [(1 : ℚ), 2] .none (2 - 1 / 100000) = .ok 1 ∧
    computeIndex [(1 : ℚ), 2] .none (2 + 1 / 10 ^ 12) = .error .value := by decide +kernel

theorem isclose_false {data : List K} {t : K} (hne : data ≠ []) (h : ∀ d ∈ data, 1 / 100000 * |d| < |t - d|) :
    isclose data t = .ok false := by
  have ht : t ∉ data := fun hm => by
    have := h t hm
    simp only [sub_self, abs_zero] at this
    have h0 := abs_nonneg t
    linarith
  unfold isclose
  rw [if_neg ht, if_neg hne]
  split
  · rfl
  · congr 1
    rw [← Bool.not_eq_true, List.any_eq_true]
    rintro ⟨d, hd, hc⟩
    exact absurd (h d hd) (not_lt.2 (by simpa using hc))

/-- **C38**, `closest='lower'` on an increasing axis: the largest value below the target, or the first value if there is
none. -/
theorem c38_lower (data : List K) (t : K) (hne : data ≠ []) (hs : data.Pairwise (· ≤ ·))
    (h : ∀ d ∈ data, 1 / 100000 * |d| < |t - d|) :
    ((∃ x ∈ data, x ≤ t) → ∃ (i : Nat) (v : K), computeIndex data .lower t = .ok (i : ℤ) ∧ data[i]? = some v ∧ v ≤ t ∧
      ∀ y ∈ data, y ≤ t → y ≤ v) ∧
    ((∀ x ∈ data, t < x) → computeIndex data .lower t = .ok 0) := by
  obtain ⟨h1, h2⟩ := c11_nearest_upper data t hne hs
  have hf := isclose_false hne h
  refine ⟨?_, ?_⟩
  · rintro ⟨x, hx, hxt⟩
    obtain ⟨i, v, hi, hv, hvt, hmax⟩ := h1 x hx hxt
    exact ⟨i, v, by simp [computeIndex, hf, nearestIndex, hi], hv, hvt, hmax⟩
  · intro hall
    obtain ⟨v, hv, _⟩ := h2 hall
    simp [computeIndex, hf, nearestIndex, hv]

/-- **C38**, `closest='upper'` on an increasing axis: the smallest value above the target, or the last position, written
`-1`, if there is none. -/
theorem c38_upper (data : List K) (t : K) (hne : data ≠ []) (hs : data.Pairwise (· ≤ ·))
    (h : ∀ d ∈ data, 1 / 100000 * |d| < |t - d|) :
    ((∃ x ∈ data, t ≤ x) → ∃ (i : Nat) (v : K), computeIndex data .upper t = .ok (i : ℤ) ∧ data[i]? = some v ∧ t ≤ v ∧
      ∀ y ∈ data, t ≤ y → v ≤ y) ∧
    ((∀ x ∈ data, x < t) → computeIndex data .upper t = .ok (-1)) := by
  obtain ⟨h1, h2⟩ := c11_nearest_lower data t hne hs
  have hf := isclose_false hne h
  refine ⟨?_, ?_⟩
  · rintro ⟨x, hx, hxt⟩
    obtain ⟨i, v, hi, hv, hvt, hmax⟩ := h1 x hx hxt
    exact ⟨i, v, by simp [computeIndex, hf, nearestIndex, hi], hv, hvt, hmax⟩
  · intro hall
    obtain ⟨v, hv, _⟩ := h2 hall
    simp [computeIndex, hf, nearestIndex, hv]

example : computeIndex [(-1 : ℚ), 1, 3 / 2, 2, 101 / 10] .lower (12 / 10) = .ok 1 ∧
    computeIndex [(-1 : ℚ), 1, 3 / 2, 2, 101 / 10] .upper (12 / 10) = .ok 2 ∧
    computeIndex [(-1 : ℚ), 1, 3 / 2, 2, 101 / 10] .upper 12 = .ok (-1) ∧
    computeIndex [(-1 : ℚ), 1, 3 / 2, 2, 101 / 10] .none (1 / 2) = .error .value ∧
    computeIndex [(-1 : ℚ), 1, 3 / 2, 2, 101 / 10] .none (1 + 1 / 10 ^ 9) = .ok 1 := by decide +kernel

/-! ### With units -/

theorem seqList_map (l : List ℝ) (f : ℝ → ℝ) {y : ND ℝ} (hs : y.shape = [l.length])
    (hy : ∀ i, y.get [i] = f (l.getD i 0)) : seqList y = l.map f := by
  have hsz : y.size = l.length := by simp [ND.size, hs, Numeric.sizeOf]
  unfold seqList
  rw [hsz]
  apply List.ext_getElem (by simp)
  intro i h1 h2
  simp only [List.length_map, List.length_range] at h1
  have := hy i
  simp only [ND.get, hs, ravel, Numeric.sizeOf, List.foldr_nil, mul_one, add_zero] at this
  simp [this, List.getD_eq_getElem?_getD, h1]

theorem convertible_self (nodes : List Name) {s : Name} (h : IsSymbolOf s s) : Convertible nodes s s := by
  have : convertAsStrings (realEnv nodes) s s = some 1 := by
    simp [convertAsStrings, recursiveConversion, standardConversion, simpleConversion, truthy]
  exact ⟨⟨1, this⟩, ⟨1, this⟩⟩

theorem converted (nodes : List Name) (systems : List System) (φ : Name → ℚ) (hφ : TableSizes φ)
    (rs : List (Name × Name)) (l : List ℝ) (s v : Name) (hs : IsSymbolOf s s) (hv : IsSymbolOf v v)
    (hc : Convertible nodes s v) :
    ∃ y, (withunit (realConv nodes systems) (afterRequests (realConv nodes systems) [] rs) ⟨seqData l, [⟨1, s, 1⟩]⟩ v) =
      (afterRequests (realConv nodes systems) [] (rs ++ [(s, v)]), .ok y) ∧
      seqList y.data = l.map (fun a => a * ((φ s : ℝ) / φ v)) := by
  obtain ⟨y, hy, hu, hsa⟩ := c34_named nodes systems φ hφ rs ⟨seqData l, [⟨1, s, 1⟩]⟩ s v v rfl hs hv hc
  refine ⟨y, hy, seqList_map l _ hsa.shape (fun i => ?_)⟩
  have h := hsa.amount [i]
  have hp : (φ v : ℝ) ≠ 0 := by have := hφ.pos v; exact_mod_cast this.ne'
  have hd : (seqData l).get [i] = l.getD i 0 := by simp [seqData, ND.get, ravel, Numeric.sizeOf]
  simp only [Obj.amount, hu, value_symbol _ hs.1, value_symbol _ hv.1, hd] at h
  field_simp
  linarith

/-- The unit that numbers without a unit are given. -/
def givenUnit (u : Name) : Option Name → Name
  | none => u
  | some s => s

/-- The unit of targets. -/
def unitTerms : Option Name → List Term
  | none => [⟨1, Symbolic.one, 1⟩]
  | some s => [⟨1, s, 1⟩]

theorem unitless_symbol {s : Name} (h : s ≠ Symbolic.one) : isUnitless [⟨1, s, 1⟩] = false := by
  rw [← Bool.not_eq_true, isUnitless, exprEq_symbols]; exact h

theorem index_eq (nodes : List Name) (systems : List System) (φ : Name → ℚ) (hφ : TableSizes φ)
    (rs : List (Name × Name)) (x : Axis ℝ) (u : Name) (hu : IsSymbolOf u u) (l : List ℝ) (hl : l ≠ []) (s : Option Name)
    (hs : ∀ n, s = some n → IsSymbolOf n n ∧ Convertible nodes n u) (c : Closest) :
    ∃ st, x.indexCoordinates (realConv nodes systems) (afterRequests (realConv nodes systems) [] rs) [⟨1, u, 1⟩]
      (some (l, unitTerms s)) c = (st, match collect (computeIndex x.data c)
        (l.map (fun a => a * ((φ (givenUnit u s) : ℝ) / φ u))) with
        | .error e => .error (.look e)
        | .ok is => .ok (.ofList is)) := by
  have hg : IsSymbolOf (givenUnit u s) (givenUnit u s) ∧ Convertible nodes (givenUnit u s) u := by
    cases s with
    | none => exact ⟨hu, convertible_self nodes hu⟩
    | some n => exact hs n rfl
  obtain ⟨y, hy, hd⟩ := converted nodes systems φ hφ rs l _ u hg.1 hu hg.2
  have hunit : (if isUnitless (unitTerms s) then [⟨1, u, 1⟩] else unitTerms s) = [⟨1, givenUnit u s, 1⟩] := by
    cases s with
    | none => rw [if_pos (by decide +kernel)]; rfl
    | some n => rw [if_neg (by rw [unitTerms, unitless_symbol (hs n rfl).1.1]; simp)]; rfl
  refine ⟨afterRequests (realConv nodes systems) [] (rs ++ [(givenUnit u s, u)]), ?_⟩
  cases l with
  | nil => exact absurd rfl hl
  | cons a l =>
    simp only [Axis.indexCoordinates, hunit, show_symbol, hy, hd]
    cases collect (computeIndex x.data c) (List.map (fun a => a * ((φ (givenUnit u s) : ℝ) / φ u)) (a :: l)) <;> rfl

/-- **C38**, coordinates with units: if the look-up succeeds, then the answer has one position on the axis for every target,
and the amount there differs from the amount of the target by at most its 99999th part.  Targets without a unit are taken
in the unit of the axis. -/
theorem c38_coordinates (nodes : List Name) (systems : List System) (φ : Name → ℚ) (hφ : TableSizes φ)
    (rs : List (Name × Name)) (x : Axis ℝ) (u : Name) (hu : IsSymbolOf u u) (l : List ℝ) (hl : l ≠ []) (s : Option Name)
    (hs : ∀ n, s = some n → IsSymbolOf n n ∧ Convertible nodes n u) (r : Index)
    (h : (x.indexCoordinates (realConv nodes systems) (afterRequests (realConv nodes systems) [] rs) [⟨1, u, 1⟩]
      (some (l, unitTerms s)) .none).2 = .ok r) :
    ∃ is : List Nat, r.Is (is.map (fun i : Nat => (i : ℤ))) ∧ List.Forall₂ (fun (a : ℝ) (i : Nat) => ∃ v : ℝ, x.data[i]? = some v ∧
      |v * φ u - a * φ (givenUnit u s)| ≤ |a * φ (givenUnit u s)| / 99999) l is := by
  obtain ⟨st, he⟩ := index_eq nodes systems φ hφ rs x u hu l hl s hs .none
  rw [he] at h
  have hp : (0 : ℝ) < φ u := by exact_mod_cast hφ.pos u
  split at h
  · cases h
  · rename_i js hjs
    simp only [Except.ok.injEq] at h
    have h2 := collect_inv hjs
    rw [List.forall₂_map_left_iff] at h2
    have h3 : ∀ a j, computeIndex x.data .none (a * ((φ (givenUnit u s) : ℝ) / φ u)) = .ok j →
        ∃ i : Nat, j = i ∧ ∃ v, x.data[i]? = some v ∧
          |v * φ u - a * φ (givenUnit u s)| ≤ |a * φ (givenUnit u s)| / 99999 := by
      intro a j hj
      obtain ⟨i, v, hi, hv, _, hd⟩ := c38_compute_sound _ _ _ hj
      refine ⟨i, hi, v, hv, ?_⟩
      have e1 : v * φ u - a * φ (givenUnit u s) = (v - a * ((φ (givenUnit u s) : ℝ) / φ u)) * φ u := by field_simp
      have e2 : a * φ (givenUnit u s) = a * ((φ (givenUnit u s) : ℝ) / φ u) * φ u := by field_simp
      rw [e1, abs_mul, abs_of_pos hp, e2, abs_mul _ (φ u : ℝ), abs_of_pos hp]
      have := mul_le_mul_of_nonneg_right hd hp.le
      linarith
    clear hjs he
    have h4 : ∃ is : List Nat, js = is.map (fun i : Nat => (i : ℤ)) ∧ List.Forall₂ (fun (a : ℝ) (i : Nat) => ∃ v : ℝ, x.data[i]? = some v ∧
        |v * φ u - a * φ (givenUnit u s)| ≤ |a * φ (givenUnit u s)| / 99999) l is := by
      clear h hl
      induction h2 with
      | nil => exact ⟨[], rfl, .nil⟩
      | cons hab _ ih =>
        obtain ⟨i, hi, hv⟩ := h3 _ _ hab
        obtain ⟨is, his, hf⟩ := ih
        exact ⟨i :: is, by rw [hi, his]; rfl, .cons hv hf⟩
    obtain ⟨is, rfl, hf⟩ := h4
    exact ⟨is, h ▸ ofList_is _, hf⟩

/-- **C38**, coordinates with units: targets whose amounts are on the axis are found, exactly. -/
theorem c38_coordinates_found (nodes : List Name) (systems : List System) (φ : Name → ℚ) (hφ : TableSizes φ)
    (rs : List (Name × Name)) (x : Axis ℝ) (u : Name) (hu : IsSymbolOf u u) (l : List ℝ) (hl : l ≠ []) (s : Option Name)
    (hs : ∀ n, s = some n → IsSymbolOf n n ∧ Convertible nodes n u) (c : Closest)
    (h : ∀ a ∈ l, ∃ v ∈ x.data, v * φ u = a * φ (givenUnit u s)) :
    ∃ (r : Index) (is : List Nat), (x.indexCoordinates (realConv nodes systems)
        (afterRequests (realConv nodes systems) [] rs) [⟨1, u, 1⟩] (some (l, unitTerms s)) c).2 = .ok r ∧
      r.Is (is.map (fun i : Nat => (i : ℤ))) ∧
      List.Forall₂ (fun (a : ℝ) (i : Nat) => ∃ v : ℝ, FirstAt x.data v i ∧ v * φ u = a * φ (givenUnit u s)) l is := by
  obtain ⟨st, he⟩ := index_eq nodes systems φ hφ rs x u hu l hl s hs c
  have hp : (0 : ℝ) < φ u := by exact_mod_cast hφ.pos u
  obtain ⟨is, h1, h2⟩ := collect_nat (f := computeIndex x.data c) (P := fun t i => FirstAt x.data t i)
    (l := l.map (fun a => a * ((φ (givenUnit u s) : ℝ) / φ u))) (fun t ht => by
      obtain ⟨a, ha, rfl⟩ := List.mem_map.1 ht
      obtain ⟨v, hv, hva⟩ := h a ha
      have : a * ((φ (givenUnit u s) : ℝ) / φ u) = v := by rw [← mul_div_assoc, ← hva]; field_simp
      exact c38_compute_exact _ _ _ (this ▸ hv))
  rw [List.forall₂_map_left_iff] at h2
  refine ⟨_, is, by rw [he, h1], ofList_is _, h2.imp (fun a i hi => ⟨_, hi, by field_simp⟩)⟩

/-- **C38**, coordinates with units: a target that differs from every value on the axis by more than the hundred-thousandth
part of that value is refused. -/
theorem c38_coordinates_missing (nodes : List Name) (systems : List System) (φ : Name → ℚ) (hφ : TableSizes φ)
    (rs : List (Name × Name)) (x : Axis ℝ) (u : Name) (hu : IsSymbolOf u u) (l : List ℝ) (s : Option Name)
    (hs : ∀ n, s = some n → IsSymbolOf n n ∧ Convertible nodes n u) (a : ℝ) (ha : a ∈ l)
    (h : ∀ v ∈ x.data, 1 / 100000 * |v * φ u| < |a * φ (givenUnit u s) - v * φ u|) (r : Index) :
    (x.indexCoordinates (realConv nodes systems) (afterRequests (realConv nodes systems) [] rs) [⟨1, u, 1⟩]
      (some (l, unitTerms s)) .none).2 ≠ .ok r := by
  obtain ⟨st, he⟩ := index_eq nodes systems φ hφ rs x u hu l (List.ne_nil_of_mem ha) s hs .none
  rw [he]
  have hp : (0 : ℝ) < φ u := by exact_mod_cast hφ.pos u
  have hm := c38_compute_missing x.data (a * ((φ (givenUnit u s) : ℝ) / φ u)) (fun d hd => by
    have := h d hd
    have e1 : a * φ (givenUnit u s) - d * φ u = (a * ((φ (givenUnit u s) : ℝ) / φ u) - d) * φ u := by field_simp
    rw [e1, abs_mul, abs_mul, abs_of_pos hp, ← mul_assoc] at this
    exact lt_of_mul_lt_mul_right this hp.le)
  split
  · simp
  · rename_i js hjs
    have h2 := collect_inv hjs
    rw [List.forall₂_map_left_iff] at h2
    exfalso
    obtain ⟨j, hj⟩ : ∃ j, computeIndex x.data .none (a * ((φ (givenUnit u s) : ℝ) / φ u)) = .ok j := by
      clear hjs he hm h
      induction h2 with
      | nil => cases ha
      | cons hab _ ih =>
        rcases List.mem_cons.1 ha with rfl | h'
        · exact ⟨_, hab⟩
        · exact ih h'
    rw [hm] at hj
    cases hj

/-- **C38**, a request of all positions. -/
theorem c38_coordinates_all (c : Conv K) [DecidableEq K] (st : Cache K) (d : List K) (u : List Term) (cl : Closest) :
    (⟨d, none⟩ : Axis K).indexCoordinates c st u none cl =
      (st, .ok (.sequence ((List.range d.length).map (fun i : Nat => (i : ℤ))))) := rfl

set_option maxHeartbeats 100000000 in
/-- an axis in meters, targets in centimeters, and without a unit -/
example : ∀ c ∈ ratConvs,
    ((⟨[-1, 1, 3 / 2, 2, 101 / 10], none⟩ : Axis ℚ).indexCoordinates c [] [⟨1, c! "m", 1⟩]
      (some ([-100, 150], [⟨1, c! "cm", 1⟩])) .none).2 = .ok (.sequence [0, 2]) ∧
    ((⟨[-1, 1, 3 / 2, 2, 101 / 10], none⟩ : Axis ℚ).indexCoordinates c [] [⟨1, c! "m", 1⟩]
      (some ([3 / 2], [⟨1, Symbolic.one, 1⟩])) .none).2 = .ok (.value 2) ∧
    ((⟨[-1, 1, 3 / 2, 2, 101 / 10], none⟩ : Axis ℚ).indexCoordinates c [] [⟨1, c! "m", 1⟩]
      (some ([3 / 2], [⟨1, c! "cm", 1⟩])) .none).2 = .error (.look .value) := by decide +kernel

example : IsSymbolOf c! "m" c! "m" ∧ IsSymbolOf c! "cm" c! "cm" ∧ Convertible tableNodes c! "cm" c! "m" :=
  ⟨isSymbolOf_of (by decide +kernel), isSymbolOf_of (by decide +kernel), convertible_of (by decide +kernel)⟩

end Coordinates

/-! ## C73: subscripted axes -/

theorem atIndex_of_axisIndex {α : Type} {l : List α} {i : ℤ} {j : Nat} {v : α} (h : axisIndex l.length i = .ok j)
    (hv : l[j]? = some v) : AtIndex l i v := by
  unfold axisIndex at h
  split at h
  · rename_i hr
    simp only [Except.ok.injEq] at h
    by_cases hi : i < 0
    · rw [if_pos hi] at h
      exact .inr ⟨hi, by omega, by rw [h]; exact hv⟩
    · rw [if_neg hi] at h
      exact .inl ⟨by omega, by rw [h]; exact hv⟩
  · cases h

theorem axisIndex_lt {n : Nat} {i : ℤ} {j : Nat} (h : axisIndex n i = .ok j) : j < n := by
  unfold axisIndex at h
  split at h
  · rename_i hr
    simp only [Except.ok.injEq] at h
    split at h <;> omega
  · cases h

theorem positions_seq {α : Type} {l : List α} : ∀ {is : List ℤ} {js : List Nat}, collect (axisIndex l.length) is = .ok js →
    PositionsOf l (js.filterMap (fun j => l[j]?)) is
  | is, js, h => by
    have h2 := collect_inv h
    clear h
    induction h2 with
    | nil => exact .nil
    | @cons a b xs ys hab _ ih =>
      have hb := List.getElem?_eq_getElem (axisIndex_lt hab)
      simp only [List.filterMap_cons, hb]
      exact .cons (atIndex_of_axisIndex hab hb) ih

theorem positions_nat {α : Type} {l : List α} : ∀ {is : List ℤ}, (∀ i ∈ is, 0 ≤ i) → (∀ i ∈ is.map Int.toNat, i < l.length) →
    PositionsOf l ((is.map Int.toNat).filterMap (fun j => l[j]?)) is
  | [], _, _ => .nil
  | i :: is, h0, h1 => by
    have hb := List.getElem?_eq_getElem (h1 i.toNat (by simp))
    simp only [List.map_cons, List.filterMap_cons, hb]
    exact .cons (.inl ⟨h0 i (by simp), hb⟩) (positions_nat (fun j hj => h0 j (by simp [hj])) (fun j hj => h1 j (by
      simp only [List.map_cons, List.mem_cons]; exact .inr hj)))

theorem positions_all {α : Type} (l : List α) : PositionsOf l l ((List.range l.length).map (fun i : Nat => (i : ℤ))) := by
  unfold PositionsOf
  rw [List.forall₂_map_left_iff, List.forall₂_iff_get]
  refine ⟨by simp, fun i h1 h2 => .inl ⟨by simp, by simp⟩⟩

/-- Subscripts for which positions are recorded correctly: slices have bounds on the axis, written without a sign, and a
positive step. -/
def Plain (n : Nat) : Arg → Prop
  | .slice a b c => (∀ x, a = some x → 0 ≤ x) ∧ (∀ y, b = some y → 0 ≤ y ∧ y ≤ n) ∧ (∀ z, c = some z → 0 < z)
  | _ => True

theorem filterMap_range {α : Type} (m : List α) : (List.range m.length).filterMap (fun j => m[j]?) = m := by
  induction m with
  | nil => rfl
  | cons a m ih =>
    rw [List.length_cons, List.range_succ_eq_map, List.filterMap_cons]
    simp only [List.getElem?_cons_zero, List.filterMap_map]
    congr 1

theorem getItem_positions {α : Type} (x y : Axis α) (i : Arg) (hp : Plain x.data.length i) (h : x.getItem i = .ok y) :
    match y.stored with
    | none => y.data = x.data
    | some is => PositionsOf x.data y.data is := by
  unfold Axis.getItem at h
  split at h
  · cases h
  · rename_i d hd
    split at h
    · cases h
    · rename_i r hr
      cases h
      cases i with
      | int i =>
        simp only [recorded, Except.ok.injEq] at hr
        subst hr
        simp only [pick] at hd
        split at hd
        · cases hd
        · rename_i j hj
          cases hd
          have hb := List.getElem?_eq_getElem (axisIndex_lt hj)
          rw [hb]
          exact .cons (atIndex_of_axisIndex hj hb) .nil
      | ellipsis =>
        simp only [recorded, Except.ok.injEq] at hr
        subst hr
        simp only [pick, Except.ok.injEq] at hd
        exact hd.symm
      | seq k is =>
        simp only [recorded, Except.ok.injEq] at hr
        subst hr
        simp only [pick] at hd
        split at hd
        · cases hd
        · rename_i js hj
          cases hd
          exact positions_seq hj
      | slice a b c =>
        obtain ⟨ha, hb, hc⟩ := hp
        obtain ⟨l, h1, h2, h3⟩ := c40_positions_partial x.data.length a b c ha hb hc
        simp only [pick, h2, Except.ok.injEq] at hd
        have hlt := slicePositions_lt h2
        by_cases hfull : a = none ∧ b = none ∧ c = none
        · obtain ⟨rfl, rfl, rfl⟩ := hfull
          simp only [recorded, Except.ok.injEq] at hr
          subst hr
          rw [slicePositions_full] at h2
          simp only [Except.ok.injEq] at h2
          rw [← hd, ← h2]
          show (List.range x.data.length).filterMap (fun j => x.data[j]?) = x.data
          exact filterMap_range _
        · have hrec : recorded x.data.length (.slice a b c) = (slice2range a b c (some (x.data.length : ℤ))).map some := by
            cases a <;> cases b <;> cases c <;> first | rfl | exact absurd ⟨rfl, rfl, rfl⟩ hfull
          rw [hrec, h1] at hr
          cases hr
          rw [← hd]
          exact positions_nat h3 hlt

/-- **C73**, coordinates, and symbols subscripted by an integer or a slice.  A subscripted axis remembers where its values
were, for an integer of either sign, a list of such integers, an ellipsis, and a slice with bounds on the axis written
without a sign and a positive step. -/
theorem c73_subscript_partial {α : Type} (x y : Axis α) (i : Arg) (hp : Plain x.data.length i) (h : x.getItem i = .ok y) :
    PositionsOf x.data y.data y.indices := by
  have := getItem_positions x y i hp h
  cases hs : y.stored with
  | none =>
    rw [hs] at this
    simp only [Axis.indices, hs, Option.getD_none]
    simp only at this
    rw [this]
    exact positions_all _
  | some is =>
    rw [hs] at this
    simpa only [Axis.indices, hs, Option.getD_some] using this

/-- **C73**, points: the same, but not for an ellipsis or the full slice. -/
theorem c73_points_partial (x y : Axis ℤ) (i : Arg) (hp : Plain x.data.length i) (h : x.getItem i = .ok y)
    (hi : i ≠ .ellipsis) (hf : i ≠ .full) : PositionsOf x.data y.data y.pointIndices := by
  have := getItem_positions x y i hp h
  cases hs : y.stored with
  | none =>
    exfalso
    have hr : recorded x.data.length i = .ok y.stored := by
      unfold Axis.getItem at h
      split at h
      · cases h
      · split at h
        · cases h
        · rename_i r hr; cases h; exact hr
    rw [hs] at hr
    cases i with
    | int i => cases hr
    | ellipsis => exact hi rfl
    | seq k is => cases hr
    | slice a b c =>
      have hn : ∀ a b c, (slice2range a b c (some (x.data.length : ℤ))).map some ≠ .ok none := by
        intro a b c
        cases slice2range a b c (some (x.data.length : ℤ)) <;> simp [Except.map]
      cases a <;> cases b <;> cases c <;> first | exact hf rfl | (simp only [recorded] at hr; exact hn _ _ _ hr)
  | some is =>
    rw [hs] at this
    simpa only [Axis.pointIndices, hs, Option.getD_some] using this

example : (⟨[1, 10, 100, 1000, 10000], none⟩ : Axis ℤ).getItem (.slice (some 1) (some 4) none) =
    .ok ⟨[10, 100, 1000], some [1, 2, 3]⟩ := by rfl
example : (⟨["a", "b0", "c"], none⟩ : Axis String).getItem (.int (-1)) = .ok ⟨["c"], some [-1]⟩ := by rfl
example : Plain 5 (.slice (some 1) (some 4) none) := by simp [Plain]
example : (⟨[1, 10, 100, 1000, 10000], none⟩ : Axis ℤ).getItem (.seq .list [3, 0]) =
    .ok ⟨[1000, 1], some [3, 0]⟩ := by rfl

/-- **C73** is violated by negative bounds: `points[1:-1]` has three values and no positions. -/
theorem c73_not_negative : (⟨[1, 10, 100, 1000, 10000], none⟩ : Axis ℤ).getItem (.slice (some 1) (some (-1)) none) =
    .ok ⟨[10, 100, 1000], some []⟩ := by rfl

/-- **C73** is violated by a bound beyond the axis: there are more positions than values. -/
theorem c73_not_beyond : (⟨[1, 10, 100], none⟩ : Axis ℤ).getItem (.slice (some 1) (some 5) none) =
    .ok ⟨[10, 100], some [1, 2, 3, 4]⟩ := by rfl

/-- **C73** is violated by a list of positions of symbols: the third symbol is said to have been the first. -/
theorem c73_not_symbols : ∃ y, (⟨["a", "b0", "c"], none⟩ : Axis String).getItemSymbols (.seq .list [2]) = .ok y ∧
    y.data = ["c"] ∧ y.indices = [0] := ⟨⟨["c"], none⟩, rfl, rfl, rfl⟩

/-- **C73** is violated by points subscripted with `:`: the positions are the values. -/
theorem c73_not_points : ∃ y, (⟨[10, 100], none⟩ : Axis ℤ).getItem .full = .ok y ∧
    y.data = [10, 100] ∧ y.pointIndices = [10, 100] := ⟨⟨[10, 100], none⟩, rfl, rfl, rfl⟩

/-- **C73**, the positions are those in the axis that was subscripted, not those in the first one. -/
theorem c73_nested : ∃ y z, (⟨["a", "b", "c", "d"], none⟩ : Axis String).getItem (.slice (some 1) none none) = .ok y ∧
    y.getItem (.slice (some 1) none none) = .ok z ∧ z.data = ["c", "d"] ∧ z.indices = [1, 2] :=
  ⟨⟨["b", "c", "d"], some [1, 2, 3]⟩, ⟨["c", "d"], some [1, 2]⟩, rfl, rfl, rfl, rfl⟩

end Eprem.Axis
