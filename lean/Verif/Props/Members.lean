import Verif.Spec.Members
import Verif.Lemmas.NumericIndex
import Verif.Lemmas.Numpy
import Verif.Props.Measured
import Mathlib.Data.List.GetD

/-!
# Vectors, tensors and measured sequences as sequences (C107), and casts to built-in types (C108)
-/

namespace Eprem.Physical

open Eprem Eprem.Symbolic Eprem.Metric Eprem.Numeric Eprem.Measured

variable {κ ν K T : Type}

theorem IsSeries.data {x : Obj K} {l : List K} {u : List Term} (h : IsSeries x l u) {i : Nat} (hi : i < l.length) :
    x.data.data i = l[i] := by
  have := h.values i l[i] (List.getElem?_eq_getElem hi)
  rw [← this, ND.get, h.shape]
  simp [ravel, Numeric.sizeOf]

theorem IsSeries.size {x : Obj K} {l : List K} {u : List Term} (h : IsSeries x l u) : x.data.size = l.length := by
  simp [ND.size, h.shape, Numeric.sizeOf]

/-- `len(x)` is the number of values. -/
theorem c107_length (x : Obj K) (l : List K) (u : List Term) (h : IsSeries x l u) : length x = .ok l.length := by
  simp [length, h.shape]

theorem npIndex_int {x : Obj K} {l : List K} {u : List Term} (h : IsSeries x l u) {i : ℤ} {j : Nat}
    (hj : axisIndex l.length i = .ok j) : npIndex x.data (.itself (.int i)) = .ok (x.data.select [.drop j]) := by
  simp only [npIndex, h.shape, picksOf, pickOf, hj]; rfl

/-- `x[i]` for `-len(x) ≤ i < len(x)` is the value at that position, counted from the end if `i` is negative, with the unit
of `x`. -/
theorem c107_item (k : Series) (x : Obj K) (l : List K) (u : List Term) (h : IsSeries x l u) (i : ℤ) (j : Nat)
    (hj : j < l.length) (hi : i = j ∨ i = (j : ℤ) - l.length) : item k x (.one (.int i)) = .ok (.value l[j] u) := by
  have hax : axisIndex l.length i = .ok j := axisIndex_ok.2 ⟨hj, by omega⟩
  have hd : (x.data.select [.drop j]).data 0 = l[j] := by
    show x.data.get [j] = _
    exact h.values j _ (List.getElem?_eq_getElem hj)
  simp only [item, subData, npIndex_int h hax, memberOf]
  cases k <;> simp [spawnValue, ND.size, ND.ndim, ND.select, ND.ofFn, pickShape, Numeric.sizeOf, h.unit] <;> exact hd

/-- Outside, `x[i]` raises `IndexError`. -/
theorem c107_outside (k : Series) (x : Obj K) (l : List K) (u : List Term) (h : IsSeries x l u) (i : ℤ)
    (hi : i < -l.length ∨ (l.length : ℤ) ≤ i) : item k x (.one (.int i)) = .error (.look .index) := by
  have : axisIndex l.length i = .error .index := by
    unfold axisIndex; rw [if_neg]; omega
  simp only [item, subData, npIndex, h.shape, picksOf, pickOf, this]; rfl

theorem iterateFrom_eq (k : Series) (x : Obj K) (l : List K) (u : List Term) (h : IsSeries x l u) :
    ∀ (fuel i : Nat), i ≤ l.length → l.length < fuel + i →
      iterateFrom k x fuel i = some (.ok ((l.drop i).map (fun v => .value v u)))
  | 0, i, h1, h2 => by omega
  | fuel + 1, i, h1, h2 => by
    rcases Nat.lt_or_ge i l.length with hi | hi
    · have h3 := c107_item k x l u h i i hi (Or.inl rfl)
      have h4 := iterateFrom_eq k x l u h fuel (i + 1) hi (by omega)
      simp only [iterateFrom, h3, h4]
      rw [List.drop_eq_getElem_cons hi]; rfl
    · have h3 := c107_outside k x l u h i (Or.inr (by omega))
      simp only [iterateFrom, h3]
      rw [List.drop_eq_nil_of_le hi]; rfl

/-- Iteration over `x` ends, and gives the values in order, each with the unit of `x`. -/
theorem c107_iterate (k : Series) (x : Obj K) (l : List K) (u : List Term) (h : IsSeries x l u) (fuel : Nat)
    (hf : l.length < fuel) : iterate k x fuel = some (.ok (l.map (fun v => .value v u))) := by
  have hl : (List.range x.data.size).map (fun i => Member.value (x.data.data i) x.unit) = l.map (fun v => .value v u) := by
    rw [h.size, h.unit]
    apply List.ext_getElem (by simp)
    intro i h1 h2
    simp only [List.length_map, List.length_range] at h1
    simp [h.data h1]
  cases k with
  | measured => exact (iterateFrom_eq .measured x l u h fuel 0 (by omega) (by omega)).trans (by simp)
  | vector => exact congrArg (some ∘ Except.ok) hl
  | tensor => exact congrArg (some ∘ Except.ok) hl

theorem positions_lt {n : Nat} {a : Arg} {ps : List Nat} (h : Positions n a ps) : ∀ p ∈ ps, p < n := by
  cases a with
  | int i => obtain ⟨j, rfl, hj, -⟩ := h; simpa using hj
  | slice a b s => exact fun p hp => slicePositions_lt h p hp
  | ellipsis => exact h.elim
  | seq k is =>
    intro p hp
    obtain ⟨m, hm, rfl⟩ := List.getElem_of_mem hp
    have h' : List.Forall₂ (fun i j => (j : Nat) < n ∧ ((j : ℤ) = i ∨ (j : ℤ) = i + n)) is ps := h
    have hlen := h'.length_eq
    exact ((List.forall₂_iff_get.1 h').2 m (by omega) hm).1

theorem npIndex_part {x : Obj K} {l : List K} {u : List Term} (h : IsSeries x l u) {a : Arg} {ps : List Nat}
    (hp : Positions l.length a ps) (ha : ∀ i, a ≠ .int i) : npIndex x.data (.itself a) = .ok (x.data.select [.keep ps]) := by
  obtain ⟨p, h1, -, h3⟩ := pickOf_of hp
  have ha' : a ≠ .ellipsis := by rintro rfl; exact hp.elim
  have : npIndex x.data (.itself a) = (picksOf x.data.shape [a]).map x.data.select := by
    cases a with
    | ellipsis => exact absurd rfl ha'
    | _ => rfl
  rw [this, h.shape]
  simp only [picksOf, h1, h3 ha]; rfl

/-- The values of the selected part. -/
theorem select_series {x : Obj K} {l : List K} {u : List Term} (h : IsSeries x l u) {ps : List Nat}
    (hp : ∀ p ∈ ps, p < l.length) : IsSeries ⟨x.data.select [.keep ps], u⟩ (ps.filterMap (fun j => l[j]?)) u := by
  have hmap : ps.filterMap (fun j => l[j]?) = ps.attach.map (fun j => l[j.1]'(hp _ j.2)) := by
    have : ∀ qs : List Nat, ∀ hq : ∀ p ∈ qs, p < l.length,
        qs.filterMap (fun j => l[j]?) = qs.pmap (fun j hj => l[j]'hj) hq := by
      intro qs
      induction qs with
      | nil => intro; rfl
      | cons q qs ih =>
        intro hq
        have hq1 := hq q (by simp)
        rw [List.filterMap_cons, List.getElem?_eq_getElem hq1, List.pmap_cons]
        simp only
        rw [ih (fun p hp => hq p (by simp [hp]))]
    rw [this ps hp, List.pmap_eq_map_attach]
  refine ⟨?_, ?_, rfl⟩
  · simp [ND.select, ND.ofFn, pickShape, hmap]
  · intro i v hv
    rw [hmap] at hv
    have hi : i < ps.length := by
      have := (List.getElem?_eq_some_iff.1 hv).1; simpa using this
    have hv' : v = l[ps[i]]'(hp _ (List.getElem_mem hi)) := by
      rw [List.getElem?_eq_getElem (by simpa using hi)] at hv
      simpa using hv.symm
    show (x.data.select [.keep ps]).get [i] = v
    unfold ND.select
    rw [get_ofFn (show Valid [i] (pickShape [.keep ps]) from .cons hi .nil)]
    show x.data.get (ps.getD i 0 :: _) = v
    rw [List.getD_eq_getElem _ _ hi, hv']
    exact h.values _ _ (List.getElem?_eq_getElem _)

/-- A slice or list of positions that does not select exactly one value gives a sequence of the same class with the
selected values in order, and the same unit. -/
theorem c107_part_partial (k : Series) (x : Obj K) (l : List K) (u : List Term) (h : IsSeries x l u) (a : Arg)
    (ps : List Nat) (hp : Positions l.length a ps) (ha : ∀ i, a ≠ .int i) (h1 : ps.length ≠ 1) :
    ∃ o, item k x (.one a) = .ok (.several o) ∧ IsSeries o (ps.filterMap (fun j => l[j]?)) u := by
  have hs := select_series h (positions_lt hp)
  have hsz : (x.data.select [.keep ps]).size = ps.length := by
    simp [ND.size, ND.select, ND.ofFn, pickShape, Numeric.sizeOf]
  have hnd : (x.data.select [.keep ps]).ndim = 1 := rfl
  have hsh : (⟨[(x.data.select [.keep ps]).size], (x.data.select [.keep ps]).data⟩ : ND K) = x.data.select [.keep ps] := by
    rw [hsz]; rfl
  refine ⟨⟨x.data.select [.keep ps], u⟩, ?_, hs⟩
  simp only [item, subData, npIndex_part h hp ha, memberOf]
  cases k <;> simp [spawnValue, hsz, h1, spawnSeries, hnd, h.unit, Except.map] <;> rfl

/-- One that selects exactly one value gives that value, not a sequence. -/
theorem c107_part_one (k : Series) (x : Obj K) (l : List K) (u : List Term) (h : IsSeries x l u) (a : Arg)
    (j : Nat) (hp : Positions l.length a [j]) (hj : j < l.length) : item k x (.one a) = .ok (.value l[j] u) := by
  by_cases ha : ∃ i, a = .int i
  · obtain ⟨i, rfl⟩ := ha
    obtain ⟨j', h1, h2, h3⟩ := hp
    obtain rfl : j = j' := by simpa using h1
    exact c107_item k x l u h i j hj (by omega)
  · have ha' : ∀ i, a ≠ .int i := fun i e => ha ⟨i, e⟩
    have hd : (x.data.select [.keep [j]]).data 0 = l[j] := by
      show x.data.get [j] = _
      exact h.values j _ (List.getElem?_eq_getElem hj)
    simp only [item, subData, npIndex_part h hp ha', memberOf]
    cases k <;> simp [spawnValue, ND.size, ND.ndim, ND.select, ND.ofFn, pickShape, Numeric.sizeOf, h.unit] <;> exact hd

/-- A slice of one value is not a sequence: `x[0:1]` of any sequence that is not empty is a single value. -/
theorem c107_not_slice (k : Series) (x : Obj K) (v : K) (l : List K) (u : List Term) (h : IsSeries x (v :: l) u) :
    item k x (.one (.slice (some 0) (some 1) none)) = .ok (.value v u) := by
  refine c107_part_one k x (v :: l) u h _ 0 ?_ (by simp)
  show slicePositions _ _ _ _ = _
  have : min (1 : ℤ) ((l.length : ℤ) + 1) = 1 := by omega
  have h0 : min (0 : ℤ) ((l.length : ℤ) + 1) = 0 := by omega
  simp [slicePositions, sliceBound, this, h0, rangeList, rangeLen, arith]

/-! ## Tensors -/

theorem npIndex_row {x : Obj K} {n : Nat} {s : List Nat} (h : x.data.shape = n :: s) {i : ℤ} {j : Nat}
    (hj : axisIndex n i = .ok j) :
    npIndex x.data (.itself (.int i)) = .ok (x.data.select (.drop j :: s.map (fun m => .keep (List.range m)))) := by
  have : ∀ s : List Nat, picksOf s [] = .ok (s.map (fun m => Pick.keep (List.range m))) := by
    intro s
    induction s with
    | nil => rfl
    | cons m s ih => simp only [picksOf, ih]; rfl
  simp only [npIndex, h, picksOf, pickOf, hj, this]; rfl

theorem pickShape_all (s : List Nat) : pickShape (s.map (fun m => Pick.keep (List.range m))) = s := by
  induction s with
  | nil => rfl
  | cons m s ih => simp [pickShape, ih]

theorem pickFrom_all {s p : List Nat} (h : Valid p s) : pickFrom (s.map (fun m => Pick.keep (List.range m))) p = p := by
  induction h with
  | nil => rfl
  | cons hi hs ih =>
    rw [List.map_cons, pickFrom, ih, List.getD_eq_getElem _ _ (by simpa using hi)]
    simp

/-- `t[i]` of a tensor with several dimensions is the tensor of the values at position `i` of the first dimension, unless
it has only one dimension and one value. -/
theorem c107_row (x : Obj K) (n : Nat) (s : List Nat) (hs : s ≠ []) (hx : x.data.shape = n :: s) (h1 : s ≠ [1]) (i : ℤ)
    (j : Nat) (hj : j < n) (hi : i = j ∨ i = (j : ℤ) - n) :
    ∃ o, item .tensor x (.one (.int i)) = .ok (.several o) ∧ o.data.shape = s ∧ o.unit = x.unit ∧
      ∀ p, Valid p s → o.data.get p = x.data.get (j :: p) := by
  have hax : axisIndex n i = .ok j := axisIndex_ok.2 ⟨hj, by omega⟩
  have hsh : (x.data.select (.drop j :: s.map (fun m => .keep (List.range m)))).shape = s := pickShape_all s
  refine ⟨⟨x.data.select (.drop j :: s.map (fun m => .keep (List.range m))), x.unit⟩, ?_, hsh, rfl, ?_⟩
  · simp only [item, subData, npIndex_row hx hax, memberOf]
    have hv : ¬((x.data.select (.drop j :: s.map (fun m => .keep (List.range m)))).size = 1 ∧
        (x.data.select (.drop j :: s.map (fun m => .keep (List.range m)))).ndim ≤ 1) := by
      simp only [ND.size, ND.ndim, hsh]
      match s, hs, h1 with
      | [m], _, h1 => simp [Numeric.sizeOf]; intro e; exact h1 (by rw [e])
      | _ :: _ :: _, _, _ => simp
    have hn : (x.data.select (.drop j :: s.map (fun m => .keep (List.range m)))).ndim ≠ 0 := by
      simp only [ND.ndim, hsh]
      simpa using hs
    simp only [spawnValue, if_neg hv, spawnSeries, if_neg hn]; rfl
  · intro p hp
    show (x.data.select _).get p = _
    unfold ND.select
    have hp' : Valid p (pickShape (.drop j :: s.map (fun m => Pick.keep (List.range m)))) := by
      show Valid p (pickShape (s.map _)); rw [pickShape_all]; exact hp
    rw [get_ofFn hp']
    show x.data.get (j :: pickFrom (s.map _) p) = _
    rw [pickFrom_all hp]

/-- Iteration over a tensor gives every single value, the last dimension varying fastest. -/
theorem c107_members (x : Obj K) (fuel : Nat) : ∃ l : List K, iterate .tensor x fuel = some (.ok (l.map (fun v => .value v x.unit))) ∧
    l.length = x.data.size ∧ ∀ p, Valid p x.data.shape → l[ravel x.data.shape p]? = some (x.data.get p) := by
  refine ⟨(List.range x.data.size).map x.data.data, by simp [iterate, Function.comp_def], by simp, ?_⟩
  intro p hp
  have : ravel x.data.shape p < x.data.size := ravel_lt hp
  rw [List.getElem?_map, List.getElem?_range this]; rfl

/-- So iteration over a tensor with several dimensions does not give its members `t[0]`, …, `t[len(t) - 1]`: there are not
`len(t)` of them. -/
theorem c107_not_members (x : Obj K) (n : Nat) (s : List Nat) (hx : x.data.shape = n :: s) (hn : 0 < n)
    (hs : Numeric.sizeOf s ≠ 1) (fuel : Nat) :
    length x = .ok n ∧ ∃ l, iterate .tensor x fuel = some (.ok l) ∧ l.length ≠ n := by
  refine ⟨by simp [length, hx], _, rfl, ?_⟩
  simp only [List.length_map, List.length_range, ND.size, hx, Numeric.sizeOf_cons]
  intro e
  exact hs (Nat.eq_of_mul_eq_mul_left hn (by omega))

/-! ## Casts -/

variable [Field K]

/-- `int(x)` and `float(x)` of anything with a single value that is not a vector or tensor are those of the value, in the
current unit of `x`. -/
theorem c108_cast_partial (t : K → T) (b : Builtin) (x : Operand κ ν K) (v : K) (hv : OnlyValue x v)
    (hb : b ≠ .complex ∨ ∀ o, x ≠ .object .scalar o) (h1 : ∀ o, x ≠ .object .vector o) (h2 : ∀ o, x ≠ .object .tensor o) :
    castTo t b x = .ok (t v) := by
  cases x with
  | number y => cases hv; rfl
  | object k o =>
    cases k with
    | scalar =>
      cases hv
      have : b ≠ .complex := hb.resolve_right (fun h => h o rfl)
      simp [castTo, this]
    | vector => exact absurd rfl (h1 o)
    | tensor => exact absurd rfl (h2 o)
    | measurement => obtain ⟨h3, rfl⟩ := hv; simp [castTo, h3]
  | array a => obtain ⟨h3, rfl⟩ := hv; simp [castTo, h3]

/-- Casts of objects with more values, or none, raise `TypeError`; the result of a cast is always that of the only
value. -/
theorem c108_only (t : K → T) (b : Builtin) (x : Operand κ ν K) (y : T) (h : castTo t b x = .ok y) :
    ∃ v, OnlyValue x v ∧ y = t v := by
  cases x with
  | number z => exact ⟨z, rfl, (Except.ok.inj h).symm⟩
  | object k o =>
    cases k with
    | scalar =>
      by_cases hb : b = .complex
      · simp [castTo, hb] at h
      · simp only [castTo, if_neg hb] at h
        exact ⟨_, rfl, (Except.ok.inj h).symm⟩
    | vector => cases h
    | tensor => cases h
    | measurement =>
      by_cases hs : o.data.size = 1
      · simp only [castTo, if_pos hs] at h
        exact ⟨_, ⟨hs, rfl⟩, (Except.ok.inj h).symm⟩
      · simp [castTo, hs] at h
  | array a =>
    by_cases hs : a.arr.data.data.size = 1
    · simp only [castTo, if_pos hs] at h
      exact ⟨_, ⟨hs, rfl⟩, (Except.ok.inj h).symm⟩
    · simp [castTo, hs] at h

/-- Otherwise the exception is `TypeError`. -/
theorem c108_error (t : K → T) (b : Builtin) (x : Operand κ ν K) (h : ∀ v, ¬OnlyValue x v) : castTo t b x = .error .type := by
  cases hc : castTo t b x with
  | ok y => obtain ⟨v, hv, -⟩ := c108_only t b x y hc; exact absurd hv (h v)
  | error e =>
    cases x with
    | number z => cases hc
    | object k o =>
      cases k <;> simp only [castTo] at hc <;> (try split at hc) <;> first | (cases hc; rfl) | cases hc
    | array a => simp only [castTo] at hc; split at hc <;> first | (cases hc; rfl) | cases hc

/-- `complex(x)` of every scalar raises `TypeError`. -/
theorem c108_not_complex (t : K → T) (o : Obj K) : castTo t .complex (.object .scalar o : Operand κ ν K) = .error .type := rfl

/-- So do all casts of every vector and tensor, even those with a single value. -/
theorem c108_not_vector (t : K → T) (b : Builtin) (o : Obj K) :
    castTo t b (.object .vector o : Operand κ ν K) = .error .type ∧
      castTo t b (.object .tensor o : Operand κ ν K) = .error .type := ⟨rfl, rfl⟩

/-- The number that is cast is in the current unit: after the conversion of a scalar or measurement by name, casts give the
former value times the ratio of the sizes of the units. -/
theorem c108_converted (nodes : List Name) (systems : List System) (φ : Name → ℚ) (hφ : TableSizes φ)
    (rs : List (Name × Name)) (k : Kind) (hk : k = .scalar ∨ k = .measurement) (x : Obj ℝ) (hsz : x.data.size = 1)
    (s v t : Name) (hx : x.unit = [⟨1, s, 1⟩]) (hs : IsSymbolOf s s) (hv : IsSymbolOf v t)
    (hc : Convertible nodes s v) (f : ℝ → T) (b : Builtin) (hb : b ≠ .complex) :
    ∃ y, (withunit (realConv nodes systems) (afterRequests (realConv nodes systems) [] rs) x v).2 = .ok y ∧
      castTo f b (.object k y : Operand κ ν ℝ) = .ok (f (x.data.data 0 * ((φ s : ℝ) / φ v))) := by
  obtain ⟨y, hy, -, hsa⟩ := c34_named nodes systems φ hφ rs x s v t hx hs hv hc
  obtain ⟨y', hy', hd⟩ := c34_data nodes systems φ hφ rs x s v t hx hs hv hc
  have hyy : (withunit (realConv nodes systems) (afterRequests (realConv nodes systems) [] rs) x v).2 = .ok y := by rw [hy]
  obtain rfl : y = y' := Except.ok.inj (hyy.symm.trans hy')
  refine ⟨y, hyy, ?_⟩
  have hshape := hsa.shape
  have hval : y.data.data 0 = x.data.data 0 * ((φ s : ℝ) / φ v) := by
    have h0 : ∀ z : ND ℝ, z.get [] = z.data 0 := by
      intro z; unfold ND.get; cases z.shape <;> rfl
    have := hd []
    rwa [h0, h0] at this
  have hsy : y.data.size = 1 := by unfold ND.size at hsz ⊢; rw [hshape]; exact hsz
  rcases hk with rfl | rfl
  · exact c108_cast_partial f b _ _ hval (Or.inl hb) (by simp) (by simp)
  · exact c108_cast_partial f b _ _ ⟨hsy, hval⟩ (Or.inl hb) (by simp) (by simp)

/-! ## The hypotheses can be met -/

/-- three lengths -/
def lengths3 : Obj ℝ := ⟨⟨[3], fun i => [1, 5, 7].getD i 0⟩, [⟨1, c! "km", 1⟩]⟩

theorem lengths3_series : IsSeries lengths3 [1, 5, 7] [⟨1, c! "km", 1⟩] := by
  refine ⟨rfl, ?_, rfl⟩
  intro i v hv
  match i with
  | 0 => simpa [lengths3, ND.get, ravel, Numeric.sizeOf] using hv
  | 1 => simpa [lengths3, ND.get, ravel, Numeric.sizeOf] using hv
  | 2 => simpa [lengths3, ND.get, ravel, Numeric.sizeOf] using hv
  | n + 3 => simp at hv

/-- the last member, and a slice of two -/
example (k : Series) : item k lengths3 (.one (.int (-1))) = .ok (.value 7 [⟨1, c! "km", 1⟩]) :=
  c107_item k lengths3 _ _ lengths3_series (-1) 2 (by simp) (Or.inr (by simp))

example (k : Series) : item k lengths3 (.one (.int 3)) = .error (.look .index) :=
  c107_outside k lengths3 _ _ lengths3_series 3 (Or.inr (by simp))

example (k : Series) : length lengths3 = .ok 3 ∧ iterate k lengths3 4 =
    some (.ok [.value 1 [⟨1, c! "km", 1⟩], .value 5 [⟨1, c! "km", 1⟩], .value 7 [⟨1, c! "km", 1⟩]]) :=
  ⟨c107_length _ _ _ lengths3_series, c107_iterate k lengths3 _ _ lengths3_series 4 (by simp)⟩

example (k : Series) : ∃ o, item k lengths3 (.one (.slice (some 1) none none)) = .ok (.several o) ∧
    IsSeries o [5, 7] [⟨1, c! "km", 1⟩] :=
  c107_part_partial k lengths3 _ _ lengths3_series (.slice (some 1) none none) [1, 2] (show slicePositions 3 (some 1) none none = _ by decide +kernel)
    (by simp) (by simp)

example (k : Series) : item k lengths3 (.one (.seq .list [1])) = .ok (.value 5 [⟨1, c! "km", 1⟩]) :=
  c107_part_one k lengths3 _ _ lengths3_series (.seq .list [1]) 1 (.cons ⟨by simp, Or.inl rfl⟩ .nil) (by simp)

example (k : Series) : item k lengths3 (.one (.slice (some 0) (some 1) none)) = .ok (.value 1 [⟨1, c! "km", 1⟩]) :=
  c107_not_slice k lengths3 1 [5, 7] _ lengths3_series

/-- a tensor of two rows and three columns -/
def table23 : Obj ℝ := ⟨⟨[2, 3], fun i => i⟩, [⟨1, c! "km", 1⟩]⟩

example : ∃ o, item .tensor table23 (.one (.int (-1))) = .ok (.several o) ∧ o.data.shape = [3] ∧ o.unit = table23.unit ∧
    ∀ p, Valid p [3] → o.data.get p = table23.data.get (1 :: p) :=
  c107_row table23 2 [3] (by simp) rfl (by simp) (-1) 1 (by simp) (Or.inr (by simp))

example : ∃ l : List ℝ, iterate .tensor table23 0 = some (.ok (l.map (fun v => .value v table23.unit))) ∧ l.length = 6 :=
  let ⟨l, h1, h2, _⟩ := c107_members table23 0
  ⟨l, h1, h2⟩

example : length table23 = .ok 2 ∧ ∃ l, iterate .tensor table23 0 = some (.ok l) ∧ l.length ≠ 2 :=
  c107_not_members table23 2 [3] rfl (by simp) (by simp [Numeric.sizeOf]) 0

/-- a measurement of one value, and one of three -/
example : castTo id .complex (.object .measurement ⟨⟨[1], fun _ => 5⟩, [⟨1, c! "km", 1⟩]⟩ : Operand Name Name ℝ) = .ok 5 :=
  c108_cast_partial id .complex _ 5 ⟨by simp [ND.size, Numeric.sizeOf], rfl⟩ (Or.inr (by simp)) (by simp) (by simp)

example : castTo id .float (.object .measurement lengths3 : Operand Name Name ℝ) = .error .type :=
  c108_error id .float _ (fun v h => absurd h.1 (by simp [lengths3, ND.size, Numeric.sizeOf]))

example : ∃ v : ℝ, OnlyValue (.object .scalar ⟨⟨[], fun _ => 5⟩, [⟨1, c! "km", 1⟩]⟩ : Operand Name Name ℝ) v ∧ (5 : ℝ) = id v :=
  c108_only id .int _ 5 rfl

/-- five kilometers in meters -/
example : ∃ y, (withunit (realConv tableNodes []) [] ⟨⟨[], fun _ => 5⟩, [⟨1, c! "km", 1⟩]⟩ c! "m").2 = .ok y ∧
    castTo id .float (.object .scalar y : Operand Name Name ℝ) = .ok (5 * ((size c! "km" : ℝ) / size c! "m")) :=
  c108_converted tableNodes [] size (real_sizes []) [] .scalar (Or.inl rfl) ⟨⟨[], fun _ => 5⟩, [⟨1, c! "km", 1⟩]⟩
    (by simp [ND.size, Numeric.sizeOf]) c! "km" c! "m" c! "m" rfl (isSymbolOf_of (by decide +kernel))
    (isSymbolOf_of (by decide +kernel)) (convertible_of (by decide +kernel)) id .float (by decide)

end Eprem.Physical
