import Verif.Lemmas.NumericIndex

/-!
# C26, C27, C29, C33, C40, C67: indexing
-/

namespace Eprem.Numeric

variable {α : Type}

/-! ## C26: expansion -/

/-- **C26**, one ellipsis.  The given indices are kept in order and the ellipsis stands for a full slice of each of the
other dimensions, so that there is one index for each dimension.  The code asks in addition that the ellipsis stands for
at least one dimension or comes last (`c26_empty_ellipsis`). -/
theorem c26_ellipsis_partial (n : Nat) (before after : List Arg) (hb : Arg.ellipsis ∉ before) (ha : Arg.ellipsis ∉ after)
    (hn : before.length + after.length < n ∨ (before.length + after.length = n ∧ after = [])) :
    ∃ r, expandEllipsis n (before ++ .ellipsis :: after) = .ok r ∧ r.length = n ∧
      r = before ++ List.replicate (n - (before.length + after.length)) .full ++ after := by
  refine ⟨_, ?_, ?_, rfl⟩
  · unfold expandEllipsis
    have hc : (before ++ Arg.ellipsis :: after).count .ellipsis = 1 := by
      rw [List.count_append, List.count_cons_self, List.count_eq_zero.2 hb, List.count_eq_zero.2 ha]
    have hi : (before ++ Arg.ellipsis :: after).idxOf .ellipsis = before.length := by
      rw [List.idxOf_append, if_neg hb]; simp
    have hlen : (before ++ Arg.ellipsis :: after).length = before.length + after.length + 1 := by
      simp; omega
    rw [if_neg, hc, if_neg (by decide), if_neg (by decide)]
    · simp only [hi, hlen]
      have h1 : (before ++ Arg.ellipsis :: after).take before.length = before := List.take_left
      have h2 : (before ++ Arg.ellipsis :: after).drop (before.length + 1) = after := by
        rw [← List.drop_drop, List.drop_left]; rfl
      rw [h1, h2, show n + 1 - (before.length + after.length + 1) = n - (before.length + after.length) by omega]
    · rw [hlen]
      rintro ⟨h1, h2⟩
      rcases hn with h | ⟨h, rfl⟩
      · omega
      · simp at h2
  · simp only [List.length_append, List.length_replicate]; omega

example : expandEllipsis 4 [.int 2, .ellipsis, .seq .list [0, 1]] =
    .ok [.int 2, .full, .full, .seq .list [0, 1]] := by decide

/-- **C26**, no ellipsis: the indices are kept; they address the leading dimensions. -/
theorem c26_no_ellipsis (n : Nat) (args : List Arg) (h : Arg.ellipsis ∉ args) (hn : args.length ≤ n) :
    expandEllipsis n args = .ok args := expandEllipsis_none hn h

/-- **C26**, a single index becomes one index for each dimension. -/
theorem c26_single (n : Nat) (a : Arg) (hn : 0 < n) :
    ∃ r, expand n (.bare a) = .ok r ∧ r.length = n ∧
      r = (if a = .ellipsis then .full else a) :: List.replicate (n - 1) .full := by
  have hrep : List.replicate n Arg.full = .full :: List.replicate (n - 1) .full := by
    obtain ⟨m, rfl⟩ : ∃ m, n = m + 1 := ⟨n - 1, by omega⟩
    simp [List.replicate_succ]
  refine ⟨_, ?_, ?_, rfl⟩
  · simp only [expand]
    by_cases h1 : a = .full
    · subst h1
      rw [if_pos rfl, if_neg (by decide)]
      obtain ⟨r, hr, -, rfl⟩ := c26_ellipsis_partial n [] [] (by simp) (by simp) (by simp; omega)
      simpa [hrep] using hr
    · simp only [h1, if_false]
      by_cases h2 : a = .ellipsis
      · subst h2
        simp only [if_true]
        obtain ⟨r, hr, -, rfl⟩ := c26_ellipsis_partial n [] [] (by simp) (by simp) (by simp; omega)
        simpa [hrep] using hr
      · simp only [h2, if_false]
        by_cases h3 : n > 1
        · rw [if_pos h3]
          obtain ⟨r, hr, -, rfl⟩ := c26_ellipsis_partial n [a] [] (by simp [Ne.symm h2]) (by simp) (by simp; omega)
          simpa using hr
        · rw [if_neg h3]
          obtain rfl : n = 1 := by omega
          rfl
  · simp; omega

example : expand 3 (.bare (.int (-1))) = .ok [.int (-1), .full, .full] := by decide

/-- **C26**, more than one ellipsis is an error. -/
theorem c26_two_ellipses (n : Nat) (args : List Arg) (h : 2 ≤ args.count .ellipsis) :
    expandEllipsis n args = .error .index := by
  unfold expandEllipsis
  split
  · rfl
  · rw [if_neg (by omega), if_pos (by omega)]

/-- **C26**, too many indices, the last of which is not an ellipsis, are an error. -/
theorem c26_too_many_partial (n : Nat) (args : List Arg) (h : n < args.length) (hl : args.getLast? ≠ some .ellipsis) :
    expandEllipsis n args = .error .index := by
  unfold expandEllipsis
  rw [if_pos ⟨h, hl⟩]

/-- **C26** does not hold for too many indices followed by an ellipsis: they are accepted, and there are then more
indices than dimensions. -/
theorem c26_not_too_many (n : Nat) (args : List Arg) (he : Arg.ellipsis ∉ args) (h : n < args.length) :
    expandEllipsis n (args ++ [.ellipsis]) = .ok args := by
  unfold expandEllipsis
  have hc : (args ++ [Arg.ellipsis]).count .ellipsis = 1 := by
    rw [List.count_append, List.count_eq_zero.2 he]; rfl
  have hi : (args ++ [Arg.ellipsis]).idxOf .ellipsis = args.length := by
    rw [List.idxOf_append, if_neg he]; simp
  rw [if_neg (by simp), hc, if_neg (by decide), if_neg (by decide)]
  simp only [hi]
  have : n + 1 - (args ++ [Arg.ellipsis]).length = 0 := by simp; omega
  rw [this]
  simp

example : expandEllipsis 1 [.int 0, .int 0, .ellipsis] = .ok [.int 0, .int 0] := by decide

/-- **C26** does not hold for an ellipsis that stands for no dimension unless it comes last: numpy reads `a[..., 0, 0]`
for a two-dimensional array, and the code refuses it. -/
theorem c26_empty_ellipsis (n : Nat) (before after : List Arg) (h : before.length + after.length = n) (ha : after ≠ [])
    (hl : Arg.ellipsis ∉ after) : expandEllipsis n (before ++ .ellipsis :: after) = .error .index := by
  apply c26_too_many_partial
  · simp; omega
  · have : before ++ Arg.ellipsis :: after = (before ++ [.ellipsis]) ++ after := by simp
    rw [this, List.getLast?_append]
    cases hg : after.getLast? with
    | none => simp [List.getLast?_eq_none_iff] at hg; exact absurd hg ha
    | some x =>
      simp only [Option.some_or]
      intro hx
      cases hx
      exact hl (List.mem_of_getLast? hg)

example : expandEllipsis 2 [.ellipsis, .int 0, .int 0] = .error .index := by decide

/-! ## C27: sequences of indices -/

/-- **C27**, for two or more indices, at least one of which is a sequence, on any array: if every slice takes its whole
axis, the result holds the elements at the product of the selected positions, and keeps every axis.  The code ignores
the bounds of other slices (`c27_slice_ignored`). -/
theorem c27_product_partial (a : ND α) (args : List Arg) (ls : List (List Nat)) (h2 : 2 ≤ args.length)
    (hs : ∃ k l, Arg.seq k l ∈ args) (hp : AllPositions a.shape args ls) (hc : CoversSlices a.shape args) :
    ∃ r, getItem a (.tuple args) = .ok r ∧ Selects a ls r := by
  obtain ⟨m, hm, hml, hmp⟩ := meshLoop_of hp hc
  obtain ⟨ps, hps, hpl, hpk⟩ := picksOf_of hmp
  have hkeep := hpk (by
    intro x hx i
    rw [List.mem_map] at hx
    obtain ⟨l, _, rfl⟩ := hx
    simp)
  have hu : unwrapArgs (.tuple args) = .items true args := by
    match args, h2 with
    | x :: y :: r, _ => rfl
  have hall : args.all Arg.builtin = false := by
    obtain ⟨k, l, hkl⟩ := hs
    rw [List.all_eq_false]
    exact ⟨_, hkl, by simp [Arg.builtin]⟩
  have hr : resolve a.shape (.items true args) = .ok (.mesh m) := by
    unfold resolve normalize
    simp only [hall, Bool.false_eq_true, and_false, if_false]
    rw [expandEllipsis_none hp.length_le hp.no_ellipsis]
    simp only [hm]; rfl
  have hnull : (Resolved.mesh m).isNull = false := by
    cases m with
    | nil => rw [List.length_nil] at hml; omega
    | cons x m => rfl
  refine ⟨a.select ps, ?_, hpl ▸ select_keeps a hkeep⟩
  unfold getItem getItemWith
  rw [hu, hr]
  have hload : npIndex a (.mesh m) = .ok (a.select ps) := by
    simp only [npIndex, hps]; rfl
  simp only [hnull, Bool.false_eq_true, if_false, hload]
  have hnd : (a.select ps).ndim = a.shape.length := by
    show (pickShape ps).length = _
    rw [pickShape_length_keep hkeep, picksOf_length hps]
  rw [if_neg (by simp [hnd]), atLeast_self _ _ (by omega)]

/-- the hypotheses are met by `a[[-1, 0], :, 2]` for an array of shape `(2, 3, 4)` -/
example : AllPositions [2, 3, 4] [.seq .list [-1, 0], .full, .int 2] [[1, 0], [0, 1, 2], [2]] ∧
    CoversSlices [2, 3, 4] [.seq .list [-1, 0], .full, .int 2] := by
  refine ⟨⟨.cons (by decide) (.cons (by decide) .nil), ?_, ⟨2, rfl, by decide, Or.inl rfl⟩, trivial⟩, ?_, trivial⟩ <;>
    exact slicePositions_full 3

/-- **C27**, a single sequence, other than a list, on any array: the given positions on the first axis. -/
theorem c27_single (a : ND α) (k : SeqKind) (hk : k ≠ .list) (is : List ℤ) (his : is ≠ []) (ls : List (List Nat))
    (hp : AllPositions a.shape [.seq k is] ls) : ∃ r, getItem a (.one (.seq k is)) = .ok r ∧ Selects a ls r := by
  have hc : CoversSlices a.shape [.seq k is] := by
    cases a.shape with
    | nil => trivial
    | cons n s => cases s <;> exact trivial
  have h1 : [Arg.seq k is].length ≤ a.shape.length := hp.length_le
  cases k with
  | list => exact absurd rfl hk
  | array =>
    obtain ⟨ps, hps, hpl, hpk⟩ := picksOf_of hp
    have hkeep := hpk (by simp)
    refine ⟨a.select ps, ?_, hpl ▸ select_keeps a hkeep⟩
    have hr : resolve a.shape (unwrapArgs (.one (.seq .array is))) = .ok (.itself (.seq .array is)) := rfl
    have hnull : (Resolved.itself (.seq .array is)).isNull = false := by
      cases is with
      | nil => exact absurd rfl his
      | cons x m => rfl
    unfold getItem getItemWith
    rw [hr]
    have hload : npIndex a (.itself (.seq .array is)) = .ok (a.select ps) := by
      simp only [npIndex, hps]; rfl
    simp only [hnull, Bool.false_eq_true, if_false, hload]
    have hnd : (a.select ps).ndim = a.shape.length := by
      show (pickShape ps).length = _
      rw [pickShape_length_keep hkeep, picksOf_length hps]
    rw [if_neg (by simp [hnd]), atLeast_self _ _ (by omega)]
  | other =>
    obtain ⟨m, hm, hml, hmp⟩ := meshLoop_of hp hc
    obtain ⟨ps, hps, hpl, hpk⟩ := picksOf_of hmp
    have hkeep := hpk (by
      intro x hx i
      rw [List.mem_map] at hx
      obtain ⟨l, _, rfl⟩ := hx
      simp)
    refine ⟨a.select ps, ?_, hpl ▸ select_keeps a hkeep⟩
    have hr : resolve a.shape (unwrapArgs (.one (.seq .other is))) = .ok (.mesh m) := by
      simp only [unwrapArgs, unwrapOne]
      unfold resolve normalize
      simp only [Arg.builtin, Bool.false_eq_true, if_false]
      rw [expandEllipsis_none h1 hp.no_ellipsis]
      simp only [hm]; rfl
    have hnull : (Resolved.mesh m).isNull = false := by
      cases m with
      | nil => rw [List.length_nil] at hml; simp at hml
      | cons x m => rfl
    unfold getItem getItemWith
    rw [hr]
    have hload : npIndex a (.mesh m) = .ok (a.select ps) := by
      simp only [npIndex, hps]; rfl
    simp only [hnull, Bool.false_eq_true, if_false, hload]
    have hnd : (a.select ps).ndim = a.shape.length := by
      show (pickShape ps).length = _
      rw [pickShape_length_keep hkeep, picksOf_length hps]
    rw [if_neg (by simp [hnd]), atLeast_self _ _ (by omega)]

example : AllPositions [3, 2] [.seq .array [2, -3]] [[2, 0], [0, 1]] :=
  ⟨.cons (by decide) (.cons (by decide) .nil), rfl, trivial⟩

/-- the array of shape `s` that holds `0, 1, 2, ...` -/
def counting (s : List Nat) : ND Nat := ⟨s, id⟩

/-- **C27** does not hold for other slices: the bounds of the slice in `a[[0, 1], 1:2]` are ignored, and the result has
all four columns instead of one. -/
theorem c27_slice_ignored :
    (getItem (counting [4, 4]) (.tuple [.seq .list [0, 1], .slice (some 1) (some 2) none])).map ND.shape = .ok [2, 4] ∧
    ∃ ls, AllPositions [4, 4] [.seq .list [0, 1], .slice (some 1) (some 2) none] ls ∧ ls.map List.length = [2, 1] := by
  refine ⟨by decide, [[0, 1], [1]], ⟨.cons (by decide) (.cons (by decide) .nil), ?_, trivial⟩, rfl⟩
  show slicePositions 4 (some 1) (some 2) none = .ok [1]
  decide

/-- **C27** does not hold for a list: `a[[0, 2]]` is read as `a[0, 2]`, one element instead of two rows. -/
theorem c27_list : (getItem (counting [4, 4]) (.one (.seq .list [0, 2]))).map ND.shape = .ok [1, 1] ∧
    (getItem (counting [4]) (.one (.seq .list [0, 2]))).map ND.shape = .error .index ∧
    (getItem (counting [4, 4]) (.one (.seq .array [0, 2]))).map ND.shape = .ok [2, 4] := by decide

/-- **C27** does not hold for an empty array of indices: it selects everything. -/
theorem c27_empty (a : ND α) : getItem a (.one (.seq .array [])) = .ok a := by
  show (if a.ndim ≠ a.shape.length then Except.ok (a.atLeast a.shape.length) else .ok (a.atLeast a.shape.length)) = _
  rw [if_neg (by simp [ND.ndim]), atLeast_self _ _ (by simp [ND.ndim])]

/-! ## C67: integers and slices -/

theorem plain_axisSize {n : Nat} {a b s : Option ℤ} (h : PlainSlice n a b s) :
    ∃ l, slicePositions n a b s = .ok l ∧ (l.length : ℤ) = axisSize n (.slice a b s) := by
  obtain ⟨hs, hb, ha⟩ := h
  have hst : s.getD 1 = 1 := by rcases hs with rfl | rfl <;> rfl
  unfold slicePositions
  simp only [hst]
  rw [if_neg (by decide), if_pos (by decide)]
  refine ⟨_, rfl, ?_⟩
  rw [List.length_map, rangeList_length, rangeLen_one]
  cases b with
  | none =>
    cases a with
    | none => simp [sliceBound, axisSize]
    | some x =>
      obtain ⟨h1, h2⟩ := ha x rfl
      simp only [Option.getD_none] at h2
      simp only [sliceBound, axisSize]
      rw [if_neg (by omega)]
      omega
  | some y =>
    obtain ⟨h3, h4⟩ := hb y rfl
    cases a with
    | none =>
      simp only [sliceBound, axisSize]
      rw [if_neg (by omega), if_neg (by omega)]
      omega
    | some x =>
      obtain ⟨h1, h2⟩ := ha x rfl
      simp only [Option.getD_some] at h2
      simp only [sliceBound, axisSize]
      rw [if_neg (by omega), if_neg (by omega), if_neg (by omega)]
      omega

theorem plain_shape {s : List Nat} {args : List Arg} {ls : List (List Nat)} (h : PlainArgs s args)
    (hp : AllPositions s args ls) : resultShape s args = (ls.map List.length).map Int.ofNat := by
  induction s generalizing args ls with
  | nil => cases args with
    | nil => cases ls with
      | nil => rfl
      | cons l ls => exact hp.elim
    | cons a args => exact hp.elim
  | cons n s ih => cases args with
    | nil => exact h.elim
    | cons a args => cases ls with
      | nil => exact hp.elim
      | cons l ls =>
        cases a with
        | int i =>
          have := ih h hp.2
          obtain ⟨j, rfl, _⟩ := hp.1
          simp only [resultShape, List.zip_cons_cons, List.map_cons] at this ⊢
          rw [this]; rfl
        | slice x y z =>
          have := ih h.2 hp.2
          obtain ⟨l', h1, h2⟩ := plain_axisSize h.1
          have : l' = l := by
            have h3 : slicePositions n x y z = .ok l := hp.1
            rw [h3] at h1; exact (Except.ok.inj h1).symm
          subst this
          simp only [resultShape, List.zip_cons_cons, List.map_cons] at *
          rw [ih h.2 hp.2, ← h2]; rfl
        | ellipsis => exact hp.1.elim
        | seq k is => exact h.elim

theorem knownSize_natCast (s : List Nat) : knownSize (s.map Int.ofNat) = sizeOf s := by
  unfold knownSize
  rw [List.filter_eq_self.2 (by intro x hx; rw [List.mem_map] at hx; obtain ⟨y, _, rfl⟩ := hx; simp)]
  induction s with
  | nil => rfl
  | cons n s ih => rw [List.map_cons, List.foldr_cons, ih, sizeOf_cons]; push_cast; rfl

theorem reshape_natCast (a : ND α) (s : List Nat) (h : sizeOf s = a.size) :
    a.reshape (s.map Int.ofNat) = .ok ⟨s, a.data⟩ := by
  unfold ND.reshape
  have : (s.map Int.ofNat).filter (· < 0) = [] := by
    rw [List.filter_eq_nil_iff]
    intro x hx; rw [List.mem_map] at hx; obtain ⟨y, _, rfl⟩ := hx; simp
  rw [this]
  simp only
  rw [if_pos (by rw [knownSize_natCast, h])]
  congr 2
  rw [List.map_map]
  conv_rhs => rw [← List.map_id s]
  rfl

theorem size_atLeast (a : ND α) (n : Nat) : (a.atLeast n).size = a.size := by
  simp only [ND.size, ND.atLeast, sizeOf_append, sizeOf_replicate_one, one_mul]

theorem plain_builtin {s : List Nat} {args : List Arg} (h : PlainArgs s args) :
    args.all Arg.builtin = true ∧ Arg.ellipsis ∉ args := by
  induction s generalizing args with
  | nil => cases args with
    | nil => exact ⟨rfl, by simp⟩
    | cons a args => exact h.elim
  | cons n s ih => cases args with
    | nil => exact h.elim
    | cons a args => cases a with
      | int i => have := ih h; exact ⟨by rw [List.all_cons, this.1]; rfl, by simp [this.2]⟩
      | slice x y z => have := ih h.2; exact ⟨by rw [List.all_cons, this.1]; rfl, by simp [this.2]⟩
      | ellipsis => exact h.elim
      | seq k is => exact h.elim

/-- **C67**, integers and plain slices, one for each of two or more axes.  The result keeps every axis, with length one
where the index is an integer, and holds the elements that Python's rules select.  Other slices and shorter tuples
fail or give the wrong shape (`c67_step`, `c67_short`, `c67_scrambled`). -/
theorem c67_basic_partial (a : ND α) (args : List Arg) (ls : List (List Nat)) (h2 : 2 ≤ args.length)
    (h : PlainArgs a.shape args) (hp : AllPositions a.shape args ls) :
    ∃ r, getItem a (.tuple args) = .ok r ∧ Selects a ls r := by
  obtain ⟨ps, hps, hpl, hpk⟩ := picksOf_of hp
  obtain ⟨hb, he⟩ := plain_builtin h
  have hu : unwrapArgs (.tuple args) = .items true args := by
    match args, h2 with
    | x :: y :: r, _ => rfl
  have hr : resolve a.shape (.items true args) = .ok (.tuple args) := by
    unfold resolve normalize
    simp only [hb, and_self, if_true]
    rw [if_neg he]
  have hnull : (Resolved.tuple args).isNull = false := by
    match args, h2 with
    | x :: y :: r, _ => rfl
  have hload : npIndex a (.tuple args) = .ok (a.select ps) := by
    simp only [npIndex, hps]; rfl
  have hfull : fullShape ps = ls.map List.length := by
    rw [← hpl]; simp [fullShape, List.map_map, Function.comp_def]
  have hsize : (a.select ps).size = sizeOf (ls.map List.length) := by
    show sizeOf (pickShape ps) = _
    rw [sizeOf_pickShape, hfull]
  refine ⟨⟨fullShape ps, (a.select ps).data⟩, ?_, hpl ▸ select_selects a ps⟩
  unfold getItem getItemWith
  rw [hu, hr]
  simp only [hnull, Bool.false_eq_true, if_false, hload]
  split
  · rw [plain_shape h hp, reshape_natCast _ _ (by rw [size_atLeast, hsize]), hfull]
    rfl
  next hne =>
    have hlen : (pickShape ps).length = ps.length := by
      rw [picksOf_length hps]
      by_contra hc; exact hne hc
    have hkeep : ∀ p ∈ ps, ∃ l, p = .keep l := by
      intro p hp
      cases p with
      | keep l => exact ⟨l, rfl⟩
      | drop i => exact absurd hlen (by have := pickShape_length_lt ⟨i, hp⟩; omega)
    rw [atLeast_self]
    · rw [← pickShape_keep hkeep]; rfl
    · show _ ≤ (pickShape ps).length
      rw [hlen, picksOf_length hps]

/-- the hypotheses are met by `a[-1, 1:, :2]` for an array of shape `(2, 3, 4)` -/
example : PlainArgs [2, 3, 4] [.int (-1), .slice (some 1) none none, .slice none (some 2) none] ∧
    AllPositions [2, 3, 4] [.int (-1), .slice (some 1) none none, .slice none (some 2) none] [[1], [1, 2], [0, 1]] := by
  refine ⟨⟨⟨Or.inl rfl, by simp, by simp⟩, ⟨Or.inl rfl, by simp, by simp⟩, trivial⟩,
    ⟨1, rfl, by decide, Or.inr rfl⟩, ?_, ?_, trivial⟩
  · show slicePositions 3 (some 1) none none = .ok [1, 2]; decide
  · show slicePositions 4 none (some 2) none = .ok [0, 1]; decide

/-- **C67**, one integer: the first axis keeps length one. -/
theorem c67_integer (a : ND α) (i : ℤ) (ls : List (List Nat)) (hp : AllPositions a.shape [.int i] ls) :
    ∃ r, getItem a (.one (.int i)) = .ok r ∧ Selects a ls r := by
  obtain ⟨n, s, hs⟩ : ∃ n s, a.shape = n :: s := by
    cases h : a.shape with
    | nil => rw [h] at hp; exact absurd hp (by cases ls <;> exact id)
    | cons n s => exact ⟨n, s, rfl⟩
  obtain ⟨ps, hps, hpl, hpk⟩ := picksOf_of hp
  have hr : resolve a.shape (unwrapArgs (.one (.int i))) = .ok (.itself (.int i)) := rfl
  have hload : npIndex a (.itself (.int i)) = .ok (a.select ps) := by
    simp only [npIndex, hps]; rfl
  have hshape : ∃ j qs, ps = .drop j :: qs ∧ ∀ p ∈ qs, ∃ l, p = .keep l := by
    rw [hs] at hps hp
    cases ls with
    | nil => exact hp.elim
    | cons l ls =>
      obtain ⟨h1, h2⟩ := hp
      obtain ⟨qs, hqs, _, hqk⟩ := picksOf_of h2
      simp only [picksOf, hqs] at hps
      cases hi : pickOf n (.int i) with
      | error e => rw [hi] at hps; cases hps
      | ok q =>
        rw [hi] at hps
        cases hps
        simp only [pickOf] at hi
        cases hj : axisIndex n i with
        | error e => rw [hj] at hi; cases hi
        | ok j => rw [hj] at hi; cases hi; exact ⟨j, qs, rfl, hqk (by simp)⟩
  obtain ⟨j, qs, rfl, hqs⟩ := hshape
  have hsh : (a.select (.drop j :: qs)).shape = fullShape qs := pickShape_keep hqs
  have hlen := picksOf_length hps
  rw [List.length_cons] at hlen
  have hnd : (a.select (.drop j :: qs)).ndim = a.shape.length - 1 := by
    show (a.select (.drop j :: qs)).shape.length = _
    rw [hsh]; simp [fullShape]; omega
  refine ⟨⟨fullShape (.drop j :: qs), (a.select (.drop j :: qs)).data⟩, ?_, hpl ▸ select_selects a _⟩
  unfold getItem getItemWith
  rw [hr]
  have hnull : (Resolved.itself (.int i)).isNull = false := rfl
  simp only [hnull, Bool.false_eq_true, if_false, hload]
  rw [if_pos (by rw [hnd]; omega)]
  unfold ND.atLeast
  rw [hnd, show a.shape.length - (a.shape.length - 1) = 1 by omega, hsh]
  rfl

/-- **C67**, slices only, one for each of two or more axes: any bounds and steps. -/
theorem c67_slices (a : ND α) (args : List Arg) (ls : List (List Nat)) (h2 : 2 ≤ args.length)
    (h : ∀ x ∈ args, ∃ b e s, x = .slice b e s) (hp : AllPositions a.shape args ls) :
    ∃ r, getItem a (.tuple args) = .ok r ∧ Selects a ls r := by
  obtain ⟨ps, hps, hpl, hpk⟩ := picksOf_of hp
  have hkeep := hpk (by intro x hx i; obtain ⟨b, e, s, rfl⟩ := h x hx; simp)
  have hb : args.all Arg.builtin = true := by
    rw [List.all_eq_true]; intro x hx; obtain ⟨b, e, s, rfl⟩ := h x hx; rfl
  have hu : unwrapArgs (.tuple args) = .items true args := by
    match args, h2 with
    | x :: y :: r, _ => rfl
  have hr : resolve a.shape (.items true args) = .ok (.tuple args) := by
    unfold resolve normalize
    simp only [hb, and_self, if_true]
    rw [if_neg hp.no_ellipsis]
  have hnull : (Resolved.tuple args).isNull = false := by
    match args, h2 with
    | x :: y :: r, _ => rfl
  have hload : npIndex a (.tuple args) = .ok (a.select ps) := by
    simp only [npIndex, hps]; rfl
  refine ⟨a.select ps, ?_, hpl ▸ select_keeps a hkeep⟩
  unfold getItem getItemWith
  rw [hu, hr]
  simp only [hnull, Bool.false_eq_true, if_false, hload]
  have hnd : (a.select ps).ndim = a.shape.length := by
    show (pickShape ps).length = _
    rw [pickShape_length_keep hkeep, picksOf_length hps]
  rw [if_neg (by simp [hnd]), atLeast_self _ _ (by omega)]

/-- **C67** does not hold for an integer with a slice that has a step, or whose bounds leave the axis: both are refused
although numpy reads them. -/
theorem c67_step :
    (getItem (counting [2, 4]) (.tuple [.int 0, .slice none none (some 2)])).map ND.shape = .error .value ∧
    (getItem (counting [2, 4]) (.tuple [.int 0, .slice none (some 9) none])).map ND.shape = .error .value ∧
    (getItem (counting [2, 4]) (.tuple [.int 0, .slice (some (-3)) none none])).map ND.shape = .error .value := by decide

/-- **C67** does not hold for fewer indices than axes: two integers on three axes are refused. -/
theorem c67_short :
    (getItem (counting [2, 3, 4]) (.tuple [.int 0, .int 1])).map ND.shape = .error .value := by decide

/-- **C67** does not hold: `a[0, ::2, :-1]` of an array of shape `(1, 4, 5)` should have shape `(1, 2, 4)`; it is given
shape `(1, 4, 2)`, so that the elements are at the wrong positions. -/
theorem c67_scrambled :
    (getItem (counting [1, 4, 5]) (.tuple [.int 0, .slice none none (some 2), .slice none (some (-1)) none])).map
      (fun r => (r.shape, r.get [0, 0, 1], r.get [0, 1, 0])) = .ok ([1, 4, 2], 1, 2) ∧
    (counting [1, 4, 5]).get [0, 0, 1] = 1 ∧ (counting [1, 4, 5]).get [0, 2, 0] = 10 := by decide

/-! ## C29: shifts -/

/-- **C29**, one index, with floor and ceiling. -/
theorem c29_value (i x floor ceil : ℤ) (h : floor ≤ ceil) :
    shiftValue i x (some floor) (some ceil) = max floor (min ceil (i + x)) ∧
    shiftValue i x (some floor) none = max floor (i + x) ∧
    shiftValue i x none (some ceil) = min ceil (i + x) ∧ shiftValue i x none none = i + x := by
  unfold shiftValue
  refine ⟨?_, ?_, ?_, rfl⟩
  · simp only; split
    · omega
    · split <;> omega
  · simp only; split <;> omega
  · simp only; split <;> omega

/-- **C29**, a sequence of indices: each is shifted as one index is. -/
theorem c29_sequence (l : List ℤ) (x : ℤ) (floor ceil : Option ℤ)
    (h : ∀ f c, floor = some f → ceil = some c → f ≤ c) :
    shiftSequence l x floor ceil = l.map (fun i => shiftValue i x floor ceil) := by
  unfold shiftSequence shiftValue
  cases floor with
  | none => cases ceil with
    | none => rfl
    | some c => simp only [List.map_map]; rfl
  | some f => cases ceil with
    | none => simp only [List.map_map]; rfl
    | some c =>
      have := h f c rfl rfl
      simp only [List.map_map]
      refine List.map_congr_left ?_
      intro i _
      simp only [Function.comp]
      split
      · split <;> omega
      · rfl

/-- **C29**, shifted indices of an axis of length `n`, limited to `0` and `n - 1`, are indices of the axis. -/
theorem c29_in_range (l : List ℤ) (x : ℤ) (n : Nat) (hn : 0 < n) :
    ∀ i ∈ shiftSequence l x (some 0) (some (n - 1)), 0 ≤ i ∧ i < n := by
  rw [c29_sequence _ _ _ _ (by intro f c hf hc; cases hf; cases hc; omega)]
  intro i hi
  rw [List.mem_map] at hi
  obtain ⟨j, _, rfl⟩ := hi
  rw [(c29_value j x 0 (n - 1) (by omega)).1]
  omega

example : shiftSequence [0, 3, 5] 2 (some 0) (some 6) = [2, 5, 6] := by decide

/-! ## C33: loading -/

/-- what has been loaded is the whole object -/
theorem after_spec (st : Lazy α) (h : ∀ a, st.cached = some a → a = st.object) (rs : List Read) :
    (st.after rs).object = st.object ∧ (st.after rs).sub = st.sub ∧
      ∀ a, (st.after rs).cached = some a → a = st.object := by
  induction rs generalizing st with
  | nil => exact ⟨rfl, rfl, h⟩
  | cons r rs ih =>
    have step : (st.step r).1.object = st.object ∧ (st.step r).1.sub = st.sub ∧
        ∀ a, (st.step r).1.cached = some a → a = st.object := by
      have hl : ∀ i, (st.load i).1.object = st.object ∧ (st.load i).1.sub = st.sub ∧
          ∀ a, (st.load i).1.cached = some a → a = st.object := by
        intro i
        unfold Lazy.load
        cases i with
        | none =>
          simp only
          cases hc : st.cached with
          | none => exact ⟨rfl, rfl, by simp⟩
          | some a => exact ⟨rfl, rfl, by simpa [hc] using h a hc⟩
        | some r =>
          simp only
          split
          · cases hc : st.cached with
            | none => exact ⟨rfl, rfl, by simp⟩
            | some a => exact ⟨rfl, rfl, by simpa [hc] using h a hc⟩
          · cases hc : st.cached with
            | none => exact ⟨rfl, rfl, by simp [hc]⟩
            | some a => exact ⟨rfl, rfl, by simpa [hc] using h a hc⟩
      cases r with
      | all => exact hl none
      | item args =>
        simp only [Lazy.step, Lazy.getItem]
        split
        · exact ⟨rfl, rfl, h⟩
        · exact hl _
    obtain ⟨h1, h2, h3⟩ := step
    obtain ⟨h4, h5, h6⟩ := ih (st.step r).1 (by rw [h1]; exact h3)
    exact ⟨h4.trans h1, h5.trans h2, by rw [h1] at h6; exact h6⟩

/-- **C33**.  Take any array-like object whose own subscription, where it does not raise `TypeError` or `IndexError`,
agrees with numpy's.  After every history of reads, subscribing an array made from it gives what subscribing the
fully loaded data gives, and reading all of it gives all the data. -/
theorem c33_transparent (object : ND α) (sub : Resolved → Option (ND α))
    (hsub : ∀ r x, sub r = some x → npIndex object r = .ok x) (history : List Read) (args : Args) :
    (((⟨object, sub, none⟩ : Lazy α).after history).step (.item args)).2 = getItem object args ∧
    (((⟨object, sub, none⟩ : Lazy α).after history).step .all).2 = .ok object := by
  obtain ⟨h1, h2, h3⟩ := after_spec (⟨object, sub, none⟩ : Lazy α) (by simp) history
  generalize (⟨object, sub, none⟩ : Lazy α).after history = st at *
  simp only at h1 h2 h3
  constructor
  · simp only [Lazy.step, Lazy.getItem, getItem, h1]
    congr 1
    funext r
    unfold Lazy.load
    simp only
    split
    · cases hc : st.cached with
      | none => simp [h1]
      | some a => simp [h3 a hc]
    · cases hc : st.cached with
      | none =>
        simp only [Lazy.read, h1, h2]
        cases hs : sub r with
        | none => rfl
        | some x => exact (hsub r x hs).symm
      | some a => simp [h3 a hc]
  · simp only [Lazy.step, Lazy.load]
    cases hc : st.cached with
    | none => simp [h1]
    | some a => simp [h3 a hc]

/-- the hypothesis is met by an object that reads single integers itself and refuses everything else -/
example : ∀ r x, (fun r : Resolved => match r with
    | .itself (.int i) => (npIndex (counting [3, 2]) (.itself (.int i))).toOption
    | _ => none) r = some x → npIndex (counting [3, 2]) r = .ok x := by
  intro r x h
  simp only at h
  split at h
  next i =>
    cases hn : npIndex (counting [3, 2]) (.itself (.int i)) with
    | error e => rw [hn] at h; cases h
    | ok y => rw [hn] at h; cases h; rfl
  · cases h

/-! ## C40: slices as ranges -/

/-- **C40**, non-negative bounds on the axis and a positive step. -/
theorem c40_positions_partial (n : Nat) (start stop step : Option ℤ) (hs : ∀ x, start = some x → 0 ≤ x)
    (hb : ∀ y, stop = some y → 0 ≤ y ∧ y ≤ n) (hst : ∀ z, step = some z → 0 < z) :
    ∃ l, slice2range start stop step (some n) = .ok l ∧ slicePositions n start stop step = .ok (l.map Int.toNat) ∧
      ∀ i ∈ l, 0 ≤ i := by
  have h1 : 0 < step.getD 1 := by cases step with | none => decide | some z => exact hst z rfl
  have h0 : 0 ≤ start.getD 0 := by cases start with | none => decide | some x => exact hs x rfl
  -- a start beyond the axis selects nothing
  have key : ∀ e : ℤ, e ≤ n → rangeList (sliceBound n 0 n 0 start) e (step.getD 1) = rangeList (start.getD 0) e (step.getD 1) := by
    intro e he
    cases start with
    | none => rfl
    | some x =>
      have hx := hs x rfl
      simp only [sliceBound, Option.getD_some]
      rw [if_neg (by omega)]
      by_cases hxn : x ≤ n
      · rw [min_eq_left hxn]
      · rw [min_eq_right (by omega)]
        have : ∀ a : ℤ, e ≤ a → rangeList a e (step.getD 1) = [] := by
          intro a ha
          apply List.eq_nil_iff_forall_not_mem.2
          intro i hi
          rw [rangeList_pos_mem h1] at hi
          omega
        rw [this n he, this x (by omega)]
  have hpos : ∀ e : ℤ, ∀ i ∈ rangeList (start.getD 0) e (step.getD 1), 0 ≤ i := by
    intro e i hi
    rw [rangeList_pos_mem h1] at hi
    omega
  have hz : (let st := step.getD 1; if st = 0 then 1 else st) = step.getD 1 := by
    simp only; rw [if_neg (by omega)]
  cases stop with
  | none =>
    refine ⟨rangeList (start.getD 0) n (step.getD 1), by simp only [slice2range, hz], ?_, hpos _⟩
    unfold slicePositions
    simp only
    rw [if_neg (by omega), if_pos h1]
    have : sliceBound n 0 n n none = n := rfl
    rw [this, key n (le_refl _)]
  | some y =>
    obtain ⟨hy0, hyn⟩ := hb y rfl
    refine ⟨rangeList (start.getD 0) y (step.getD 1), by simp only [slice2range, hz], ?_, hpos _⟩
    unfold slicePositions
    simp only
    rw [if_neg (by omega), if_pos h1]
    have : sliceBound n 0 n n (some y) = y := by
      simp only [sliceBound]; rw [if_neg (by omega)]; omega
    rw [this, key y hyn]

example : slice2range (some 1) none (some 2) (some 6) = .ok [1, 3, 5] := by decide

/-- **C40** does not hold for a bound beyond the axis: the range leaves the axis. -/
theorem c40_beyond : slice2range none (some 9) none (some 4) = .ok [0, 1, 2, 3, 4, 5, 6, 7, 8] ∧
    slicePositions 4 none (some 9) none = .ok [0, 1, 2, 3] := by decide

/-- **C40**, negative bounds are outside the claim: they are not counted from the end. -/
theorem c40_negative : slice2range none (some (-1)) none (some 4) = .ok [] ∧
    slicePositions 4 none (some (-1)) none = .ok [0, 1, 2] ∧
    slice2range none none none none = .error .type := by decide

end Eprem.Numeric
