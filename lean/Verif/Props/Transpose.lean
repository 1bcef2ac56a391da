import Verif.Props.NamedArray

/-! # Transposition, reductions and numpy functions of named arrays (C32, C69, C70) -/

namespace Eprem.Numeric

open Eprem

variable {κ α β γ : Type} [DecidableEq κ]

/-! ## C32: transposition -/

theorem idxOf_map_perm {dims names : List κ} (hn : names.Nodup) (hp : names.Perm dims) {d : κ} (hd : d ∈ dims) :
    (names.map (fun n => dims.idxOf n)).idxOf (dims.idxOf d) = names.idxOf d := by
  have hdn : d ∈ names := hp.mem_iff.2 hd
  have hnd : (names.map (fun n => dims.idxOf n)).Nodup :=
    hn.map_on (fun x hx y _ h => (List.idxOf_inj (hp.mem_iff.1 hx)).1 h)
  have hi := List.idxOf_lt_length_of_mem hdn
  have h : (names.map (fun n => dims.idxOf n))[names.idxOf d]'(by rw [List.length_map]; exact hi) = dims.idxOf d := by
    rw [List.getElem_map, List.getElem_idxOf]
  rw [← h, hnd.idxOf_getElem]

/-- Transposing the data to another order of the names. -/
theorem transpose_perm {a : Named κ α} (ha : WellNamed a) {names : List κ} (hp : names.Perm a.dims) :
    ∃ d, a.data.transpose (names.map (fun n => a.dims.idxOf n)) = .ok d ∧ d.shape = names.map a.shapeGet ∧
      ∀ ρ, (∀ n ∈ a.dims, ρ n < a.shapeGet n) → d.get (names.map ρ) = a.data.get (a.dims.map ρ) := by
  have hn : names.Nodup := hp.nodup_iff.2 ha.nodup
  have hnd : (names.map (fun n => a.dims.idxOf n)).Nodup :=
    hn.map_on (fun x hx y _ h => (List.idxOf_inj (hp.mem_iff.1 hx)).1 h)
  have hlt : ∀ i ∈ names.map (fun n => a.dims.idxOf n), i < a.data.ndim := by
    intro i hi
    obtain ⟨n, hn', rfl⟩ := List.mem_map.1 hi
    rw [ND.ndim, ← ha.length]
    exact List.idxOf_lt_length_of_mem (hp.mem_iff.1 hn')
  have hlen : (names.map (fun n => a.dims.idxOf n)).length = a.data.ndim := by
    rw [List.length_map, hp.length_eq, ha.length]; rfl
  have hshape : (names.map (fun n => a.dims.idxOf n)).map (fun i => a.data.shape.getD i 0) = names.map a.shapeGet := by
    rw [List.map_map]
    apply List.map_congr_left
    intro n hn'
    simp only [Function.comp]
    rw [shape_eq ha, getD_map_idxOf (hp.mem_iff.1 hn')]
  unfold ND.transpose
  rw [if_pos ⟨hlen, hnd, hlt⟩]
  refine ⟨_, rfl, hshape, fun ρ hρ => ?_⟩
  rw [hshape, get_ofFn (valid_map.2 (fun n hn' => hρ n (hp.mem_iff.1 hn')))]
  congr 1
  apply List.ext_getElem
  · simp [ND.ndim, ha.length]
  · intro i h1 h2
    simp only [List.getElem_map, List.getElem_range]
    have hi : i < a.dims.length := by simpa using h2
    have e : a.dims.idxOf a.dims[i] = i := ha.nodup.idxOf_getElem i hi
    have hm : a.dims[i] ∈ a.dims := List.getElem_mem hi
    have := idxOf_map_perm hn hp hm
    rw [e] at this
    rw [this, getD_map_idxOf (hp.mem_iff.2 hm)]

theorem sameByName_of {a : Named κ α} (ha : WellNamed a) {names : List κ} (hp : names.Perm a.dims) {d : ND α}
    (pl : Bool) (hs : d.shape = names.map a.shapeGet)
    (he : ∀ ρ, (∀ n ∈ a.dims, ρ n < a.shapeGet n) → d.get (names.map ρ) = a.data.get (a.dims.map ρ)) :
    SameByName a ⟨d, names, pl⟩ := by
  have hw : WellNamed (⟨d, names, pl⟩ : Named κ α) := ⟨hp.nodup_iff.2 ha.nodup, by simp [hs]⟩
  refine ⟨hw, fun n => hp.mem_iff, fun n => ?_, fun ρ hρ => ?_⟩
  · by_cases hn : n ∈ a.dims
    · rw [sizeAlong_some ha hn]
      have hn' := hp.mem_iff.2 hn
      show d.shape[names.idxOf n]? = _
      rw [hs, List.getElem?_map, List.getElem?_eq_getElem (List.idxOf_lt_length_of_mem hn'), List.getElem_idxOf]
      rfl
    · rw [sizeAlong_none ha hn, sizeAlong_none hw (fun h => hn (hp.mem_iff.1 h))]
  · exact he ρ ((has_iff ha ρ).1 hρ)

/-- **C32**, transposing by names: the new array has the names in the given order, and the same elements at the same
named positions. -/
theorem c32_names_partial (a r : Named κ α) (names : List κ) (given : Bool) (ha : WellNamed a)
    (h : transposeNames a names given = .ok r) : SameByName a r ∧ r.dims = names := by
  unfold transposeNames at h
  split at h
  · cases h
  · split at h
    · cases h
    · split at h
      next hin =>
        split at h
        · cases h
        next d hd =>
          cases h
          have hin' : ∀ n ∈ names, n ∈ a.dims := by simpa using hin
          have hc : (names.map (fun n => a.dims.idxOf n)).length = a.data.ndim ∧
              (names.map (fun n => a.dims.idxOf n)).Nodup := by
            unfold ND.transpose at hd
            split at hd
            next hc => exact ⟨hc.1, hc.2.1⟩
            · cases hd
          have hn : names.Nodup := hc.2.of_map _
          have hp : names.Perm a.dims := by
            refine (hn.subperm hin').perm_of_length_le ?_
            rw [ha.length]
            have := hc.1
            rw [List.length_map, ND.ndim] at this
            omega
          obtain ⟨d', h1, h2, h3⟩ := transpose_perm ha hp
          rw [hd] at h1
          cases h1
          exact ⟨sameByName_of ha hp _ h2 h3, rfl⟩
      · cases h

/-- **C32**, transposing by names is possible for every order of the names of an array with proper names. -/
theorem c32_names_computed (a : Named κ α) (names : List κ) (given : Bool) (ha : WellNamed a) (hpl : a.plain = false)
    (hp : names.Perm a.dims) : ∃ r, transposeNames a names given = .ok r := by
  obtain ⟨d, h1, _, _⟩ := transpose_perm ha hp
  have hm : dimsMismatch a.dims names = false := by
    simp only [dimsMismatch, Bool.or_eq_false_iff, Bool.and_eq_false_iff, List.all_eq_false, List.all_eq_true,
      decide_eq_true_eq, Bool.not_eq_false']
    exact ⟨.inr (fun x hx => hp.mem_iff.1 hx), .inr (fun x hx => hp.mem_iff.2 hx)⟩
  have hin : names.all (fun n => decide (n ∈ a.dims)) = true := by
    simp only [List.all_eq_true, decide_eq_true_eq]; exact fun x hx => hp.mem_iff.1 hx
  unfold transposeNames
  simp only [hpl, hm, hin, h1]
  exact ⟨_, rfl⟩

example : WellNamed exampleXY ∧ ((transposeNames exampleXY ["y", "x"] false).map
    (fun r => (r.dims, r.data.shape, r.data.get [2, 0]))) = .ok (["y", "x"], [3, 2], 2) := ⟨⟨by decide, rfl⟩, by decide⟩

/-- **C32** fails for repeated use: the names of an array transposed by names are a plain tuple, so that it cannot be
transposed by names again, and two such arrays cannot be multiplied. -/
theorem c32_twice (a r : Named κ α) (names names' : List κ) (given : Bool)
    (h : transposeNames a names false = .ok r) :
    transposeNames r names' given = .error .attribute ∧
    ∀ (f : α → α → γ), multiplicative f r r = .error .operand := by
  have hpl : r.plain = true := by
    unfold transposeNames at h
    split at h
    · cases h
    · split at h
      · cases h
      · split at h
        · split at h
          · cases h
          · cases h; rfl
        · cases h
  exact ⟨by unfold transposeNames; rw [if_pos hpl], fun f => c31_default_names f r r hpl hpl⟩

/-- **C32**, transposing by axes: the name at each place is the one at the given axis, and the new array has the same
elements at the same named positions. -/
theorem c32_axes_partial (a r : Named κ α) (axes : List ℤ) (ha : WellNamed a) (h : transposeAxes a axes = .ok r) :
    SameByName a r ∧
    List.Forall₂ (fun i n => ∃ j, axisIndex a.dims.length i = .ok j ∧ a.dims[j]? = some n) axes r.dims := by
  unfold transposeAxes at h
  split at h
  · cases h
  next d hd =>
    split at h
    · cases h
    · split at h
      · cases h
      next names hn =>
        cases h
        have hax : axes.length = a.dims.length ∧ ∃ l, axes.mapM (axisIndex a.data.ndim) = .ok l ∧
            a.data.transpose l = .ok d := by
          unfold ND.transposeInts at hd
          split at hd
          · cases hd
          next l hl =>
            have hlen : l.length = a.data.ndim := by
              unfold ND.transpose at hd
              split at hd
              next hc => exact hc.1
              · cases hd
            have : l.length = axes.length := by
              clear hd hlen hn
              induction axes generalizing l with
              | nil => cases hl; rfl
              | cons i is ih =>
                rw [List.mapM_cons] at hl
                cases e1 : axisIndex a.data.ndim i with
                | error e => rw [e1] at hl; cases hl
                | ok j =>
                  cases e2 : is.mapM (axisIndex a.data.ndim) with
                  | error e => rw [e1, e2] at hl; cases hl
                  | ok js => rw [e1, e2] at hl; cases hl; simp [ih js e2]
            exact ⟨by rw [← this, hlen, ha.length]; rfl, l, hl, hd⟩
        obtain ⟨hl, l, hl', hd'⟩ := hax
        obtain ⟨hp, hf⟩ := c30_permute a.dims axes names hn ha.nodup
        have hff := hf hl
        clear hf
        have hle : l = names.map (fun n => a.dims.idxOf n) := by
          have hnd : a.data.ndim = a.dims.length := ha.length.symm
          rw [hnd] at hl'
          clear hd hn hp hl hd'
          induction hff generalizing l with
          | nil => cases hl'; rfl
          | cons hi _ ih =>
            obtain ⟨j, hj, hj'⟩ := hi
            rw [List.mapM_cons, hj] at hl'
            rename_i i n is ns _
            cases e2 : is.mapM (axisIndex a.dims.length) with
            | error e => rw [e2] at hl'; cases hl'
            | ok js =>
              rw [e2] at hl'
              cases hl'
              rw [List.map_cons, ← ih js e2]
              obtain ⟨hlt, rfl⟩ := List.getElem?_eq_some_iff.1 hj'
              rw [ha.nodup.idxOf_getElem]
        obtain ⟨d', h1, h2, h3⟩ := transpose_perm ha hp
        rw [← hle, hd'] at h1
        cases h1
        exact ⟨sameByName_of ha hp _ h2 h3, hff⟩

example : ((transposeAxes exampleXY [1, 0]).map (fun r => (r.dims, r.data.shape, r.data.get [2, 0]))) =
    .ok (["y", "x"], [3, 2], 2) := by decide

/-- **C32** fails for one integer: `array.transpose(0)` of a one-dimensional array raises `TypeError`. -/
theorem c32_single_axis (a : Named κ α) (axis : ℤ) : transposeAxis a axis = .error .type := rfl

/-- **C32**, `numpy.transpose(array)` reverses the names together with the data. -/
theorem c32_numpy (a : Named κ α) (ha : WellNamed a) :
    ∃ r, npTranspose a = .ok r ∧ SameByName a r ∧ r.dims = a.dims.reverse := by
  have hp : a.dims.reverse.Perm a.dims := List.reverse_perm _
  obtain ⟨d, h1, h2, h3⟩ := transpose_perm ha hp
  have e : a.dims.reverse.map (fun n => a.dims.idxOf n) = (List.range a.data.ndim).reverse := by
    rw [List.map_reverse]
    congr 1
    apply List.ext_getElem
    · simp [ND.ndim, ha.length]
    · intro i h1 h2
      simp only [List.getElem_map, List.getElem_range]
      exact ha.nodup.idxOf_getElem i (by simpa using h1)
  rw [e] at h1
  have hlen : a.dims.reverse.length = d.ndim := by rw [ND.ndim, h2, List.length_map]
  refine ⟨⟨d, a.dims.reverse, false⟩, ?_, sameByName_of ha hp _ h2 h3, rfl⟩
  unfold npTranspose arrayFactory
  simp only [h1]
  rw [dimensions_nodup (List.nodup_reverse.2 ha.nodup), if_pos hlen]

/-- **C32** fails for `numpy.transpose(array, axes=axes)`: the names are permuted as asked, and the data are reversed.
For a cube the result has its elements under wrong names; in general the lengths go to wrong names. -/
theorem c32_numpy_axes :
    (npTransposeAxes (⟨⟨[2, 3, 4], id⟩, ["x", "y", "z"], false⟩ : Named String Nat) [1, 0, 2]).map
      (fun r => (r.dims, r.data.shape)) = .ok (["y", "x", "z"], [4, 3, 2]) ∧
    (npTransposeAxes (⟨⟨[2, 2], id⟩, ["x", "y"], false⟩ : Named String Nat) [0, 1]).map
      (fun r => (r.at (fun n => if n = "x" then 1 else 0))) = .ok 1 ∧
    (⟨⟨[2, 2], id⟩, ["x", "y"], false⟩ : Named String Nat).at (fun n => if n = "x" then 1 else 0) = 2 := by decide

/-! ## C69: reductions keep the names of the remaining dimensions -/

theorem eraseIdx_map_idxOf {ds : List κ} (h : ds.Nodup) {d : κ} (hd : d ∈ ds) {ν : Type} (g : κ → ν) :
    (ds.map g).eraseIdx (ds.idxOf d) = (ds.filter (fun n => decide (n ≠ d))).map g := by
  induction ds with
  | nil => cases hd
  | cons k ks ih =>
    have hk := (List.nodup_cons.1 h).1
    by_cases e : k = d
    · subst e
      have : ks.filter (fun n => decide (n ≠ k)) = ks := by
        rw [List.filter_eq_self]
        intro n hn
        simp only [decide_eq_true_eq]
        rintro rfl; exact hk hn
      simp only [List.idxOf_cons_self, List.map_cons, List.eraseIdx_cons_zero]
      rw [List.filter_cons_of_neg (by simp), this]
    · have hd' : d ∈ ks := by
        rcases List.mem_cons.1 hd with h' | h'
        · exact absurd h'.symm e
        · exact h'
      rw [List.idxOf_cons_ne _ e, List.map_cons, List.eraseIdx_cons_succ, ih (List.nodup_cons.1 h).2 hd',
        List.filter_cons_of_pos (by simpa using e), List.map_cons]

theorem insertIdx_map_idxOf {ds : List κ} (h : ds.Nodup) {d : κ} (hd : d ∈ ds) {ν : Type} (g : κ → ν) (x : ν) :
    ((ds.filter (fun n => decide (n ≠ d))).map g).insertIdx (ds.idxOf d) x = ds.map (Function.update g d x) := by
  induction ds with
  | nil => cases hd
  | cons k ks ih =>
    have hk := (List.nodup_cons.1 h).1
    by_cases e : k = d
    · subst e
      have : ks.filter (fun n => decide (n ≠ k)) = ks := by
        rw [List.filter_eq_self]
        intro n hn
        simp only [decide_eq_true_eq]
        rintro rfl; exact hk hn
      rw [List.filter_cons_of_neg (by simp), this, List.idxOf_cons_self, List.insertIdx_zero, List.map_cons,
        Function.update_self]
      congr 1
      apply List.map_congr_left
      intro n hn
      rw [Function.update_of_ne]
      rintro rfl; exact hk hn
    · have hd' : d ∈ ks := by
        rcases List.mem_cons.1 hd with h' | h'
        · exact absurd h'.symm e
        · exact h'
      rw [List.idxOf_cons_ne _ e, List.filter_cons_of_pos (by simpa using e), List.map_cons, List.insertIdx_succ_cons,
        ih (List.nodup_cons.1 h).2 hd', List.map_cons, Function.update_of_ne e]

theorem set_map_idxOf {ds : List κ} (h : ds.Nodup) {d : κ} (hd : d ∈ ds) {ν : Type} (g : κ → ν) (x : ν) :
    (ds.map g).set (ds.idxOf d) x = ds.map (Function.update g d x) := by
  induction ds with
  | nil => cases hd
  | cons k ks ih =>
    have hk := (List.nodup_cons.1 h).1
    by_cases e : k = d
    · subst e
      rw [List.idxOf_cons_self, List.map_cons, List.set_cons_zero, List.map_cons, Function.update_self]
      congr 1
      apply List.map_congr_left
      intro n hn
      rw [Function.update_of_ne]
      rintro rfl; exact hk hn
    · have hd' : d ∈ ks := by
        rcases List.mem_cons.1 hd with h' | h'
        · exact absurd h'.symm e
        · exact h'
      rw [List.idxOf_cons_ne _ e, List.map_cons, List.set_cons_succ, ih (List.nodup_cons.1 h).2 hd', List.map_cons,
        Function.update_of_ne e]

theorem axis_resolved {a : Named κ α} (ha : WellNamed a) {axis : ℤ} {k : Nat}
    (hk : axisIndex a.dims.length axis = .ok k) {d : κ} (hd : a.dims[k]? = some d) :
    axisIndex a.data.ndim axis = .ok k ∧ d ∈ a.dims ∧ a.dims.idxOf d = k ∧
    (if axis < 0 then (a.data.ndim : ℤ) + axis else axis) = k ∧ axis % (a.data.ndim : ℤ) = k := by
  obtain ⟨hlt, rfl⟩ := List.getElem?_eq_some_iff.1 hd
  have hnd : a.data.ndim = a.dims.length := ha.length.symm
  rw [hnd]
  refine ⟨hk, List.getElem_mem hlt, ha.nodup.idxOf_getElem k hlt, ?_, ?_⟩
  · unfold axisIndex at hk
    split at hk
    next h => cases hk; split <;> omega
    · cases hk
  · unfold axisIndex at hk
    split at hk
    next h =>
      cases hk
      split
      next hneg =>
        rw [← Int.add_emod_right, Int.emod_eq_of_lt (by omega) (by omega)]
        omega
      next hneg =>
        rw [Int.emod_eq_of_lt (by omega) (by omega)]
        omega
    · cases hk

theorem otherDims_eq {dims : List κ} {d : κ} (hd : d ∈ dims) :
    otherDims dims (dims.idxOf d : ℤ) = dims.filter (fun n => decide (n ≠ d)) := by
  unfold otherDims
  apply List.filter_congr
  intro n hn
  congr 1
  rw [ne_eq, ne_eq, Nat.cast_inj, List.idxOf_inj hn]

theorem filter_length {dims : List κ} (h : dims.Nodup) {d : κ} (hd : d ∈ dims) :
    (dims.filter (fun n => decide (n ≠ d))).length + 1 = dims.length := by
  have := congrArg List.length (eraseIdx_map_idxOf h hd id)
  have hi := List.idxOf_lt_length_of_mem hd
  simp only [List.map_id_fun, id_eq, List.length_eraseIdx, List.length_map, if_pos hi] at this
  omega

theorem sizeAlong_of_shape {x : ND α} {ds : List κ} {pl : Bool} {g : κ → Nat} (hs : x.shape = ds.map g) {n : κ}
    (hn : n ∈ ds) : (⟨x, ds, pl⟩ : Named κ α).sizeAlong n = some (g n) := by
  unfold Named.sizeAlong
  simp only
  rw [hs, List.getElem?_map, List.getElem?_eq_getElem (List.idxOf_lt_length_of_mem hn), List.getElem_idxOf]
  rfl

theorem has_of_shape {x : ND α} {ds : List κ} {pl : Bool} {g : κ → Nat} (hs : x.shape = ds.map g) {ρ : κ → Nat}
    (h : (⟨x, ds, pl⟩ : Named κ α).Has ρ) : ∀ n ∈ ds, ρ n < g n :=
  fun n hn => h n (g n) (sizeAlong_of_shape hs hn)

theorem reduce_spec (f : List α → β) {a : Named κ α} (ha : WellNamed a) {d : κ} (hd : d ∈ a.dims) :
    ReducesAlong f a d ⟨a.data.reduce f (a.dims.idxOf d), a.dims.filter (fun n => decide (n ≠ d)), false⟩ := by
  have hnd : (a.dims.filter (fun n => decide (n ≠ d))).Nodup := ha.nodup.filter _
  have hs : (a.data.reduce f (a.dims.idxOf d)).shape =
      (a.dims.filter (fun n => decide (n ≠ d))).map a.shapeGet := by
    show a.data.shape.eraseIdx _ = _
    rw [shape_eq ha]
    exact eraseIdx_map_idxOf ha.nodup hd _
  refine ⟨⟨hnd, by rw [hs, List.length_map]⟩, rfl, ?_, ?_⟩
  · intro n hn
    rw [sizeAlong_of_shape hs hn, sizeAlong_some ha (List.mem_filter.1 hn).1]
  · intro ρ hρ
    have hv := has_of_shape hs hρ
    unfold Named.along
    rw [sizeAlong_some ha hd]
    unfold Named.at ND.reduce
    simp only
    rw [get_ofFn]
    · have e : a.data.shape.getD (a.dims.idxOf d) 0 = a.shapeGet d := by
        conv_lhs => rw [shape_eq ha]
        exact getD_map_idxOf hd
      rw [e]
      congr 1
      apply List.map_congr_left
      intro i _
      rw [insertIdx_map_idxOf ha.nodup hd]
    · show Valid _ (a.data.reduce f (a.dims.idxOf d)).shape
      rw [hs]
      exact valid_map.2 hv

theorem reduceKeep_spec (f : List α → β) {a : Named κ α} (ha : WellNamed a) {d : κ} (hd : d ∈ a.dims) :
    ReducesKeeping f a d ⟨a.data.reduceKeep f (a.dims.idxOf d), a.dims, false⟩ := by
  have hs : (a.data.reduceKeep f (a.dims.idxOf d)).shape = a.dims.map (Function.update a.shapeGet d 1) := by
    show a.data.shape.set _ _ = _
    rw [shape_eq ha]
    exact set_map_idxOf ha.nodup hd _ _
  refine ⟨⟨ha.nodup, by rw [hs, List.length_map]⟩, rfl, ?_, ?_⟩
  · intro n hn
    rw [sizeAlong_of_shape hs hn]
    by_cases e : n = d
    · subst e; simp
    · rw [if_neg e, Function.update_of_ne e, sizeAlong_some ha hn]
  · intro ρ hρ
    have hv := has_of_shape hs hρ
    unfold Named.along
    rw [sizeAlong_some ha hd]
    unfold Named.at ND.reduceKeep
    simp only
    rw [get_ofFn]
    · have e : a.data.shape.getD (a.dims.idxOf d) 0 = a.shapeGet d := by
        conv_lhs => rw [shape_eq ha]
        exact getD_map_idxOf hd
      rw [e]
      congr 1
      apply List.map_congr_left
      intro i _
      rw [set_map_idxOf ha.nodup hd]
    · show Valid _ (a.data.reduceKeep f (a.dims.idxOf d)).shape
      rw [hs]
      exact valid_map.2 hv

/-- **C69**, `numpy.sum(array, axis=axis)`, for every array of named dimensions and every axis it has, by its index from
the start or from the end: the result holds the sums along that dimension, under the names of the others.  The same for
`numpy.mean` and, with trapezoidal sums, `numpy.trapz`. -/
theorem c69_reduce_partial (f : List α → β) (a : Named κ α) (ha : WellNamed a) (axis : ℤ) (k : Nat) (d : κ)
    (hk : axisIndex a.dims.length axis = .ok k) (hd : a.dims[k]? = some d) :
    (∃ r, sumAxis f a axis none = .ok r ∧ ReducesAlong f a d r) ∧
    (∃ r, meanAxis f a axis none = .ok r ∧ ReducesAlong f a d r) := by
  obtain ⟨h1, h2, h3, h4, h5⟩ := axis_resolved ha hk hd
  have hr := reduce_spec f ha h2
  rw [h3] at hr
  have hn : (a.dims.filter (fun n => decide (n ≠ d))).Nodup := ha.nodup.filter _
  have hl : (a.dims.filter (fun n => decide (n ≠ d))).length = (a.data.reduce f k).ndim := hr.named.length
  have ho := otherDims_eq h2
  rw [h3] at ho
  constructor
  · refine ⟨_, ?_, hr⟩
    simp only [sumAxis, ND.reduceAt, h1, h4, ho, arrayFactory, dimensions_nodup hn, Option.getD_none]
    exact if_pos hl
  · refine ⟨_, ?_, hr⟩
    simp only [meanAxis, ND.reduceAt, h1, h5, ho, arrayFactory, dimensions_nodup hn, Option.getD_none]
    exact if_pos hl

example : axisIndex exampleXY.dims.length (-1) = .ok 1 ∧ exampleXY.dims[1]? = some "y" ∧
    (sumAxis List.sum exampleXY (-1) none).map (fun r => (r.dims, r.data.shape, r.data.get [1])) =
      .ok (["x"], [2], 12) := by decide

/-- **C69**, `numpy.sum(array, axis=axis, keepdims=True)` keeps all names. -/
theorem c69_sum_keepdims (f : List α → β) (a : Named κ α) (ha : WellNamed a) (axis : ℤ) (k : Nat) (d : κ)
    (hk : axisIndex a.dims.length axis = .ok k) (hd : a.dims[k]? = some d) :
    ∃ r, sumAxis f a axis (some true) = .ok r ∧ ReducesKeeping f a d r := by
  obtain ⟨h1, h2, h3, h4, h5⟩ := axis_resolved ha hk hd
  have hr := reduceKeep_spec f ha h2
  rw [h3] at hr
  have hl : a.dims.length = (a.data.reduceKeep f k).ndim := hr.named.length
  refine ⟨_, ?_, hr⟩
  simp only [sumAxis, ND.reduceAt, h1, arrayFactory, dimensions_nodup ha.nodup, Option.getD_some]
  exact if_pos hl

/-- **C69** fails for every array when `keepdims=False` is given to `numpy.sum`, or `keepdims=True` to `numpy.mean`:
the names do not fit the data, and `ValueError` is raised. -/
theorem c69_keepdims (f : List α → β) (a : Named κ α) (ha : WellNamed a) (axis : ℤ) (k : Nat)
    (hk : axisIndex a.dims.length axis = .ok k) :
    sumAxis f a axis (some false) = .error .value ∧ meanAxis f a axis (some true) = .error .value := by
  have hkl : k < a.dims.length := by
    unfold axisIndex at hk
    split at hk
    next h => cases hk; split <;> omega
    · cases hk
  have hd : a.dims[k]? = some a.dims[k] := List.getElem?_eq_getElem hkl
  obtain ⟨h1, h2, h3, h4, h5⟩ := axis_resolved ha hk hd
  have ho := otherDims_eq h2
  rw [h3] at ho
  have hr := reduce_spec f ha h2
  have hr' := reduceKeep_spec f ha h2
  rw [h3] at hr hr'
  have hl : (a.dims.filter (fun n => decide (n ≠ a.dims[k]))).length = (a.data.reduce f k).ndim := hr.named.length
  have hl' : a.dims.length = (a.data.reduceKeep f k).ndim := hr'.named.length
  have hfl := filter_length ha.nodup h2
  constructor
  · simp only [sumAxis, ND.reduceAt, h1, arrayFactory, dimensions_nodup ha.nodup, Option.getD_some]
    exact if_neg (fun e => by simp only [Bool.false_eq_true, if_false] at e; omega)
  · have hn : (a.dims.filter (fun n => decide (n ≠ a.dims[k]))).Nodup := ha.nodup.filter _
    simp only [meanAxis, ND.reduceAt, h1, h5, ho, arrayFactory, dimensions_nodup hn, Option.getD_some]
    exact if_neg (fun e => by simp only [if_true] at e; omega)

example : WellNamed exampleXY ∧ axisIndex exampleXY.dims.length 0 = .ok 0 := ⟨⟨by decide, rfl⟩, rfl⟩

/-- **C69**, `numpy.cumsum(array, axis=axis)` keeps the names and accumulates along that dimension. -/
theorem c69_cumsum (f : List α → β) (a : Named κ α) (ha : WellNamed a) (axis : ℤ) (k : Nat) (d : κ)
    (hk : axisIndex a.dims.length axis = .ok k) (hd : a.dims[k]? = some d) :
    ∃ r, cumsumAxis f a axis = .ok r ∧ AccumulatesAlong f a d r := by
  obtain ⟨h1, h2, h3, h4, h5⟩ := axis_resolved ha hk hd
  have hl : a.dims.length = (a.data.accumulate f k).ndim := ha.length
  have hs : (a.data.accumulate f k).shape = a.dims.map a.shapeGet := shape_eq ha
  refine ⟨⟨a.data.accumulate f k, a.dims, false⟩, ?_, ⟨ha.nodup, ha.length⟩, rfl, fun n => rfl, ?_⟩
  · simp only [cumsumAxis, h1, arrayFactory, dimensions_nodup ha.nodup]
    exact if_pos hl
  · intro ρ hρ
    have hv := has_of_shape hs hρ
    unfold Named.at ND.accumulate
    simp only
    rw [get_ofFn (by rw [shape_eq ha]; exact valid_map.2 hv)]
    subst h3
    rw [getD_map_idxOf h2]
    congr 1
    apply List.map_congr_left
    intro i _
    rw [set_map_idxOf ha.nodup h2]

example : (cumsumAxis List.sum exampleXY 1).map (fun r => (r.dims, r.data.shape, r.data.get [1, 1])) =
      .ok (["x", "y"], [2, 3], 7) := by decide

theorem sizeOf_squeeze (ds : List κ) (g : κ → Nat) :
    sizeOf (ds.map g) = sizeOf ((ds.filter (fun d => decide (g d ≠ 1))).map g) := by
  induction ds with
  | nil => rfl
  | cons d ds ih =>
    by_cases h : g d = 1
    · rw [List.filter_cons_of_neg (by simpa using h), List.map_cons, sizeOf_cons, h, ih, Nat.one_mul]
    · rw [List.filter_cons_of_pos (by simpa using h), List.map_cons, List.map_cons, sizeOf_cons, sizeOf_cons, ih]

theorem ravel_squeeze (ds : List κ) (g ρ : κ → Nat) :
    ravel (ds.map g) (ds.map (fun d => if g d = 1 then 0 else ρ d)) =
    ravel ((ds.filter (fun d => decide (g d ≠ 1))).map g) ((ds.filter (fun d => decide (g d ≠ 1))).map ρ) := by
  induction ds with
  | nil => rfl
  | cons d ds ih =>
    by_cases h : g d = 1
    · rw [List.filter_cons_of_neg (by simpa using h), List.map_cons, List.map_cons, ravel, if_pos h, ih, Nat.zero_mul,
        Nat.zero_add]
    · rw [List.filter_cons_of_pos (by simpa using h), List.map_cons, List.map_cons, ravel, if_neg h, ih, List.map_cons,
        List.map_cons, ravel, sizeOf_squeeze]

/-- **C69**, `numpy.squeeze(array)` removes the dimensions of length one, and nothing else. -/
theorem c69_squeeze (a : Named κ α) (ha : WellNamed a) : ∃ r, squeeze a = .ok r ∧ Squeezed a r := by
  have hn : (a.dims.filter (fun d => decide (a.shapeGet d ≠ 1))).Nodup := ha.nodup.filter _
  have hs : a.data.shape.filter (fun n => decide (n ≠ 1)) =
      (a.dims.filter (fun d => decide (a.shapeGet d ≠ 1))).map a.shapeGet := by
    rw [shape_eq ha, List.filter_map]
    rfl
  refine ⟨⟨⟨a.data.shape.filter (fun n => decide (n ≠ 1)), a.data.data⟩,
    a.dims.filter (fun d => decide (a.shapeGet d ≠ 1)), false⟩, ?_, ⟨hn, by simp only [hs, List.length_map]⟩, ?_,
    List.filter_sublist, ?_, ?_⟩
  · simp only [squeeze, arrayFactory, dimensions_nodup hn]
    exact if_pos (by simp only [ND.ndim, hs, List.length_map])
  · intro n
    simp only [List.mem_filter, decide_eq_true_eq]
    constructor
    · rintro ⟨h1, h2⟩
      exact ⟨h1, by rw [sizeAlong_some ha h1]; simpa using h2⟩
    · rintro ⟨h1, h2⟩
      rw [sizeAlong_some ha h1] at h2
      exact ⟨h1, by simpa using h2⟩
  · intro n hn'
    rw [sizeAlong_of_shape hs hn', sizeAlong_some ha (List.mem_filter.1 hn').1]
  · intro ρ _
    have e : a.read ρ = a.data.get (a.dims.map (fun d => if a.shapeGet d = 1 then 0 else ρ d)) := by
      unfold Named.read
      refine at_congr (a := a) (fun d hd => ?_)
      rw [sizeAlong_some ha hd]
      simp only [Option.some.injEq]
    rw [e]
    show a.data.data (ravel (a.data.shape.filter _) _) = a.data.data (ravel a.data.shape _)
    rw [hs, shape_eq ha, ravel_squeeze]

example : (squeeze (⟨⟨[1, 2, 1, 3], id⟩, ["t", "x", "s", "y"], false⟩ : Named String Nat)).map
    (fun r => (r.dims, r.data.shape, r.data.get [1, 2])) = .ok (["x", "y"], [2, 3], 5) := by decide

/-- **C69** fails for `numpy.squeeze(array, axis=axis)` if the array has another dimension of length one. -/
theorem c69_squeeze_axis (a : Named κ α) (ha : WellNamed a) (axis : ℤ) (d d' : κ) (hdd : d ≠ d')
    (h1 : a.sizeAlong d = some 1) (h2 : a.sizeAlong d' = some 1)
    (hk : axisIndex a.data.ndim axis = .ok (a.dims.idxOf d)) : squeezeAxis a axis = .error .value := by
  have hd : d ∈ a.dims := by
    by_contra h; rw [sizeAlong_none ha h] at h1; cases h1
  have hd' : d' ∈ a.dims := by
    by_contra h; rw [sizeAlong_none ha h] at h2; cases h2
  have hn : (a.dims.filter (fun d => decide (a.shapeGet d ≠ 1))).Nodup := ha.nodup.filter _
  unfold squeezeAxis
  simp only [hk]
  split
  · rfl
  · unfold arrayFactory
    rw [dimensions_nodup hn]
    apply if_neg
    intro e
    have hi := List.idxOf_lt_length_of_mem hd
    simp only [ND.ndim, List.length_eraseIdx, ← ha.length, if_pos hi] at e
    have hp : (d :: d' :: a.dims.filter (fun d => decide (a.shapeGet d ≠ 1))).Nodup := by
      have g1 : a.shapeGet d = 1 := by rw [shapeGet_eq ha, h1]; rfl
      have g2 : a.shapeGet d' = 1 := by rw [shapeGet_eq ha, h2]; rfl
      refine List.nodup_cons.2 ⟨?_, List.nodup_cons.2 ⟨?_, hn⟩⟩
      · simp [hdd, g1]
      · simp [g2]
    have hle := (hp.subperm (l₂ := a.dims) (by
      intro n hn'
      simp only [List.mem_cons, List.mem_filter] at hn'
      rcases hn' with rfl | rfl | h
      · exact hd
      · exact hd'
      · exact h.1)).length_le
    simp only [List.length_cons] at hle
    omega

example : squeezeAxis (⟨⟨[1, 2, 1], id⟩, ["t", "x", "s"], false⟩ : Named String Nat) 0 = .error .value := rfl

/-! ## C70: numpy functions of two arrays -/

/-- **C70** fails: a binary numpy function that the package does not implement itself (such as `numpy.maximum` or
`numpy.hypot`) ignores its second array and uses the first one twice. -/
theorem c70_second_ignored (f : α → α → γ) (a b b' : Named κ α) : applyUfunc f a b = applyUfunc f a b' := rfl

/-- **C70** fails, with a witness: `numpy.maximum` of `[0]` and `[5]` is `[0]`. -/
theorem c70_maximum :
    (applyUfunc max (⟨⟨[1], fun _ => 0⟩, ["x"], false⟩ : Named String Nat) ⟨⟨[1], fun _ => 5⟩, ["x"], false⟩).map
      (fun r => r.get [0]) = .ok 0 := by decide

end Eprem.Numeric
