import Verif.Lemmas.Container
import Mathlib.Algebra.Order.Ring.Rat
import Mathlib.Algebra.Field.Rat

/-!
# Properties C08-C14: containers
-/

namespace Eprem.Container

variable {α κ ν : Type}

/-! ## C08: `unique` -/

/-- **C08.** `unique` keeps each item once, in order of first occurrence. -/
theorem c08_unique [DecidableEq α] (items : List α) : FirstOccurrences items (unique items) :=
  unique_spec items

/-- **C08**, idempotence. -/
theorem c08_unique_idempotent [DecidableEq α] (items : List α) : unique (unique items) = unique items :=
  unique_nodup _ (unique_spec items).nodup

/-- **C08**: the specification leaves no freedom: it determines the result. -/
theorem c08_unique_determined [DecidableEq α] (items r : List α) (h : FirstOccurrences items r) :
    r = unique items := by
  have hu := unique_spec items
  refine eq_of_before h.nodup hu.nodup (fun x => by rw [h.mem, hu.mem]) (fun a b h1 h2 => ?_)
  have := h.order a b h1
  have := hu.order b a h2
  omega

example : unique [3, 1, 3, 2, 1] = [3, 1, 2] := by decide

/-! ## C09: `merge` -/

/-- **C09.** On duplicate-free arguments, `merge` fails exactly when two common members appear in
opposite orders. -/
theorem c09_merge_fails_iff [DecidableEq α] (x y : List α) (hx : x.Nodup) (hy : y.Nodup) :
    (∃ e, merge x y = .error e) ↔ OrderConflict x y := by
  rw [orderConflict_iff hx hy]
  unfold merge
  simp only
  split
  · rename_i h
    constructor
    · rintro ⟨e, he⟩; cases he
    · intro hne
      exfalso
      apply hne
      rw [h, eq_comm, List.filter_eq_nil_iff]
      intro a ha hax
      have : a ∈ x.filter (fun i => decide (i ∈ y)) :=
        List.mem_filter.2 ⟨by simpa using hax, by simpa using ha⟩
      rw [h] at this; simp at this
  · split
    · rename_i h; exact ⟨fun _ => h, fun _ => ⟨_, rfl⟩⟩
    · rename_i h
      constructor
      · rintro ⟨e, he⟩; cases he
      · intro h'; exact absurd h' h

/-- **C09.** Otherwise the result has exactly the members of both arguments, once each, and contains
both arguments in their own order. -/
theorem c09_merge_ok [DecidableEq α] (x y r : List α) (hx : x.Nodup) (hy : y.Nodup)
    (h : merge x y = .ok r) : IsMerge x y r := by
  unfold merge at h
  simp only at h
  split at h
  · rename_i he
    cases h
    refine ⟨List.Nodup.append hx hy ?_, by simp, List.sublist_append_left _ _, List.sublist_append_right _ _⟩
    intro a ha hb
    have : a ∈ x.filter (fun i => decide (i ∈ y)) := List.mem_filter.2 ⟨ha, by simpa using hb⟩
    rw [he] at this; simp at this
  · split at h
    · cases h
    · rename_i heq
      cases h
      obtain ⟨r, hr, hm⟩ := mergeLoop_spec hx hy (x.filter (fun i => decide (i ∈ y))) [] 0 0 rfl
        (by simpa using (not_not.1 heq).symm)
      rw [hr]
      simpa using hm

/-- **C09**: merging a list with itself, or with nothing, changes nothing. -/
theorem c09_merge_self [DecidableEq α] (x : List α) (hx : x.Nodup) :
    merge x x = .ok x ∧ merge x [] = .ok x ∧ merge [] x = .ok x := by
  refine ⟨?_, by simp [merge], by simp [merge]⟩
  cases h : merge x x with
  | error e =>
    obtain ⟨a, b, h1, h2⟩ := (c09_merge_fails_iff x x hx hx).1 ⟨e, h⟩
    exact (before_asymm hx h1 h2).elim
  | ok r =>
    have hm := c09_merge_ok x x r hx hx h
    congr 1
    refine eq_of_before hm.nodup hx (fun z => by rw [hm.mem]; simp) (fun a b h1 h2 => ?_)
    exact before_asymm hm.nodup h1 (h2.trans hm.left)

example : merge ['t', 's', 'p', 'e'] ['t', 'x', 'p', 'z'] = .ok ['t', 's', 'x', 'p', 'e', 'z'] := by decide
example : merge [1, 2, 3] [2, 1] = .error .mergeError := by decide
example : OrderConflict [1, 2, 3] [2, 1] := ⟨1, 2, by unfold Before; decide, by unfold Before; decide⟩

/-! ## C10: `Bijection` -/

/-- **C10.** Construction succeeds exactly when no value repeats (and then keeps the mapping). -/
theorem c10_bijection_iff [DecidableEq ν] (d : Dict κ ν) :
    (Bijection.mk? d = .ok d ↔ d.values.Nodup) ∧
      (¬ d.values.Nodup → Bijection.mk? d = .error .injectiveType) := by
  have h := unique_length_iff d.values
  have hlen : d.values.length = d.length := by simp [Dict.values]
  rw [hlen] at h
  unfold Bijection.mk?
  simp only
  constructor
  · rw [← h.2]
    constructor
    · intro h'
      split at h'
      · cases h'
      · split at h'
        · cases h'
        · omega
    · intro h'
      rw [if_neg (by omega), if_neg (by omega)]
  · intro hn
    rw [← h.2] at hn
    rw [if_pos (by omega)]

/-- **C10.** The inverse of a constructed bijection exists and maps each value back to its key;
inverting twice gives back the original, items in the original order. -/
theorem c10_bijection_invert [DecidableEq κ] [DecidableEq ν] (d : Dict κ ν) (hw : d.WF)
    (h : Bijection.mk? d = .ok d) :
    ∃ i, Bijection.invert d = .ok i ∧ (∀ k v, i.get? v = some k ↔ d.get? k = some v) ∧
      Bijection.invert i = .ok d := by
  have hv : d.values.Nodup := (c10_bijection_iff d).1.1 h
  have e1 : (d.map (fun p => (p.2, p.1))).map Prod.fst = d.values := by simp [Dict.values]
  have e2 : Dict.ofItems (d.map (fun p => (p.2, p.1))) = d.map (fun p => (p.2, p.1)) :=
    Dict.ofItems_nodup _ (by rw [e1]; exact hv)
  have w2 : Dict.WF (d.map (fun p => (p.2, p.1))) := by
    unfold Dict.WF Dict.keys; rw [e1]; exact hv
  refine ⟨d.map (fun p => (p.2, p.1)), ?_, ?_, ?_⟩
  · unfold Bijection.invert
    rw [e2]
    apply (c10_bijection_iff _).1.2
    unfold Dict.values
    rw [List.map_map]
    exact hw
  · intro k v
    rw [Dict.get?_eq_some w2, Dict.get?_eq_some hw, List.mem_map]
    constructor
    · rintro ⟨⟨a, b⟩, hm, he⟩; cases he; exact hm
    · intro hm; exact ⟨_, hm, rfl⟩
  · unfold Bijection.invert
    have e3 : (d.map (fun p => (p.2, p.1))).map (fun p => (p.2, p.1)) = d := by
      rw [List.map_map]; exact List.map_id _
    rw [e3, Dict.ofItems_nodup d hw]
    exact h

/-- **C10.** `find` gives the key of a value and raises `KeyError` exactly for values that are absent. -/
theorem c10_bijection_find [DecidableEq κ] [DecidableEq ν] (d : Dict κ ν) (hw : d.WF)
    (h : Bijection.mk? d = .ok d) (v : ν) :
    (∀ k, Bijection.find d v = .ok k ↔ d.get? k = some v) ∧
    (Bijection.find d v = .error .keyError ↔ v ∉ d.values) := by
  obtain ⟨i, hi, hm, _⟩ := c10_bijection_invert d hw h
  unfold Bijection.find
  rw [hi]
  simp only
  cases hg : i.get? v with
  | some k =>
    have := (hm k v).1 hg
    constructor
    · intro k'
      rw [← hm k' v, hg]
      simp
    · simp only [reduceCtorEq, false_iff, not_not]
      exact mem_values.2 ⟨k, Dict.mem_of_get? this⟩
  | none =>
    constructor
    · intro k'
      rw [← hm k' v, hg]
      simp
    · simp only [true_iff]
      intro hv
      obtain ⟨k, hk⟩ := mem_values.1 hv
      have := (hm k v).2 (Dict.get?_of_mem hw hk)
      rw [hg] at this; cases this

example : Bijection.invert [('a', 1), ('b', 2)] = .ok [(1, 'a'), (2, 'b')] := by decide
example : Bijection.mk? [('a', 1), ('b', 1)] = .error .injectiveType := by decide
example : Bijection.mk? [('a', 1), ('b', 2)] = .ok [('a', 1), ('b', 2)] := by decide

/-! ## C11: `nearest` -/

section Nearest
variable {𝕜 : Type} [LinearOrder 𝕜] [AddCommGroup 𝕜]

/-- **C11.** Without a bound, `nearest` returns the first position at minimal distance. -/
theorem c11_nearest (l : List 𝕜) (t : 𝕜) (hne : l ≠ []) :
    ∃ (i : Nat) (v : 𝕜), nearest l t .none = .ok (i, v) ∧ l[i]? = some v ∧ NearestAt l t i := by
  obtain ⟨i, hi, hN⟩ := argmin_spec l t hne
  obtain ⟨v, hv, _⟩ := id hN
  refine ⟨i, v, ?_, hv, hN⟩
  simp only [nearest, hi, pyGet?_nat, hv]

theorem sorted_get {l : List 𝕜} (hs : l.Pairwise (· ≤ ·)) {i j : Nat} {a b : 𝕜} (hi : l[i]? = some a)
    (hj : l[j]? = some b) (hij : i ≤ j) : a ≤ b := by
  obtain ⟨h1, rfl⟩ := List.getElem?_eq_some_iff.1 hi
  obtain ⟨h2, rfl⟩ := List.getElem?_eq_some_iff.1 hj
  rcases Nat.lt_or_ge i j with h | h
  · exact List.pairwise_iff_getElem.1 hs i j h1 h2 h
  · have : i = j := by omega
    subst this; exact le_refl _

theorem pyGet?_last {l : List 𝕜} (hne : l ≠ []) : pyGet? l (-1) = l.getLast? := by
  have hpos : 0 < l.length := List.length_pos_iff.2 hne
  simp only [pyGet?, Int.reduceNeg, Int.reduceLE, ↓reduceIte]
  rw [if_pos (by omega), List.getLast?_eq_getElem?]
  congr 1
  omega

variable [IsOrderedAddMonoid 𝕜]

/-- **C11.** On a non-decreasing sequence with bound `'lower'`, the result is the smallest value not
below the target, if there is one; otherwise it is the last value (at index `-1`). -/
theorem c11_nearest_lower (l : List 𝕜) (t : 𝕜) (hne : l ≠ []) (hs : l.Pairwise (· ≤ ·)) :
    (∀ x ∈ l, t ≤ x → ∃ (i : Nat) (v : 𝕜), nearest l t .lower = .ok (i, v) ∧ l[i]? = some v ∧ t ≤ v ∧
      ∀ y ∈ l, t ≤ y → v ≤ y) ∧
    ((∀ x ∈ l, x < t) → ∃ v, nearest l t .lower = .ok (-1, v) ∧ l.getLast? = some v) := by
  obtain ⟨i, hi, w, hw, hN⟩ := argmin_spec l t hne
  have hmem : ∀ {k x}, l[k]? = some x → x ∈ l := fun h => List.mem_of_getElem? h
  rcases lowerLoop_spec l t (l.length + 1) i (by omega) with ⟨j, v, h1, h2, h3, h4, h5⟩ | ⟨h1, h2⟩
  · have hres : nearest l t .lower = .ok ((j : Int), v) := by
      simp only [nearest, hi, h1, pyGet?_nat, h2]
    refine ⟨fun x hx htx => ⟨j, v, hres, h2, h3, fun y hy hty => ?_⟩, fun h => ?_⟩
    · obtain ⟨k, hk⟩ := List.getElem?_of_mem hy
      by_cases hkj : j ≤ k
      · exact sorted_get hs h2 hk hkj
      · by_cases hki : i ≤ k
        · exact absurd (h5 k y hki (by omega) hk) (not_lt.2 hty)
        · -- k < i ≤ j: y ≤ w; if w < t then y < t, else i = j and minimality applies
          by_cases hij : i = j
          · subst hij
            have hwv : w = v := by rw [hw] at h2; exact Option.some.inj h2
            subst hwv
            have hd := (hN k y hk).1
            rwa [abs_of_nonneg (sub_nonneg.2 h3), abs_of_nonneg (sub_nonneg.2 hty), sub_le_sub_iff_right] at hd
          · have hwt : w < t := h5 i w (Nat.le_refl _) (by omega) hw
            have hyw : y ≤ w := sorted_get hs hk hw (by omega)
            exact absurd (lt_of_le_of_lt hyw hwt) (not_lt.2 hty)
    · exact absurd (h v (hmem h2)) (not_lt.2 h3)
  · constructor
    · intro x hx htx
      exfalso
      obtain ⟨k, hk⟩ := List.getElem?_of_mem hx
      by_cases hki : i ≤ k
      · exact absurd (h2 k x hki hk) (not_lt.2 htx)
      · have hwt := h2 i w (Nat.le_refl _) hw
        exact absurd (lt_of_le_of_lt (sorted_get hs hk hw (by omega)) hwt) (not_lt.2 htx)
    · intro _
      refine ⟨l.getLast hne, ?_, List.getLast?_eq_some_getLast hne⟩
      simp only [nearest, hi, h1, pyGet?_last hne, List.getLast?_eq_some_getLast hne]

/-- **C11.** On a non-decreasing sequence with bound `'upper'`, the result is the largest value not
above the target, if there is one; otherwise it is the first value. -/
theorem c11_nearest_upper (l : List 𝕜) (t : 𝕜) (hne : l ≠ []) (hs : l.Pairwise (· ≤ ·)) :
    (∀ x ∈ l, x ≤ t → ∃ (i : Nat) (v : 𝕜), nearest l t .upper = .ok (i, v) ∧ l[i]? = some v ∧ v ≤ t ∧
      ∀ y ∈ l, y ≤ t → y ≤ v) ∧
    ((∀ x ∈ l, t < x) → ∃ v, nearest l t .upper = .ok (0, v) ∧ l.head? = some v) := by
  obtain ⟨i, hi, w, hw, hN⟩ := argmin_spec l t hne
  have hil : i < l.length := (List.getElem?_eq_some_iff.1 hw).1
  have hmem : ∀ {k : Nat} {x}, l[k]? = some x → x ∈ l := fun h => List.mem_of_getElem? h
  have hpos : 0 < l.length := List.length_pos_iff.2 hne
  rcases upperLoop_spec l t (2 * l.length + 1) (i : Int) (by omega) (by omega) with
    ⟨j, v, h1, h2, h3, h4, h5⟩ | ⟨h1, h2⟩
  · -- a negative index cannot be reached: it would mean that the first value exceeds the target
    by_cases hj : 0 ≤ j
    · obtain ⟨n, rfl⟩ := Int.eq_ofNat_of_zero_le hj
      have hres : nearest l t .upper = .ok ((n : Int), v) := by
        simp only [nearest, hi, h1, h2]
      rw [pyGet?_nat] at h2
      refine ⟨fun x hx htx => ⟨n, v, hres, h2, h3, fun y hy hty => ?_⟩, fun h => ?_⟩
      · obtain ⟨k, hk⟩ := List.getElem?_of_mem hy
        by_cases hkj : k ≤ n
        · exact sorted_get hs hk h2 hkj
        · by_cases hki : k ≤ i
          · exact absurd (h5 k y (by omega) (by omega) (by rw [pyGet?_nat]; exact hk)) (not_lt.2 hty)
          · by_cases hij : i = n
            · subst hij
              have hwv : w = v := by rw [hw] at h2; exact Option.some.inj h2
              subst hwv
              have hd := (hN k y hk).1
              rw [abs_of_nonpos (sub_nonpos.2 h3), abs_of_nonpos (sub_nonpos.2 hty), neg_le_neg_iff,
                sub_le_sub_iff_right] at hd
              exact hd
            · have hwt : t < w := h5 i w (by omega) (Int.le_refl _) (by rw [pyGet?_nat]; exact hw)
              have hyw : w ≤ y := sorted_get hs hw hk (by omega)
              exact absurd (lt_of_lt_of_le hwt hyw) (not_lt.2 hty)
      · exact absurd (h v (hmem h2)) (not_lt.2 h3)
    · exfalso
      have h0 : l[0]? = some l[0] := List.getElem?_eq_getElem hpos
      have ht0 := h5 (0 : Nat) _ (by omega) (by omega) (by rw [pyGet?_nat]; exact h0)
      have hvl : v ∈ l := by
        unfold pyGet? at h2
        rw [if_neg hj] at h2
        split at h2
        · exact hmem h2
        · cases h2
      obtain ⟨k, hk⟩ := List.getElem?_of_mem hvl
      exact absurd (lt_of_lt_of_le ht0 (sorted_get hs h0 hk (Nat.zero_le _))) (not_lt.2 h3)
  · have h0 : l[0]? = some l[0] := List.getElem?_eq_getElem hpos
    have ht0 := h2 (0 : Nat) _ (by omega) (by rw [pyGet?_nat]; exact h0)
    constructor
    · intro x hx htx
      exfalso
      obtain ⟨k, hk⟩ := List.getElem?_of_mem hx
      exact absurd (lt_of_lt_of_le ht0 (sorted_get hs h0 hk (Nat.zero_le _))) (not_lt.2 htx)
    · intro _
      refine ⟨l[0], ?_, by rw [List.head?_eq_getElem?]; exact h0⟩
      simp only [nearest, hi, h1]
      rw [show (0 : Int) = ((0 : Nat) : Int) from rfl, pyGet?_nat, h0]

end Nearest

example : nearest [(1 : Int), 4, 6, 6, 9] 5 .none = .ok (1, 4) := by decide
example : nearest [(1 : Int), 4, 6, 6, 9] 5 .lower = .ok (2, 6) := by decide
example : nearest [(1 : Int), 4, 7, 9] 6 .upper = .ok (1, 4) := by decide
example : ([(1 : Int), 4, 6, 6, 9]).Pairwise (· ≤ ·) ∧ (6 : Int) ∈ [(1 : Int), 4, 6, 6, 9] ∧ (5 : Int) ≤ 6 := by decide
/-- Order matters for the bound: on a decreasing sequence the loop runs away from the values it wants. -/
example : nearest [(9 : Int), 4, 1] 5 .lower = .ok (-1, 1) := by decide

/-! ## C12: `Graph` -/

section Graph
variable {𝕜 : Type} [DecidableEq κ] [DecidableEq 𝕜] [Field 𝕜]

/-- **C12.** After any history of connections with non-zero weights, two different nodes are connected
in both directions or in neither, and the two weights are reciprocal. -/
theorem c12_graph_reciprocal (base : List ((κ × κ) × 𝕜)) (hb : ∀ c ∈ base, c.2 ≠ 0) (a b : κ) (hab : a ≠ b) :
    (∀ u, getWeight (Graph.build base) a b = .ok u →
      ∃ v, getWeight (Graph.build base) b a = .ok v ∧ u * v = 1) := by
  have h := build_symm base hb [] (by intro a b _; simp) a b hab
  intro u hu
  unfold getWeight at *
  unfold Graph.build at *
  cases h1 : Dict.get? (base.foldl (fun g c => addConnection g c.1.1 c.1.2 c.2) ([] : Graph κ 𝕜)) (a, b) with
  | none => simp [h1] at hu
  | some u' =>
    cases h2 : Dict.get? (base.foldl (fun g c => addConnection g c.1.1 c.1.2 c.2) ([] : Graph κ 𝕜)) (b, a) with
    | none => simp [h1, h2] at h
    | some v =>
      simp only [h1, Except.ok.injEq] at hu
      subst hu
      exact ⟨v, rfl, (h.2 u' v h1 h2).2⟩

/-- **C12.** Every connection of the history exists afterwards, in both directions. -/
theorem c12_graph_present (base : List ((κ × κ) × 𝕜)) (c : (κ × κ) × 𝕜) (hc : c ∈ base) :
    (∃ u, getWeight (Graph.build base) c.1.1 c.1.2 = .ok u) ∧
    (∃ u, getWeight (Graph.build base) c.1.2 c.1.1 = .ok u) := by
  obtain ⟨pre, post, rfl⟩ := List.append_of_mem hc
  have key : ∀ e w, (addConnection (Graph.build pre) c.1.1 c.1.2 c.2).get? e = some w →
      (Graph.build (pre ++ c :: post)).get? e = some w := by
    intro e w h
    unfold Graph.build
    rw [List.foldl_append, List.foldl_cons]
    exact build_keeps post _ e w h
  have one : ∀ e, e = (c.1.1, c.1.2) ∨ e = (c.1.2, c.1.1) →
      ∃ w, (addConnection (Graph.build pre) c.1.1 c.1.2 c.2).get? e = some w := by
    intro e he
    unfold addConnection
    simp only [get?_addEdge]
    cases Dict.get? (Graph.build pre) e with
    | some x => exact ⟨x, rfl⟩
    | none =>
      rcases he with rfl | rfl
      · exact ⟨c.2, by simp⟩
      · by_cases h : (c.1.1, c.1.2) = (c.1.2, c.1.1)
        · exact ⟨c.2, by simp [h]⟩
        · exact ⟨if c.2 = 0 then c.2 else 1 / c.2, by simp [h]⟩
  obtain ⟨w1, h1⟩ := one _ (Or.inl rfl)
  obtain ⟨w2, h2⟩ := one _ (Or.inr rfl)
  exact ⟨⟨w1, by simp [getWeight, key _ _ h1]⟩, ⟨w2, by simp [getWeight, key _ _ h2]⟩⟩

/-- **C12.** The weight of a connection never changes once it exists. -/
theorem c12_graph_never_overwritten (base more : List ((κ × κ) × 𝕜)) (a b : κ) (u : 𝕜)
    (h : getWeight (Graph.build base) a b = .ok u) : getWeight (Graph.build (base ++ more)) a b = .ok u := by
  unfold getWeight at *
  cases h1 : (Graph.build base).get? (a, b) with
  | none => simp [h1] at h
  | some w =>
    have := build_keeps more (Graph.build base) (a, b) w h1
    have e : Graph.build (base ++ more) = more.foldl (fun g c => addConnection g c.1.1 c.1.2 c.2) (Graph.build base) := by
      unfold Graph.build; rw [List.foldl_append]
    rw [e, this]
    simpa [h1] using h

/-- **C12.** The adjacencies of a node are exactly its connections with their weights. -/
theorem c12_graph_adjacencies (base : List ((κ × κ) × 𝕜)) (a b : κ) (w : 𝕜) :
    (b, w) ∈ getAdjacencies (Graph.build base) a ↔ getWeight (Graph.build base) a b = .ok w := by
  have hwf : Dict.WF (Graph.build base) := build_wf base [] Dict.WF.nil
  generalize Graph.build base = g at *
  have hget : getWeight g a b = .ok w ↔ ((a, b), w) ∈ g := by
    rw [← Dict.get?_eq_some hwf]
    unfold getWeight
    cases g.get? (a, b) <;> simp
  rw [hget]
  unfold getAdjacencies
  split
  · simp only [List.mem_map, List.mem_filter, decide_eq_true_eq, Prod.mk.injEq]
    constructor
    · rintro ⟨⟨⟨x, y⟩, z⟩, ⟨hm, rfl⟩, rfl, rfl⟩; exact hm
    · intro hm; exact ⟨_, ⟨hm, rfl⟩, rfl, rfl⟩
  · rename_i hn
    simp only [List.not_mem_nil, false_iff]
    intro hm
    apply hn
    rw [List.mem_flatMap]
    exact ⟨(a, b), List.mem_map.2 ⟨_, hm, rfl⟩, by simp⟩

end Graph

/-- **C12** needs different nodes: a node connected to itself keeps its weight in both roles. -/
theorem c12_self_loop_not_reciprocal :
    getWeight (Graph.build [(('a', 'a'), (2 : ℚ))]) 'a' 'a' = .ok 2 ∧ (2 : ℚ) * 2 ≠ 1 := by
  constructor <;> decide +kernel

example : getWeight (Graph.build [(('J', 'e'), (4 : ℚ)), (('e', 'J'), 7), (('J', 'V'), 3)]) 'e' 'J' = .ok (1 / 4) := by
  decide +kernel

/-! ## C13: `Table` -/

section Table
variable [DecidableEq κ] [DecidableEq ν]

/-- **C13.** `find(value)` returns exactly the rows that have the value, in order, and raises exactly
when there is none. -/
theorem c13_find (t : Table κ ν) (v : ν) :
    (∀ r, find t v = .ok r → r.Sublist t ∧ ∀ e, e ∈ r ↔ e ∈ t ∧ HasValue e v) ∧
    ((∃ e, find t v = .error e) ↔ ∀ e ∈ t, ¬ HasValue e v) := by
  have hm : ∀ e, e ∈ found t v ↔ e ∈ t ∧ HasValue e v := by
    intro e; simp [found, mem_values]
  unfold find
  split
  · rename_i h
    refine ⟨fun r hr => (by cases hr), fun _ e he hv => ?_, fun _ => ⟨_, rfl⟩⟩
    have := (hm e).2 ⟨he, hv⟩
    rw [h] at this; simp at this
  · rename_i h
    refine ⟨fun r hr => ?_, ?_, fun hn => ?_⟩
    · cases hr; exact ⟨List.filter_sublist, hm⟩
    · rintro ⟨e, he⟩; cases he
    · exfalso; apply h
      apply List.eq_nil_iff_forall_not_mem.2
      intro e he
      exact hn e ((hm e).1 he).1 ((hm e).1 he).2

/-- **C13.** `find(value, unique=True)` returns a row exactly when it is the only row with the value. -/
theorem c13_find_unique (t : Table κ ν) (v : ν) (e : Dict κ ν) :
    findUnique t v = .ok e ↔ OnlyOne (fun row => HasValue row v) t e := by
  have hc : OnlyOne (fun row => HasValue row v) t e ↔
      OnlyOne (fun row : Dict κ ν => decide (v ∈ row.values) = true) t e :=
    onlyOne_congr (fun x _ => by simp [mem_values])
  rw [hc]
  unfold findUnique
  constructor
  · intro h
    split at h
    · cases h
    · rename_i e' he; cases h; exact filter_singleton he
    · cases h
  · intro h
    have := filter_of_onlyOne h
    change found t v = [e] at this
    rw [this]

/-- **C13.** Strict keyword look-up returns a row exactly when every requested key is in all rows and
the row is the only one that matches the whole request. -/
theorem c13_call_strict (t : Table κ ν) (ht : ∀ row ∈ t, row.WF) (request : List (κ × ν)) (e : Dict κ ν) :
    call t true request = .ok e ↔
      (∀ p ∈ request, ∀ row ∈ t, p.1 ∈ row.keys) ∧ OnlyOne (fun row => Matches row request) t e := by
  have h := callLoop_strict t request.length 1 request [] e
  have h0 : t.filter (sel []) = t := by rw [List.filter_eq_self]; simp [sel]
  rw [h0, List.nil_append] at h
  unfold call
  rw [h]
  have hc : OnlyOne (fun row => Matches row request) t e ↔ OnlyOne (fun row => sel request row = true) t e :=
    onlyOne_congr (fun x hx => (sel_iff (ht x hx)).symm)
  rw [hc]
  constructor
  · rintro ⟨h1, h2⟩
    exact ⟨fun p hp => ((isKey_iff t p.1).1 (h1 p hp)).2, filter_singleton h2⟩
  · rintro ⟨h1, h2⟩
    refine ⟨fun p hp => (isKey_iff t p.1).2 ⟨?_, h1 p hp⟩, filter_of_onlyOne h2⟩
    rintro rfl
    obtain ⟨pre, post, hp, _⟩ := h2
    simp at hp

/-- **C13.** Iterative keyword look-up returns only a row that is the only match of a leading,
non-empty part of the request. -/
theorem c13_call_iterative (t : Table κ ν) (ht : ∀ row ∈ t, row.WF) (request : List (κ × ν)) (e : Dict κ ν)
    (h : call t false request = .ok e) :
    ∃ first rest, request = first ++ rest ∧ first ≠ [] ∧ OnlyOne (fun row => Matches row first) t e := by
  have h0 : t.filter (sel []) = t := by rw [List.filter_eq_self]; simp [sel]
  unfold call at h
  rw [← h0] at h
  have h' : callLoop t false request.length 1 request (t.filter (sel [])) = .ok e := by
    rw [h0] at h ⊢; exact h
  obtain ⟨first, rest, h1, h2, h3⟩ := callLoop_iter h'
  refine ⟨first, rest, h1, h2, ?_⟩
  rw [onlyOne_congr (fun x hx => (sel_iff (ht x hx)).symm)]
  exact filter_singleton h3

theorem count_filterMap (t : Table κ ν) (k : κ) (v : ν) :
    (t.filterMap (·.get? k)).count v = (t.filter (fun e => decide (e.get? k = some v))).length := by
  induction t with
  | nil => rfl
  | cons e t ih =>
    rw [List.filterMap_cons, List.filter_cons]
    cases h : e.get? k with
    | none => simpa using ih
    | some w =>
      by_cases hw : w = v
      · simp [hw, ih]
      · simp [hw, ih]

/-- **C13.** With a single requested pair, keyword look-up succeeds exactly when the key is in all rows
and one row matches. -/
theorem c13_call_single (t : Table κ ν) (ht : ∀ row ∈ t, row.WF) (strict : Bool) (k : κ) (v : ν) (e : Dict κ ν) :
    call t strict [(k, v)] = .ok e ↔
      (∀ row ∈ t, k ∈ row.keys) ∧ OnlyOne (fun row => Matches row [(k, v)]) t e := by
  cases strict with
  | true => rw [c13_call_strict t ht]; simp
  | false =>
    have hsame : call t false [(k, v)] = .ok e ↔ call t true [(k, v)] = .ok e := by
      simp only [call, callLoop, List.length_cons, List.length_nil]
      cases hc : column t k with
      | error err => simp
      | ok col =>
        have := column_ok hc
        have hcnt := count_filterMap t k v
        rw [← this.2] at hcnt
        simp only [Bool.false_eq_true, if_false, if_true]
        cases hl : t.filter (fun e => decide (e.get? k = some v)) with
        | nil => rw [hl] at hcnt; simp only [List.length_nil] at hcnt; simp [hcnt]
        | cons a l =>
          cases l with
          | nil => rw [hl] at hcnt; simp only [List.length_cons, List.length_nil] at hcnt; simp [hcnt]
          | cons b l =>
            rw [hl] at hcnt
            simp only [List.length_cons] at hcnt
            rw [if_pos ⟨by omega, trivial⟩]
            simp
    rw [hsame, c13_call_strict t ht]
    simp

end Table

/-- A small table for the examples. -/
def demoTable : Table Char Nat :=
  [[('a', 1), ('b', 2)], [('a', 1), ('b', 3)], [('a', 4), ('b', 2)], [('a', 5), ('b', 2), ('c', 9)]]

example : ∀ row ∈ demoTable, row.WF := by
  intro row h
  simp only [demoTable, List.mem_cons, List.not_mem_nil, or_false] at h
  rcases h with rfl | rfl | rfl | rfl <;> (unfold Dict.WF; decide)
example : findUnique demoTable 3 = .ok [('a', 1), ('b', 3)] := by decide
example : call demoTable true [('a', 1), ('b', 2)] = .ok [('a', 1), ('b', 2)] := by decide
example : call demoTable false [('a', 4), ('b', 77)] = .ok [('a', 4), ('b', 2)] := by decide
example : call demoTable false [('c', 9)] = .error .tableKey := by decide

/-- **C63 is false of the code.**  The pairs `a = 1, b = 2` determine a single row, yet the iterative
look-up raises `AmbiguousRequestError`, because it counts `b = 2` over the whole table rather than over
the rows already selected. -/
theorem c63_iterative_rejects_unique_row :
    OnlyOne (fun row => Matches row [('a', 1), ('b', 2)]) demoTable [('a', 1), ('b', 2)] ∧
    call demoTable false [('a', 1), ('b', 2)] = .error .ambiguousRequest := by
  constructor
  · refine ⟨[], demoTable.tail, rfl, ?_, by simp, ?_⟩
    · intro p hp; exact hp
    · intro x hx hm
      simp only [demoTable, List.tail_cons] at hx
      have h1 := hm ('a', 1) (by simp)
      have h2 := hm ('b', 2) (by simp)
      simp only [List.mem_cons, List.not_mem_nil, or_false] at hx
      rcases hx with rfl | rfl | rfl <;> revert h1 h2 <;> decide
  · decide

/-! ## C14: `ObjectRegistry` -/

/-- One call of `register` without `overwrite`. -/
structure RegisterCall (ν : Type) where
  obj : ν
  name : List Char
  user : Option (List Char)

/-- A history of register calls. -/
def Registry.run {ν : Type} (r : Registry ν) (h : List (RegisterCall ν)) : Registry ν :=
  h.foldl (fun r c => r.register c.obj c.name c.user false) r

/-- The names of a call do not end in an underscore and a number. -/
def RegisterCall.Plain {ν : Type} (c : RegisterCall ν) : Prop :=
  ¬ Numbered c.name ∧ ∀ u, c.user = some u → ¬ Numbered u

theorem register_step {ν : Type} (r : Registry ν) (hr : RegInv r) (c : RegisterCall ν) (hc : c.Plain) :
    RegInv (r.register c.obj c.name c.user false) ∧
    (∀ k o, r.items.get? k = some o → (r.register c.obj c.name c.user false).items.get? k = some o) ∧
    (∃ k, r.items.get? k = none ∧ (r.register c.obj c.name c.user false).items.get? k = some c.obj) := by
  obtain ⟨h1, h2, h3, h4, h5⟩ := mappingKey_fresh r hr c.name c.user hc.1 hc.2
  unfold Registry.register
  generalize r.mappingKey c.name c.user false = q at *
  simp only
  refine ⟨?_, ?_, ?_⟩
  · intro k hk
    simp only [Dict.get?_set] at hk
    by_cases he : q.1 = k
    · subst he; exact h5
    · rw [if_neg he, h1] at hk
      rcases hr k hk with h | ⟨p, n, hn, h⟩
      · exact Or.inl h
      · exact Or.inr ⟨p, n, by simp only; omega, h⟩
  · intro k o ho
    rw [Dict.get?_set, if_neg, h1]
    · exact ho
    · rintro rfl; rw [h4] at ho; cases ho
  · exact ⟨q.1, h4, by simp [Dict.get?_set]⟩

theorem run_inv {ν : Type} (h : List (RegisterCall ν)) (hh : ∀ c ∈ h, c.Plain) (r : Registry ν) (hr : RegInv r) :
    RegInv (r.run h) ∧ ∀ k o, r.items.get? k = some o → (r.run h).items.get? k = some o := by
  induction h generalizing r with
  | nil => exact ⟨hr, fun _ _ h => h⟩
  | cons c h ih =>
    obtain ⟨h1, h2, _⟩ := register_step r hr c (hh c (by simp))
    obtain ⟨i1, i2⟩ := ih (fun c hc => hh c (by simp [hc])) _ h1
    exact ⟨i1, fun k o ho => i2 k o (h2 k o ho)⟩

/-- **C14**, for names that do not themselves end in an underscore and a number: through every history
of register calls, whatever was registered stays retrievable under its key, and every object of the
history is retrievable under some key.  What is missing: names such as `f_1`, for which the property
fails (`c14_register_can_lose`). -/
theorem c14_register_keeps_partial {ν : Type} (base : Dict (List Char) ν)
    (hbase : ∀ k ∈ base.keys, ¬ Numbered k) (h more : List (RegisterCall ν)) (hh : ∀ c ∈ h ++ more, c.Plain) :
    (∀ k o, ((Registry.new base).run h).items.get? k = some o →
      ((Registry.new base).run (h ++ more)).items.get? k = some o) ∧
    (∀ c ∈ h, ∃ k, ((Registry.new base).run (h ++ more)).items.get? k = some c.obj) := by
  have hinv : RegInv (Registry.new base) := by
    intro k hk
    refine Or.inl (hbase k ?_)
    by_contra hn
    exact hk (Dict.get?_eq_none.2 hn)
  have split : ∀ l₁ l₂, (Registry.new base).run (l₁ ++ l₂) = ((Registry.new base).run l₁).run l₂ := by
    intro l₁ l₂; unfold Registry.run; rw [List.foldl_append]
  constructor
  · intro k o ho
    rw [split]
    exact (run_inv more (fun c hc => hh c (by simp [hc])) _
      (run_inv h (fun c hc => hh c (by simp [hc])) _ hinv).1).2 k o ho
  · intro c hc
    obtain ⟨l₁, l₂, rfl⟩ := List.append_of_mem hc
    have i1 := (run_inv l₁ (fun c hc => hh c (by simp [hc])) _ hinv).1
    obtain ⟨s1, _, k, _, s3⟩ := register_step _ i1 c (hh c (by simp))
    refine ⟨k, ?_⟩
    rw [show l₁ ++ c :: l₂ ++ more = l₁ ++ c :: (l₂ ++ more) by simp, split]
    exact (run_inv (l₂ ++ more) (fun c hc => hh c (by
      simp only [List.mem_append, List.mem_cons] at hc ⊢; tauto)) _ s1).2 k _ s3

/-- **C14 is false of the code in general**: registering objects called `f`, `f_1` and `f` again, all
under default names, loses the second one. -/
theorem c14_register_can_lose :
    let h₁ : List (RegisterCall Nat) := [⟨10, ['f'], none⟩, ⟨20, ['f', '_', '1'], none⟩]
    let h₂ : List (RegisterCall Nat) := h₁ ++ [⟨30, ['f'], none⟩]
    ((Registry.new []).run h₁).items.get? ['f', '_', '1'] = some 20 ∧
    ∀ k, ((Registry.new []).run h₂).items.get? k ≠ some 20 := by
  intro h₁ h₂
  refine ⟨by decide, fun k hk => ?_⟩
  have hm := Dict.mem_of_get? hk
  have hl : ((Registry.new []).run h₂).items = [(['f'], 10), (['f', '_', '1'], 30)] := by decide
  rw [hl] at hm
  simp at hm

/-- **C14.** `reset` restores exactly the initial items, whatever was registered in between. -/
theorem c14_reset {ν : Type} (base : Dict (List Char) ν) (h : List (RegisterCall ν)) (k : List Char) :
    ((Registry.new base).run h).reset.items.get? k = base.get? k := by
  have key : ∀ (l : List (RegisterCall ν)) (r : Registry ν), (r.run l).init = r.init := by
    intro l
    induction l with
    | nil => intro r; rfl
    | cons c l ih =>
      intro r
      have hd : ∀ p, (r.defaultKey p).2.init = r.init := by
        intro p; unfold Registry.defaultKey; split <;> rfl
      have : (r.register c.obj c.name c.user false).init = r.init := by
        unfold Registry.register Registry.mappingKey
        dsimp only
        split
        · exact hd _
        · split
          · rfl
          · exact hd _
      exact (ih _).trans this
  unfold Registry.reset
  dsimp only
  rw [key h (Registry.new base)]
  rfl

example : ((Registry.new [(['t'], 1)]).run [⟨2, ['g'], none⟩]).reset.items.get? ['g'] = none ∧
    ((Registry.new [(['t'], 1)]).run [⟨2, ['g'], none⟩]).reset.items.get? ['t'] = some 1 := by decide

/-- Explicitly named registration without `overwrite` never replaces an item. -/
example : ((Registry.new [(['t'], 1)]).run [⟨2, ['g'], some ['t']⟩, ⟨3, ['g'], none⟩]).items =
    [(['t'], 1), (['g'], 2), (['g', '_', '1'], 3)] := by decide

example : RegisterCall.Plain (⟨2, ['g'], some ['t']⟩ : RegisterCall Nat) := by
  constructor
  · rintro ⟨p, ds, h, hd, _⟩
    have : '_' ∈ ['g'] := by simp only at h; rw [h]; simp
    revert this; decide
  · rintro u h ⟨p, ds, h', hd, _⟩
    cases h
    have : '_' ∈ ['t'] := by rw [h']; simp
    revert this; decide

/-! ## `distribute` and `size` (C64) -/

/-- **C64.** `distribute` on two separable arguments gives every pair, in row-major order; on one it
pairs the other argument with each member; on none it raises. -/
theorem c64_distribute {β : Type} (as : List α) (bs : List β) (a : α) (b : β) :
    (∃ r, distribute (.inr as) (.inr bs) = .ok r ∧ r.length = as.length * bs.length ∧
      (∀ x y, (x, y) ∈ r ↔ x ∈ as ∧ y ∈ bs) ∧
      ∀ i j x y, as[i]? = some x → bs[j]? = some y → r[i * bs.length + j]? = some (x, y)) ∧
    distribute (.inl a) (.inr bs) = .ok (bs.map (a, ·)) ∧
    distribute (.inr as) (.inl b) = .ok (as.map (·, b)) ∧
    distribute (.inl a) (.inl b) = .error .typeError := by
  refine ⟨⟨_, rfl, ?_, ?_, ?_⟩, rfl, rfl, rfl⟩
  · induction as with
    | nil => simp
    | cons x as ih => rw [List.flatMap_cons, List.length_append, ih]; simp [Nat.succ_mul, Nat.add_comm]
  · intro x y; simp [List.mem_flatMap]
  · intro i j x y hx hy
    have hj : j < bs.length := (List.getElem?_eq_some_iff.1 hy).1
    induction as generalizing i with
    | nil => simp at hx
    | cons x' as ih =>
      rw [List.flatMap_cons]
      cases i with
      | zero =>
        rw [List.getElem?_append_left (by simpa using hj)]
        simp only [List.getElem?_cons_zero, Option.some.injEq] at hx
        subst hx
        simp [hy]
      | succ i =>
        rw [List.getElem?_append_right (by simp [Nat.succ_mul]; omega)]
        have := ih i (by simpa using hx)
        rw [← this]
        congr 1
        simp [Nat.succ_mul]; omega

example : distribute (.inr [1, 2]) (.inr ['a', 'b']) = .ok [(1, 'a'), (1, 'b'), (2, 'a'), (2, 'b')] := by decide

end Eprem.Container
