import Verif.Model.IntegralFlux
import Verif.Spec.IntegralFlux
import Verif.Lemmas.Distribution
import Verif.Props.InterpolateAxes
import Verif.Props.Fluence

/-!
# Lemmas about the integral flux
-/

namespace Eprem.Observable

open Eprem Eprem.Symbolic Eprem.Metric Eprem.Numeric Eprem.Measured Eprem.Physical Eprem.Interpolate

variable {κ : Type} [DecidableEq κ]

theorem unravel_valid : ∀ {s : List Nat} {k : Nat}, k < Numeric.sizeOf s → Valid (unravel s k) s
  | [], _, _ => .nil
  | n :: s, k, h => by
    have h' : k < n * Numeric.sizeOf s := h
    have hs : 0 < Numeric.sizeOf s := by
      rcases Nat.eq_zero_or_pos (Numeric.sizeOf s) with h0 | h0
      · rw [h0] at h'; simp at h'
      · exact h0
    exact .cons (Nat.div_lt_of_lt_mul (by rwa [Nat.mul_comm] at h')) (unravel_valid (Nat.mod_lt _ hs))

/-- Every position is a named position. -/
theorem named_position {dims : List κ} (hn : dims.Nodup) : ∀ {p : List Nat}, p.length = dims.length → ∃ pos : κ → Nat, dims.map pos = p := by
  induction dims with
  | nil => intro p hp; exact ⟨fun _ => 0, (List.length_eq_zero_iff.1 hp).symm⟩
  | cons d l ih =>
    intro p hp
    cases p with
    | nil => simp at hp
    | cons i p =>
      obtain ⟨hd, hl⟩ := List.nodup_cons.1 hn
      obtain ⟨pos, h⟩ := ih hl (p := p) (by simpa using hp)
      refine ⟨Function.update pos d i, ?_⟩
      rw [List.map_cons, Function.update_self, ← h]
      congr 1
      refine List.map_congr_left (fun e he => Function.update_of_ne ?_ _ _)
      rintro rfl; exact hd he

theorem nth_map_range {α : Type} {n i : Nat} (f : Nat → α) (h : i < n) : ((List.range n).map f)[i]? = some (f i) := by
  rw [List.getElem?_map, List.getElem?_range h]; rfl

/-- The integrals of all spectra above one bound. -/
theorem column_above (simpson : List ℝ → List ℝ → ℝ) {n : Nat} {x : Nat → ℝ} (hx : Increasing n x) (hpos : ∀ i < n, 0 < x i)
    {p : ℝ} (hn : 0 < n) (hp : p < x (n - 1)) {ys : List (Nat → ℝ)} (hy : ∀ y ∈ ys, ∀ i < n, 0 < y i) :
    ∃ col, boundColumn simpson (ys.map (fun y => (List.range n).map y)) ((List.range n).map x) p = .ok col ∧
      List.Forall₂ (fun y v => ∃ xs' ys', Above n x y p xs' ys' ∧ v = simpson ys' xs') ys col := by
  by_cases hb : ∀ i < n, p < x i
  · refine ⟨_, by
      unfold boundColumn
      rw [c56_below _ _ _ (by simp; omega) (by simpa using hb)], ?_⟩
    rw [List.map_map, List.forall₂_map_right_iff, List.forall₂_same]
    exact fun y _ => ⟨_, _, .inl ⟨hb, rfl, rfl⟩, rfl⟩
  · push Not at hb
    obtain ⟨j, hj, hjp⟩ := hb
    have hex : ∃ i, i + 1 < n ∧ x i ≤ p ∧ p < x (i + 1) := by
      let P : Nat → Prop := fun i => x i ≤ p
      classical
      have h1 : x (Nat.findGreatest P (n - 1)) ≤ p := Nat.findGreatest_spec (P := P) (m := j) (by omega) hjp
      have h2 : Nat.findGreatest P (n - 1) ≤ n - 1 := Nat.findGreatest_le _
      have h3 : Nat.findGreatest P (n - 1) ≠ n - 1 := fun e => by rw [e] at h1; linarith
      refine ⟨Nat.findGreatest P (n - 1), by omega, h1, ?_⟩
      by_contra hc
      exact Nat.findGreatest_is_greatest (P := P) (n := n - 1) (k := Nat.findGreatest P (n - 1) + 1) (by omega) (by omega)
        (not_lt.1 hc)
    obtain ⟨i, hi, h0, h1⟩ := hex
    obtain ⟨rows', e1, e2⟩ := c56_power_law (ys.map (fun y => (List.range n).map y)) ((List.range n).map x) p
      (by
        rw [List.pairwise_map]
        exact List.pairwise_lt_range.imp_of_mem (fun {a b} _ hb' hab => hx a b hab (List.mem_range.1 hb')))
      (by simpa using hpos) (by simp) (by
        intro r hr v hv
        obtain ⟨y, hy', rfl⟩ := List.mem_map.1 hr
        obtain ⟨k, hk, rfl⟩ := List.mem_map.1 hv
        exact hy y hy' k (List.mem_range.1 hk)) i (x i) (x (i + 1)) (nth_map_range _ (by omega)) (nth_map_range _ hi) h0 h1
    refine ⟨_, by unfold boundColumn; rw [e1], ?_⟩
    rw [List.forall₂_map_right_iff]
    rw [List.forall₂_map_left_iff] at e2
    refine e2.imp (fun y r h => ?_)
    obtain ⟨v, y0, y1, q1, q2, q3, q4, _⟩ := h
    rw [nth_map_range _ (by omega)] at q2
    rw [nth_map_range _ hi] at q3
    cases q2
    cases q3
    exact ⟨_, _, .inr ⟨i, v, hi, h0, h1, q4, rfl, rfl⟩, by rw [q1]⟩

/-- The columns for all bounds. -/
theorem columns_above (simpson : List ℝ → List ℝ → ℝ) {n : Nat} {x : Nat → ℝ} (hx : Increasing n x) (hpos : ∀ i < n, 0 < x i)
    (hn : 0 < n) {ys : List (Nat → ℝ)} (hy : ∀ y ∈ ys, ∀ i < n, 0 < y i) (tiny : ℝ) :
    ∀ {bounds : List ℝ}, (∀ b ∈ bounds, max b tiny < x (n - 1)) →
    ∃ cols, Axis.collect (fun p => boundColumn simpson (ys.map (fun y => (List.range n).map y)) ((List.range n).map x) (max p tiny))
        bounds = .ok cols ∧
      List.Forall₂ (fun b col => List.Forall₂ (fun y v => ∃ xs' ys', Above n x y (max b tiny) xs' ys' ∧ v = simpson ys' xs')
        ys col) bounds cols
  | [], _ => ⟨[], rfl, .nil⟩
  | b :: bounds, hb => by
    obtain ⟨cols, h1, h2⟩ := columns_above simpson hx hpos hn hy tiny (bounds := bounds) (fun b hb' => hb b (by simp [hb']))
    obtain ⟨col, k1, k2⟩ := column_above simpson hx hpos hn (hb b (by simp)) hy
    exact ⟨col :: cols, by simp only [Axis.collect, k1, h1], .cons k2 h2⟩

/-- `numpy.cumsum(a, axis=-1)` of an array on the grid. -/
theorem cumsumLast_grid {ν : Type} {G : Grid κ ν} {front : List κ} {d : κ} {u : List Term} {g : (κ → Nat) → ℝ} {c : Arr κ ν ℝ}
    (h : OnGrid G (front ++ [d]) u g (.array c)) :
    ∃ r, reduceAxis (fun y => cumsumAxis List.sum y (-1)) c = .ok r ∧
      OnGrid G (front ++ [d]) u (fun p => ((List.range (p d + 1)).map (fun i => g (Function.update p d i))).sum) r := by
  obtain ⟨hn, c', h', hp, hd, hs, hax, hcu, hg⟩ := h
  cases h'
  have wn : WellNamed c.arr.data := OnGrid.wellNamed hn hd hs
  obtain ⟨r, h1, h2⟩ := c69_cumsum List.sum c.arr.data wn (-1) front.length d
    (by
      show axisIndex c.arr.raw.dims.length (-1) = _
      rw [hd]
      refine axisIndex_ok.2 ⟨by simp, .inr ?_⟩
      simp)
    (by show c.arr.raw.dims[_]? = _; rw [hd]; simp)
  have hrd : r.dims = front ++ [d] := h2.dims.trans hd
  have hrs : r.data.shape = (front ++ [d]).map G.size := by
    rw [shape_eq h2.named, hrd]
    apply List.map_congr_left
    intro d hdm
    rw [shapeGet_eq h2.named, h2.size d, sizeAlong_grid (c := c.arr.data) hd hs hdm]; rfl
  have hl : Axes.lookupAll (G.axes (front ++ [d])) (front ++ [d]) = .ok (G.axes (front ++ [d])) := by
    obtain ⟨axes, m1, m2, m3⟩ := Axes.lookupAll_ok (G.axes (front ++ [d])) (front ++ [d]) (fun k hk => by rwa [keys_axes])
    have hu : Container.unique (front ++ [d]) = front ++ [d] := dimensions_nodup hn
    have e : axes = G.axes (front ++ [d]) := by
      refine get_eq_dict (by rw [m2, keys_axes, hu]) (by unfold Dict.WF; rw [m2, hu]; exact hn) (fun k hk => ?_)
      rw [m2, hu] at hk
      rw [m3, if_pos hk]
    rw [m1, e]
  obtain ⟨z, hz1, hz2⟩ := newArray_grid (G := G) (u := u) hn hrs
    (g := fun p => ((List.range (p d + 1)).map (fun i => g (Function.update p d i))).sum) (fun pos hpos => by
      have hh : r.Has pos := by
        intro e n hdn
        rw [h2.size e] at hdn
        by_cases hdm : e ∈ front ++ [d]
        · rw [sizeAlong_grid (c := c.arr.data) hd hs hdm] at hdn
          cases hdn
          exact hpos e hdm
        · rw [sizeAlong_none wn (by show e ∉ c.arr.raw.dims; rw [hd]; exact hdm)] at hdn
          cases hdn
      have := h2.element pos hh
      rw [Named.at, hrd] at this
      rw [this]
      congr 1
      apply List.map_congr_left
      intro i hi
      rw [List.mem_range] at hi
      have hlt := hpos d (by simp)
      refine hg _ (fun e hdm => ?_)
      by_cases hdt : e = d
      · subst hdt; rw [Function.update_self]; omega
      · rw [Function.update_of_ne hdt]; exact hpos e hdm)
  refine ⟨z, ?_, hz2⟩
  unfold reduceAxis
  simp only [h1, hax, hrd, hl, hcu]
  exact hz1

theorem Above.congr {n : Nat} {x y z : Nat → ℝ} {p : ℝ} {xs ys : List ℝ} (h : Above n x y p xs ys) (he : ∀ i < n, y i = z i) :
    Above n x z p xs ys := by
  have hm : (List.range n).map y = (List.range n).map z := List.map_congr_left (fun i hi => he i (List.mem_range.1 hi))
  rcases h with ⟨h1, h2, h3⟩ | ⟨i, v, h1, h2, h3, h4, h5, h6⟩
  · exact .inl ⟨h1, h2, by rw [h3, hm]⟩
  · refine .inr ⟨i, v, h1, h2, h3, ?_, h5, by rw [h6, hm]⟩
    rwa [← he i (by omega), ← he (i + 1) h1]

theorem merge_new {x : List κ} {d : κ} (h : d ∉ x) : Container.merge x [d] = .ok (x ++ [d]) := by
  unfold Container.merge
  have : x.filter (fun i => decide (i ∈ [d])) = [] := by
    rw [List.filter_eq_nil_iff]
    intro a ha hc
    simp only [List.mem_singleton, decide_eq_true_eq] at hc
    exact h (hc ▸ ha)
  simp only [this, if_true]

/-- The axes of the integral flux. -/
theorem integral_axes {ν : Type} {G : Grid κ ν} {front : List κ} {energy minimum : κ} (hn : (front ++ [energy]).Nodup)
    (hm : minimum ∉ front) {n : Nat} (h0 : 0 < n) (v : ν) :
    ∃ rest, Axes.without (G.axes (front ++ [energy])) energy true = .ok rest ∧
      Axes.merge rest [(minimum, v)] = .ok ((regrid G minimum n h0 v).axes (front ++ [minimum])) := by
  have hef : energy ∉ front := fun hf => (List.nodup_append.1 hn).2.2 energy hf energy (by simp) rfl
  have hnf : front.Nodup := (List.nodup_append.1 hn).1
  refine ⟨G.axes front, ?_, ?_⟩
  · unfold Axes.without
    rw [keys_axes]
    have : (G.axes (front ++ [energy])).filter (fun p => decide (p.1 ≠ energy)) = G.axes front := by
      unfold Grid.axes
      rw [List.map_append, List.filter_append, List.filter_eq_self.2]
      · simp
      · intro a ha
        obtain ⟨d, hd, rfl⟩ := List.mem_map.1 ha
        simp only [decide_eq_true_eq]
        rintro rfl; exact hef hd
    rw [this]
    simp
  · have hk : Dict.keys [(minimum, v)] = [minimum] := rfl
    have hc : ¬ Container.OrderConflict (G.axes front).keys (Dict.keys [(minimum, v)]) := fun h => by
      rw [keys_axes, hk] at h
      obtain ⟨e, he⟩ := (Container.c09_merge_fails_iff _ _ hnf (List.nodup_singleton _)).2 h
      rw [merge_new hm] at he
      cases he
    obtain ⟨r, h1, h2, h3, h4⟩ := Axes.union_aux (G.axes front) [(minimum, v)] (by unfold Dict.WF; rwa [keys_axes])
      (List.nodup_singleton _) hc
    rw [keys_axes, hk, merge_new hm] at h2
    have h2 : r.keys = front ++ [minimum] := (Except.ok.inj h2).symm
    rw [h1]
    congr 1
    refine get_eq_dict (by rw [h2, keys_axes]) (by unfold Dict.WF; rw [h2]; exact List.nodup_append.2 ⟨hnf, List.nodup_singleton _, fun a ha b hb => by
      rw [List.mem_singleton.1 hb]; rintro rfl; exact hm ha⟩) (fun k hk' => ?_)
    rw [h2] at hk'
    rw [h4, get_axes hk']
    show _ = some (Function.update G.axis minimum v k)
    by_cases hkm : k = minimum
    · subst hkm
      rw [Function.update_self, Dict.get?_cons, if_pos rfl]
    · have hkf : k ∈ front := (List.mem_append.1 hk').resolve_right (fun h => hkm (List.mem_singleton.1 h))
      rw [Function.update_of_ne hkm, Dict.get?_cons, if_neg (Ne.symm hkm), get_axes hkf]
      rfl

/-- The integral flux of an array on the grid. -/
theorem integrate_grid (order : List System) (simpson : List ℝ → List ℝ → ℝ) (tiny : ℝ) {G : Grid κ (AnyAxis ℝ)} {front : List κ}
    {energy minimum : κ} (hm : minimum ∉ front) {u ue w : List Term} {F : (κ → Nat) → ℝ} {E : Nat → ℝ}
    {flux e : Operand κ (AnyAxis ℝ) ℝ} (hf : OnGrid G (front ++ [energy]) u F flux)
    (he : OnGrid G [energy] ue (fun p => E (p energy)) e) (hw : unitMul order u ue = .ok w)
    (hF : ∀ pos, G.Inside (front ++ [energy]) pos → 0 < F pos) (hE : ∀ i < G.size energy, 0 < E i)
    (hi : Increasing (G.size energy) E) (bounds : List ℝ) (h0 : 0 < bounds.length) (axis : AnyAxis ℝ)
    (hb : ∀ b ∈ bounds, max b tiny < E (G.size energy - 1)) :
    ∃ r I, integrateFlux order simpson tiny energy minimum bounds axis flux e = .ok r ∧
      OnGrid (regrid G minimum bounds.length h0 axis) (front ++ [minimum]) w I r ∧
      ∀ pos, G.Inside front pos → ∀ b, bounds[pos minimum]? = some b →
        ∃ xs ys, Above (G.size energy) E (fun i => F (Function.update pos energy i)) (max b tiny) xs ys ∧
          I pos = simpson ys xs := by
  have hn := hf.nodup
  obtain ⟨f, rfl⟩ := hf.isArray
  obtain ⟨e, rfl⟩ := he.isArray
  have hef : energy ∉ front := fun hf => (List.nodup_append.1 hn).2.2 energy hf energy (by simp) rfl
  have hnf : front.Nodup := (List.nodup_append.1 hn).1
  have hfd := hasDims_grid hf
  have hed := hasDims_grid he
  obtain ⟨_, f', hf', _, _, _, hax, hfu, _⟩ := hf
  cases hf'
  obtain ⟨_, e', he', _, _, _, _, heu, _⟩ := he
  cases he'
  have hshape : f.arr.data.data.shape = front.map G.size ++ [G.size energy] := by rw [hfd.shape]; simp
  have hdrop : f.arr.data.data.shape.dropLast = front.map G.size := by rw [hshape]; simp
  have hlast : f.arr.data.data.shape.getLastD 0 = G.size energy := by rw [hshape]; simp
  have hget : ∀ pos, G.Inside front pos → ∀ i < G.size energy,
      f.arr.data.data.get (front.map pos ++ [i]) = F (Function.update pos energy i) := fun pos hpos i hi => by
    rw [← hfd.get (Function.update pos energy i) (fun d hd => by
      by_cases hde : d = energy
      · subst hde; rw [Function.update_self]; exact hi
      · rw [Function.update_of_ne hde]
        exact hpos d ((List.mem_append.1 hd).resolve_right (fun h => hde (List.mem_singleton.1 h))))]
    congr 1
    rw [List.map_append]
    congr 1
    · refine List.map_congr_left (fun d hd => (Function.update_of_ne ?_ _ _).symm)
      rintro rfl; exact hef hd
    · simp
  have hes : Axis.seqList e.arr.data.data = (List.range (G.size energy)).map E := by
    have hsz : e.arr.data.data.size = G.size energy := by
      unfold ND.size; rw [hed.shape]; simp [Numeric.sizeOf]
    unfold Axis.seqList
    rw [hsz]
    refine List.map_congr_left (fun i hi => ?_)
    rw [List.mem_range] at hi
    have := hed.get (fun _ => i) (by simpa using hi)
    rw [← this]
    unfold ND.get
    rw [hed.shape]
    simp [ravel, Numeric.sizeOf]
  have hrow : spectra f.arr.data.data = ((List.range (Numeric.sizeOf (front.map G.size))).map (fun k i =>
      f.arr.data.data.get (unravel (front.map G.size) k ++ [i]))).map (fun y => (List.range (G.size energy)).map y) := by
    unfold spectra
    rw [hdrop, hlast, List.map_map]
    rfl
  obtain ⟨cols, hc1, hc2⟩ := columns_above simpson hi hE (G.pos energy) (ys := (List.range (Numeric.sizeOf (front.map G.size))).map
      (fun k i => f.arr.data.data.get (unravel (front.map G.size) k ++ [i]))) (fun y hy i hi => by
    obtain ⟨k, hk, rfl⟩ := List.mem_map.1 hy
    have hv := unravel_valid (List.mem_range.1 hk)
    obtain ⟨pos, hpos⟩ := named_position hnf (p := unravel (front.map G.size) k) (by rw [hv.length_eq]; simp)
    have hin : G.Inside front pos := grid_valid.1 (by rw [hpos]; exact hv)
    show 0 < f.arr.data.data.get (unravel (front.map G.size) k ++ [i])
    rw [← hpos, hget pos hin i hi]
    refine hF _ (fun d hd => ?_)
    by_cases hde : d = energy
    · subst hde; rw [Function.update_self]; exact hi
    · rw [Function.update_of_ne hde]
      exact hin d ((List.mem_append.1 hd).resolve_right (fun h => hde (List.mem_singleton.1 h)))) tiny hb
  obtain ⟨rest, ha1, ha2⟩ := integral_axes (G := G) hn hm h0 axis
  have hnm : (front ++ [minimum]).Nodup := List.nodup_append.2 ⟨hnf, List.nodup_singleton _, fun a ha b hb => by
      rw [List.mem_singleton.1 hb]; rintro rfl; exact hm ha⟩
  have hlen : cols.length = bounds.length := hc2.length_eq.symm
  have hsize : (front ++ [minimum]).map (regrid G minimum bounds.length h0 axis).size = front.map G.size ++ [bounds.length] := by
    rw [List.map_append]
    congr 1
    · refine List.map_congr_left (fun d hd => Function.update_of_ne ?_ _ _)
      rintro rfl; exact hm hd
    · show [Function.update G.size minimum bounds.length minimum] = _
      rw [Function.update_self]
  obtain ⟨r, hr1, hr2⟩ := newArray_grid (G := regrid G minimum bounds.length h0 axis) (u := w) hnm
    (d := boundData (front.map G.size) cols) (by rw [hsize, ← hlen]; rfl)
    (g := fun pos => (boundData (front.map G.size) cols).get ((front ++ [minimum]).map pos)) (fun _ _ => rfl)
  refine ⟨r, _, ?_, hr2, fun pos hpos b hbm => ?_⟩
  · unfold integrateFlux
    simp only [hrow, hes, hc1, hfu, heu, hw, hax, ha1, ha2, hdrop, hr1]
  · obtain ⟨hlt, hbe⟩ := List.getElem?_eq_some_iff.1 hbm
    have hv : Valid (front.map pos) (front.map G.size) := grid_valid.2 hpos
    have hk := ravel_lt hv
    have hval : (boundData (front.map G.size) cols).get ((front ++ [minimum]).map pos) =
        (cols.getD (pos minimum) []).getD (ravel (front.map G.size) (front.map pos)) 0 := by
      unfold boundData
      rw [get_ofFn (s := front.map G.size ++ [cols.length]) (by
        rw [hlen, ← hsize]
        refine grid_valid.2 (fun d hd => ?_)
        show pos d < Function.update G.size minimum bounds.length d
        by_cases hdm : d = minimum
        · subst hdm; rw [Function.update_self]; exact hlt
        · rw [Function.update_of_ne hdm]
          exact hpos d ((List.mem_append.1 hd).resolve_right (fun h => hdm (List.mem_singleton.1 h))))]
      simp
    have hcol := hc2.get (i := pos minimum) hlt (by rw [hlen]; exact hlt)
    simp only [List.get_eq_getElem] at hcol
    have hcl := hcol.length_eq
    rw [List.length_map, List.length_range] at hcl
    have := hcol.get (i := ravel (front.map G.size) (front.map pos)) (by simpa using hk) (by rw [← hcl]; exact hk)
    simp only [List.get_eq_getElem, List.getElem_map, List.getElem_range] at this
    obtain ⟨xs, ys, q1, q2⟩ := this
    rw [hbe] at q1
    refine ⟨xs, ys, q1.congr (fun i hi => ?_), ?_⟩
    · rw [unravel_ravel hv, hget pos hpos i hi]
    · show (boundData (front.map G.size) cols).get ((front ++ [minimum]).map pos) = _
      rw [hval, ← q2]
      simp [List.getD, hlt, hlen, hcl ▸ hk]

end Eprem.Observable
