import Verif.Props.Observable
import Verif.Props.NumericIndex
import Verif.Props.PhysicalFunctions

/-!
# Fluence (C55)
-/

namespace Eprem.Observable

open Eprem Eprem.Symbolic Eprem.Metric Eprem.Numeric Eprem.Measured Eprem.Physical

variable {κ ν : Type} [DecidableEq κ] {G : Grid κ ν}

/-- `numpy.cumsum(a, axis=0)` of an array on the grid. -/
theorem cumsum_grid {time : κ} {rest : List κ} {u : List Term} {g : (κ → Nat) → ℝ} {c : Arr κ ν ℝ}
    (h : OnGrid G (time :: rest) u g (.array c)) :
    ∃ r, reduceAxis (fun y => cumsumAxis List.sum y 0) c = .ok r ∧
      OnGrid G (time :: rest) u (fun p => ((List.range (p time + 1)).map (fun i => g (Function.update p time i))).sum) r := by
  obtain ⟨hn, c', h', hp, hd, hs, hax, hcu, hg⟩ := h
  cases h'
  have wn : WellNamed c.arr.data := OnGrid.wellNamed hn hd hs
  obtain ⟨r, h1, h2⟩ := c69_cumsum List.sum c.arr.data wn 0 0 time
    (by
      show axisIndex c.arr.raw.dims.length 0 = _
      rw [hd]
      unfold axisIndex
      simp)
    (by show c.arr.raw.dims[0]? = _; rw [hd]; rfl)
  have hrd : r.dims = time :: rest := h2.dims.trans hd
  have hrs : r.data.shape = (time :: rest).map G.size := by
    rw [shape_eq h2.named, hrd]
    apply List.map_congr_left
    intro d hdm
    rw [shapeGet_eq h2.named, h2.size d, sizeAlong_grid (c := c.arr.data) hd hs hdm]; rfl
  have hl : Axes.lookupAll (G.axes (time :: rest)) (time :: rest) = .ok (G.axes (time :: rest)) := by
    obtain ⟨axes, m1, m2, m3⟩ := Axes.lookupAll_ok (G.axes (time :: rest)) (time :: rest) (fun k hk => by rwa [keys_axes])
    have hu : Container.unique (time :: rest) = time :: rest := dimensions_nodup hn
    have e : axes = G.axes (time :: rest) := by
      refine get_eq_dict (by rw [m2, keys_axes, hu]) (by unfold Dict.WF; rw [m2, hu]; exact hn) (fun k hk => ?_)
      rw [m2, hu] at hk
      rw [m3, if_pos hk]
    rw [m1, e]
  obtain ⟨z, hz1, hz2⟩ := newArray_grid (G := G) (u := u) hn hrs
    (g := fun p => ((List.range (p time + 1)).map (fun i => g (Function.update p time i))).sum) (fun pos hpos => by
      have hh : r.Has pos := by
        intro d n hdn
        rw [h2.size d] at hdn
        by_cases hdm : d ∈ time :: rest
        · rw [sizeAlong_grid (c := c.arr.data) hd hs hdm] at hdn
          cases hdn
          exact hpos d hdm
        · rw [sizeAlong_none wn (by show d ∉ c.arr.raw.dims; rw [hd]; exact hdm)] at hdn
          cases hdn
      have := h2.element pos hh
      rw [Named.at, hrd] at this
      rw [this]
      congr 1
      apply List.map_congr_left
      intro i hi
      rw [List.mem_range] at hi
      have hlt := hpos time (List.mem_cons_self ..)
      refine hg _ (fun d hdm => ?_)
      by_cases hdt : d = time
      · subst hdt; rw [Function.update_self]; omega
      · rw [Function.update_of_ne hdt]; exact hpos d hdm)
  refine ⟨z, ?_, hz2⟩
  unfold reduceAxis
  simp only [h1, hax, hrd, hl, hcu]
  exact hz1

/-- The units of flux and of fluence: `fluence_units` says that the former are those of the package, and the latter those of
flux multiplied by time. -/
def fluxUnit : System → List Term
  | .mks => [⟨1, c! "J", -1⟩, ⟨1, c! "s", -1⟩, ⟨1, c! "sr", -1⟩, ⟨1, c! "m", -2⟩]
  | .cgs => [⟨1, c! "erg", -1⟩, ⟨1, c! "s", -1⟩, ⟨1, c! "sr", -1⟩, ⟨1, c! "cm", -2⟩]

def fluenceUnit : System → List Term
  | .mks => [⟨1, c! "s", 2⟩, ⟨1, c! "kg", -1⟩, ⟨1, c! "sr", -1⟩, ⟨1, c! "m", -4⟩]
  | .cgs => [⟨1, c! "s", 2⟩, ⟨1, c! "g", -1⟩, ⟨1, c! "sr", -1⟩, ⟨1, c! "cm", -4⟩]

set_option maxHeartbeats 100000000 in
theorem fluence_units : ∀ o ∈ orders, ∀ s ∈ bothSystems,
    ((unitsOf s (c! "flux")).toOption.bind (fun n => (freshUnit n).toOption)) = some (fluxUnit s) ∧
    unitMul o (fluxUnit s) (unitOf s (c! "time")) = .ok (fluenceUnit s) := by decide +kernel

/-- The elements of the array of times at some indices. -/
theorem timesAt_ok {a : ND ℝ} {n : Nat} (hn : 0 < n) (hs : a.shape = [n]) (f : Nat → Nat) (hf : ∀ i < n, f i < n) :
    ∃ d, timesAt a ((List.range n).map (fun i => (f i : ℤ))) = .ok d ∧ d.shape = [n] ∧
      ∀ i < n, d.get [i] = a.get [f i] := by
  obtain ⟨d, h1, h2, h3⟩ := c27_single a .other (by decide) ((List.range n).map (fun i => (f i : ℤ)))
    (by simp [hn.ne']) [(List.range n).map f] (by
      rw [hs]
      refine ⟨?_, trivial⟩
      unfold Positions
      simp only
      rw [List.forall₂_map_left_iff, List.forall₂_map_right_iff, List.forall₂_same]
      intro i hi
      exact ⟨hf i (List.mem_range.1 hi), .inl rfl⟩)
  refine ⟨d, by unfold timesAt; rw [h1], by rw [h2]; simp, fun i hi => ?_⟩
  rw [h3 [i] (by rw [h2]; exact .cons (by simpa using hi) .nil)]
  simp [List.getD, hi]

theorem zip_same (f : ℝ → ℝ → ℝ) {a b : ND ℝ} {n : Nat} (ha : a.shape = [n]) (hb : b.shape = [n]) :
    ∃ d, zipData f a b = .ok d ∧ d.shape = [n] ∧ ∀ i < n, d.get [i] = f (a.get [i]) (b.get [i]) := by
  obtain ⟨d, hd⟩ := zip_mesh_ok (ds := [()]) (f := f) (g := fun _ => n) (h := fun _ => n) ha hb (by simp)
  obtain ⟨h1, h2⟩ := zip_mesh (ds := [()]) (f := f) (g := fun _ => n) (h := fun _ => n) ha hb hd
  refine ⟨d, by unfold zipData; rw [hd], by rw [h1]; simp, fun i hi => ?_⟩
  have := h2 (fun _ => i) (by simpa using hi)
  have e : (if n = 1 then 0 else i) = i := by split <;> omega
  simpa [e] using this

/-- **C55**.  From the fluxes at all times and the times, the fluence is computed, on the grid of the flux and in the unit of
flux multiplied by time.  At the first time it is zero; from one time to the next it grows by the flux at the latter
multiplied by the time elapsed.  If the flux is not negative and the times do not decrease, it does not decrease; if the
flux is constant, it is the flux multiplied by the time elapsed since the first time. -/
theorem c55_fluence (order : List System) (ho : order ∈ orders) (s : System) (time : κ) (rest : List κ)
    (F : (κ → Nat) → ℝ) (T : Nat → ℝ) (flux t : Operand κ ν ℝ) (hf : OnGrid G (time :: rest) (fluxUnit s) F flux)
    (ht : OnGrid G [time] (unitOf s (c! "time")) (fun p => T (p time)) t) :
    ∃ r R, fluence order time (G.axis time) (G.size time) flux t = .ok r ∧
      OnGrid G (time :: rest) (fluenceUnit s) R r ∧ ∀ p,
        R (Function.update p time 0) = 0 ∧
        (∀ k, R (Function.update p time (k + 1)) = R (Function.update p time k) +
          F (Function.update p time (k + 1)) * (T (k + 1) - T k)) ∧
        ((∀ k, 0 ≤ F (Function.update p time k)) → Monotone T → Monotone (fun k => R (Function.update p time k))) ∧
        ∀ x, (∀ k, F (Function.update p time k) = x) → ∀ k, R (Function.update p time k) = x * (T k - T 0) := by
  obtain ⟨_, v1⟩ := fluence_units order ho s (mem_bothSystems s)
  have hpos := G.pos time
  obtain ⟨hn1, x, rfl, hp, hd, hs, hax, hcu, hg⟩ := ht
  have hs' : x.arr.data.data.shape = [G.size time] := hs
  have hval : ∀ i < G.size time, x.arr.data.data.get [i] = T i := by
    intro i hi
    have := hg (fun _ => i) (by intro d hd'; rw [List.mem_singleton] at hd'; subst hd'; exact hi)
    rw [data_at hd] at this
    exact this
  obtain ⟨t0, e1, s1, g1⟩ := timesAt_ok hpos hs' id (fun i hi => hi)
  obtain ⟨tm, e2, s2, g2⟩ := timesAt_ok hpos hs' (fun i => i - 1) (fun i hi => by omega)
  have hsh : shiftSequence ((List.range (G.size time)).map (fun i : Nat => (i : ℤ))) (-1) (some 0) none =
      (List.range (G.size time)).map (fun i => ((i - 1 : ℕ) : ℤ)) := by
    rw [c29_sequence _ _ _ _ (by intro f c _ hc; cases hc), List.map_map]
    apply List.map_congr_left
    intro i _
    simp only [Function.comp, shiftValue]
    split <;> omega
  obtain ⟨d, e3, s3, g3⟩ := zip_same (fun x y => x - y) s1 s2
  obtain ⟨dt, e4, g4⟩ := newArray_grid (G := G) (u := unitOf s (c! "time")) hn1 (d := d) s3
    (g := fun p => T (p time) - T (p time - 1)) (fun pos hpos' => by
      have hi := hpos' time (List.mem_singleton.2 rfl)
      show d.get [pos time] = _
      rw [g3 _ hi, g1 _ hi, g2 _ hi, id, hval _ hi, hval _ (by omega)])
  have hm := merge_sublist hf.nodup (show [time].Sublist (time :: rest) by simp)
  obtain ⟨p, e5, g5⟩ := mul_grid order true (fun x y => x * y) hf g4 hm (combine_mul v1)
  have g5' := g5
  obtain ⟨_, a, rfl, _⟩ := g5'
  obtain ⟨r, e6, g6⟩ := cumsum_grid g5
  have e1' : timesAt x.arr.data.data ((List.range (G.size time)).map (fun i : Nat => (i : ℤ))) = .ok t0 := e1
  have e4' : newArray d (unitOf s (c! "time")) [(time, G.axis time)] = .ok dt := e4
  refine ⟨r, _, ?_, g6, fun p => ?_⟩
  · simp only [fluence, times, hsh, e1', e2, e3, hcu, e4', e5, bind, Except.bind]
    exact e6
  · have hstep : ∀ k, ((List.range (Function.update p time (k + 1) time + 1)).map (fun i =>
        F (Function.update (Function.update p time (k + 1)) time i) *
          (T (Function.update (Function.update p time (k + 1)) time i time) -
            T (Function.update (Function.update p time (k + 1)) time i time - 1)))).sum =
        ((List.range (Function.update p time k time + 1)).map (fun i =>
        F (Function.update (Function.update p time k) time i) *
          (T (Function.update (Function.update p time k) time i time) -
            T (Function.update (Function.update p time k) time i time - 1)))).sum +
        F (Function.update p time (k + 1)) * (T (k + 1) - T k) := by
      intro k
      simp only [Function.update_self, Function.update_idem]
      rw [List.range_succ (n := k + 1), List.map_append, List.sum_append]
      simp
    have hzero : ((List.range (Function.update p time 0 time + 1)).map (fun i =>
        F (Function.update (Function.update p time 0) time i) *
          (T (Function.update (Function.update p time 0) time i time) -
            T (Function.update (Function.update p time 0) time i time - 1)))).sum = 0 := by
      simp
    refine ⟨hzero, hstep, fun hF hT => monotone_nat_of_le_succ (fun k => ?_), fun x hx k => ?_⟩
    · show _ ≤ List.sum _
      rw [hstep k]
      have := mul_nonneg (hF (k + 1)) (sub_nonneg.2 (hT (Nat.le_succ k)))
      linarith
    · induction k with
      | zero => rw [hzero]; ring
      | succ k ih => rw [hstep k, ih, hx]; ring

/-- fluxes that are not negative, and increasing times -/
example : ∃ F T flux t, OnGrid exampleGrid ["time", "shell"] (fluxUnit .mks) F flux ∧
    OnGrid exampleGrid ["time"] (unitOf .mks (c! "time")) (fun p => T (p "time")) t ∧ (∀ p, 0 ≤ F p) ∧ Monotone T := by
  obtain ⟨f, hf⟩ := onGrid_ofFn exampleGrid ["time", "shell"] (by decide) (fluxUnit .mks) (fun l => ((l.sum : ℕ) : ℝ))
  obtain ⟨t, ht⟩ := onGrid_ofFn exampleGrid ["time"] (by decide) (unitOf .mks (c! "time")) (fun l => ((l.sum : ℕ) : ℝ) + 1)
  exact ⟨_, fun n => (([n].sum : ℕ) : ℝ) + 1, f, t, hf, ht, fun p => by positivity, fun a b h => by
    simpa using (Nat.cast_le (α := ℝ)).2 h⟩

end Eprem.Observable
