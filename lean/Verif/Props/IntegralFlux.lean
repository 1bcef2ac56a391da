import Verif.Lemmas.IntegralFlux
import Verif.Lemmas.Broadcast
import Verif.Props.ObserveInterpolate
import Verif.Props.Acceleration

/-!
# Integral flux (C100)
-/

namespace Eprem.Observable

open Eprem Eprem.Symbolic Eprem.Metric Eprem.Numeric Eprem.Measured Eprem.Physical Eprem.Interpolate

variable {κ : Type} [DecidableEq κ]

/-- The units of the integral flux: `integral_units` says that they are those of the package, and those of flux multiplied by
energy. -/
def integralUnit : System → List Term
  | .mks => [⟨1, c! "s", -1⟩, ⟨1, c! "sr", -1⟩, ⟨1, c! "m", -2⟩]
  | .cgs => [⟨1, c! "s", -1⟩, ⟨1, c! "sr", -1⟩, ⟨1, c! "cm", -2⟩]

set_option maxHeartbeats 100000000 in
theorem integral_units : ∀ o ∈ orders, ∀ s ∈ bothSystems,
    ((unitsOf s (c! "integral flux")).toOption.bind (fun n => (freshUnit n).toOption)) = some (integralUnit s) ∧
    unitMul o (fluxUnit s) (unitOf s (c! "energy")) = .ok (integralUnit s) := by decide +kernel

/-- **C100**.  The fluxes, which are positive, at increasing energies, and amounts below the highest energy as lower bounds, in
a unit of energy.  The integral flux has the dimensions of the flux except energy, and then the bounds as given, and the unit
that the package has for it.  At each position that was asked for, and for each bound, it is the rule of integration applied to
the part of the spectrum above the bound. -/
theorem c100_above_partial {G : Grid κ (AnyAxis ℝ)} {front : List κ} {time energy minimum : κ} (hm : minimum ∉ front)
    (htm : time ≠ minimum) (order : List System) (ho : order ∈ orders) (s : System) (simpson : List ℝ → List ℝ → ℝ) (tiny : ℝ)
    (nodes : List Name) (systems : List System) (φ : Name → ℚ) (hφ : TableSizes φ) (rs : List (Name × Name))
    {F : (κ → Nat) → ℝ} {E : Nat → ℝ} {flux e : Operand κ (AnyAxis ℝ) ℝ}
    (hf : OnGrid G (front ++ [energy]) (fluxUnit s) F flux)
    (he : OnGrid G [energy] (unitOf s (c! "energy")) (fun p => E (p energy)) e) (hfit : G.Fits front)
    (hF : ∀ pos, G.Inside (front ++ [energy]) pos → 0 < F pos) (hE : ∀ i < G.size energy, 0 < E i)
    (hi : Increasing (G.size energy) E) (l : List ℝ) (h0 : 0 < l.length) (u : List Term) (f : ℝ)
    (hu : UnitFactor nodes φ (unitOf s (c! "energy")) u f) (hb : ∀ v ∈ l, max (v * f) tiny < E (G.size energy - 1))
    (index : Option Arg) (ls : κ → List Nat) (ht : time ∈ front → ObservedPositions (G.size time) index (ls time))
    (hr : ∀ d ∈ front, d ≠ time → ls d = List.range (G.size d)) (hl : ls minimum = List.range l.length) :
    ∃ rs' r H I, integralFlux (realConv nodes systems) (afterRequests (realConv nodes systems) [] rs) order simpson tiny time
        energy minimum (G.axis energy) index flux e (.bounds (l, u)) = (afterRequests (realConv nodes systems) [] rs', .ok r) ∧
      OnGrid H (front ++ [minimum]) (integralUnit s) I r ∧ H.Fits (front ++ [minimum]) ∧ G.Part front ls H ∧
      H.size minimum = l.length ∧ (∃ c, H.axis minimum = .coordinates c u ∧ c.data = l) ∧
      ∀ pos, H.Inside (front ++ [minimum]) pos → ∀ v, l[pos minimum]? = some v →
        ∃ xs ys, Above (G.size energy) E (fun i => F (Function.update (whole ls pos) energy i)) (max (v * f) tiny) xs ys ∧
          I pos = simpson ys xs := by
  obtain ⟨rs', hrs⟩ := inUnit_factor (systems := systems) φ hφ rs l hu
  have h0' : 0 < (l.map (fun v => v * f)).length := by rwa [List.length_map]
  obtain ⟨a, I, a1, a2, a3⟩ := integrate_grid order simpson tiny hm hf he (integral_units order ho s (mem_bothSystems s)).2 hF hE
    hi (l.map (fun v => v * f)) h0' (newCoordinates l u) (by
      intro b hb'
      obtain ⟨v, hv, rfl⟩ := List.mem_map.1 hb'
      exact hb v hv)
  obtain ⟨c, rfl⟩ := a2.isArray
  have hsz : ∀ d ∈ front, (regrid G minimum (l.map (fun v => v * f)).length h0' (newCoordinates l u)).size d = G.size d :=
    fun d hd => Function.update_of_ne (by rintro rfl; exact hm hd) _ _
  have hsx : ∀ d ∈ front, (regrid G minimum (l.map (fun v => v * f)).length h0' (newCoordinates l u)).axis d = G.axis d :=
    fun d hd => Function.update_of_ne (by rintro rfl; exact hm hd) _ _
  have hszm : (regrid G minimum (l.map (fun v => v * f)).length h0' (newCoordinates l u)).size minimum = l.length := by
    show Function.update _ _ _ _ = _
    rw [Function.update_self, List.length_map]
  have hsxm : (regrid G minimum (l.map (fun v => v * f)).length h0' (newCoordinates l u)).axis minimum = newCoordinates l u := by
    show Function.update _ _ _ _ = _
    rw [Function.update_self]
  obtain ⟨r, H, k1, k2, k3, k4⟩ := finish_grid a2 (by
      intro d hd
      rcases List.mem_append.1 hd with hd | hd
      · rw [hsz d hd, hsx d hd]; exact hfit d hd
      · cases List.mem_singleton.1 hd
        rw [hszm, hsxm]; rfl) (by simp) [] (fun k => if k = time then index else none) ls (by intro d _ h; cases h) (by
      intro d hd _
      rcases List.mem_append.1 hd with hd | hd
      · rw [hsz d hd]
        by_cases hdt : d = time
        · subst hdt; rw [if_pos rfl]; exact ht hd
        · rw [if_neg hdt]; exact hr d hd hdt
      · cases List.mem_singleton.1 hd
        rw [if_neg (Ne.symm htm), hszm]; exact hl)
  have hee := he.unit_eq
  obtain ⟨x, rfl⟩ := he.isArray
  refine ⟨rs', r, H, _, ?_, k4, k3, ⟨fun d hd => k2.size d (List.mem_append_left _ hd), fun d hd => ?_⟩, ?_, ?_, ?_⟩
  · simp only [integralFlux]
    have hxu : x.arr.unit = unitOf s (c! "energy") := hee
    rw [hxu, hrs]
    simp only [a1, k1]
  · have := k2.axis d (List.mem_append_left _ hd)
    rwa [hsx d hd] at this
  · rw [k2.size minimum (by simp), hl, List.length_range]
  · have := k2.axis minimum (by simp)
    rw [hsxm, hl] at this
    cases hx : H.axis minimum with
    | points y => rw [hx] at this; exact absurd this id
    | symbols y => rw [hx] at this; exact absurd this id
    | coordinates y v =>
      rw [hx] at this
      obtain ⟨h1, h2⟩ := (this : v = u ∧ List.Forall₂ (fun j v => l[j]? = some v) (List.range l.length) y.data)
      subst h1
      refine ⟨y, rfl, List.ext_getElem? (fun i => ?_)⟩
      rcases Nat.lt_or_ge i l.length with hi' | hi'
      · have := h2.get (i := i) (by simpa using hi') (by rw [← h2.length_eq]; simpa using hi')
        simp only [List.get_eq_getElem, List.getElem_range] at this
        rw [this, List.getElem?_eq_getElem]
      · rw [List.getElem?_eq_none hi', List.getElem?_eq_none (by rw [← h2.length_eq]; simpa using hi')]
  · intro pos hpos v hv
    have hlt : pos minimum < l.length := (List.getElem?_eq_some_iff.1 hv).1
    have hw : whole ls pos minimum = pos minimum := by
      unfold whole; rw [hl]; simp [List.getD, hlt]
    refine a3 (whole ls pos) (fun d hd => ?_) (v * f) ?_
    · have hlen := k2.size d (List.mem_append_left _ hd)
      have hp := hpos d (List.mem_append_left _ hd)
      rw [hlen] at hp
      by_cases hdt : d = time
      · subst hdt
        exact observed_lt (ht hd) _ (by unfold whole; rw [List.getD_eq_getElem _ _ hp]; exact List.getElem_mem hp)
      · unfold whole
        rw [hr d hd hdt] at hp ⊢
        rw [List.length_range] at hp
        simpa [List.getD, hp] using hp
    · rw [hw, List.getElem?_map, hv]; rfl

/-- The part of a spectrum above a bound is determined by the values at the energies above it and at the next energy below. -/
theorem above_unique {n : Nat} {x y z : Nat → ℝ} {p : ℝ} {xs ys xs' ys' : List ℝ} (hx : Increasing n x) (hpos : ∀ i < n, 0 < x i)
    (hy : ∀ i < n, 0 < y i) (hyz : ∀ i < n, (i + 1 < n → p < x (i + 1)) → y i = z i) (h : Above n x y p xs ys)
    (h' : Above n x z p xs' ys') : xs = xs' ∧ ys = ys' := by
  rcases h with ⟨h1, h2, h3⟩ | ⟨i, v, h1, h2, h3, h4, h5, h6⟩ <;> rcases h' with ⟨k1, k2, k3⟩ | ⟨j, w, k1, k2, k3, k4, k5, k6⟩
  · refine ⟨by rw [h2, k2], ?_⟩
    rw [h3, k3]
    exact List.map_congr_left (fun i hi => hyz i (List.mem_range.1 hi) (fun h => h1 _ h))
  · exact absurd (h1 j (by omega)) (not_lt.2 k2)
  · exact absurd (k1 i (by omega)) (not_lt.2 h2)
  · have hij : i = j := by
      rcases Nat.lt_trichotomy i j with hlt | he | hgt
      · exfalso
        rcases Nat.lt_or_ge (i + 1) j with h | h
        · have := hx (i + 1) j h (by omega); linarith
        · have : i + 1 = j := by omega
          subst this; linarith
      · exact he
      · exfalso
        rcases Nat.lt_or_ge (j + 1) i with h | h
        · have := hx (j + 1) i h (by omega); linarith
        · have : j + 1 = i := by omega
          subst this; linarith
    subst hij
    have hle : ∀ k, i ≤ k → k < n → (k + 1 < n → p < x (k + 1)) := fun k hk _ hk' => by
      rcases Nat.eq_or_lt_of_le hk with e | e
      · subst e; exact h3
      · exact lt_trans h3 (hx _ _ (by omega) hk')
    have e0 := hyz i (by omega) (hle i (le_refl _) (by omega))
    have e1 := hyz (i + 1) h1 (hle _ (by omega) h1)
    rw [← e0, ← e1] at k4
    refine ⟨by rw [h5, k5], ?_⟩
    rw [h6, k6, onPowerLaw_unique (hpos i (by omega)) (hx i (i + 1) (by omega) h1) (lt_of_lt_of_le (hpos i (by omega)) h2)
      (hy i (by omega)) h4 k4]
    congr 1
    apply List.ext_getElem?
    intro k
    rw [List.getElem?_drop, List.getElem?_drop]
    rcases Nat.lt_or_ge (i + 1 + k) n with h | h
    · rw [nth_map_range _ h, nth_map_range _ h, hyz _ h (hle _ (by omega) h)]
    · rw [List.getElem?_eq_none (by simpa using h), List.getElem?_eq_none (by simpa using h)]

/-- **C100**.  The integral flux above a bound does not depend on the fluxes at the energies below it, except for the highest of
these. -/
theorem c100_independent {G : Grid κ (AnyAxis ℝ)} {front : List κ} {energy minimum : κ} (hm : minimum ∉ front)
    (order : List System) (simpson : List ℝ → List ℝ → ℝ) (tiny : ℝ) {u ue w : List Term} (hw : unitMul order u ue = .ok w)
    {F F' : (κ → Nat) → ℝ} {E : Nat → ℝ} {flux flux' e : Operand κ (AnyAxis ℝ) ℝ}
    (hf : OnGrid G (front ++ [energy]) u F flux) (hf' : OnGrid G (front ++ [energy]) u F' flux')
    (he : OnGrid G [energy] ue (fun p => E (p energy)) e) (hF : ∀ pos, G.Inside (front ++ [energy]) pos → 0 < F pos)
    (hF' : ∀ pos, G.Inside (front ++ [energy]) pos → 0 < F' pos) (hE : ∀ i < G.size energy, 0 < E i)
    (hi : Increasing (G.size energy) E) (b : ℝ) (axis : AnyAxis ℝ) (hb : max b tiny < E (G.size energy - 1))
    (hs : ∀ pos, G.Inside (front ++ [energy]) pos → (pos energy + 1 < G.size energy → max b tiny < E (pos energy + 1)) →
      F pos = F' pos) :
    ∃ r r' H I, integrateFlux order simpson tiny energy minimum [b] axis flux e = .ok r ∧
      integrateFlux order simpson tiny energy minimum [b] axis flux' e = .ok r' ∧
      OnGrid H (front ++ [minimum]) w I r ∧ OnGrid H (front ++ [minimum]) w I r' := by
  obtain ⟨r, I, a1, a2, a3⟩ := integrate_grid order simpson tiny hm hf he hw hF hE hi [b] (by simp) axis (by simpa using hb)
  obtain ⟨r', I', b1, b2, b3⟩ := integrate_grid order simpson tiny hm hf' he hw hF' hE hi [b] (by simp) axis (by simpa using hb)
  refine ⟨r, r', _, I, a1, b1, a2, b2.eq_inside (fun pos hpos => ?_)⟩
  have hz : pos minimum = 0 := by
    have := hpos minimum (by simp)
    have h1 : (regrid G minimum [b].length (by simp) axis).size minimum = 1 := by
      show Function.update _ _ _ _ = _
      rw [Function.update_self]; rfl
    omega
  have hin : G.Inside front pos := fun d hd => by
    have := hpos d (List.mem_append_left _ hd)
    rwa [show (regrid G minimum [b].length (by simp) axis).size d = G.size d from
      Function.update_of_ne (by rintro rfl; exact hm hd) _ _] at this
  obtain ⟨xs, ys, q1, q2⟩ := a3 pos hin b (by rw [hz]; rfl)
  obtain ⟨xs', ys', q1', q2'⟩ := b3 pos hin b (by rw [hz]; rfl)
  have hins : ∀ i < G.size energy, G.Inside (front ++ [energy]) (Function.update pos energy i) := fun i hi d hd => by
    by_cases hde : d = energy
    · subst hde; rw [Function.update_self]; exact hi
    · rw [Function.update_of_ne hde]
      exact hin d ((List.mem_append.1 hd).resolve_right (fun h => hde (List.mem_singleton.1 h)))
  obtain ⟨e1, e2⟩ := above_unique hi hE (fun i hi' => hF _ (hins i hi')) (fun i hi' hn => hs _ (hins i hi') (by
    rw [Function.update_self]; exact hn)) q1 q1'
  rw [q2', q2, e1, e2]

theorem checkInterp_error {rows : List (List ℝ)} {xs : List ℝ} {p : ℝ} {e : Numeric.Err} (h : checkInterp rows xs p = .error e) :
    e = .value := by
  unfold checkInterp at h
  cases hm : xs.min? with
  | none => rw [hm] at h; cases h; rfl
  | some m =>
    rw [hm] at h
    simp only at h
    by_cases h1 : p < m
    · rw [if_pos h1] at h; cases h
    · rw [if_neg h1] at h
      by_cases h2 : rows.any (fun y => decide (y.length ≠ xs.length)) = true
      · rw [if_pos h2] at h; cases h; rfl
      · rw [if_neg h2] at h
        cases hn : Container.nearest xs p .upper with
        | error _ => rw [hn] at h; cases h; rfl
        | ok v =>
          obtain ⟨i, x0⟩ := v
          rw [hn] at h
          cases hg : Container.pyGet? xs (i + 1) with
          | none => simp only [hg] at h; cases h; rfl
          | some x1 => simp only [hg] at h; cases h

/-- **C100**.  A bound at the highest energy or above it is refused. -/
theorem c100_refused {G : Grid κ (AnyAxis ℝ)} {front : List κ} {energy minimum : κ}
    (order : List System) (simpson : List ℝ → List ℝ → ℝ) (tiny : ℝ) {u ue : List Term}
    {F : (κ → Nat) → ℝ} {E : Nat → ℝ} {flux e : Operand κ (AnyAxis ℝ) ℝ} (hf : OnGrid G (front ++ [energy]) u F flux)
    (he : OnGrid G [energy] ue (fun p => E (p energy)) e) (hi : Increasing (G.size energy) E) (bounds : List ℝ)
    (axis : AnyAxis ℝ) (b : ℝ) (hbm : b ∈ bounds) (hb : E (G.size energy - 1) ≤ b) :
    integrateFlux order simpson tiny energy minimum bounds axis flux e = .error (.look .value) := by
  obtain ⟨f, rfl⟩ := hf.isArray
  obtain ⟨x, rfl⟩ := he.isArray
  have hed := hasDims_grid he
  have hp := G.pos energy
  have hes : Axis.seqList x.arr.data.data = (List.range (G.size energy)).map E := by
    have hsz : x.arr.data.data.size = G.size energy := by
      unfold ND.size; rw [hed.shape]; simp [Numeric.sizeOf]
    unfold Axis.seqList
    rw [hsz]
    refine List.map_congr_left (fun i hi => ?_)
    rw [List.mem_range] at hi
    have := hed.get (fun _ => i) (by simpa using hi)
    rw [← this]
    unfold ND.get
    rw [hed.shape]
    simp [ravel, Numeric.sizeOf]
  have hpw : ((List.range (G.size energy)).map E).Pairwise (· < ·) := by
    rw [List.pairwise_map]
    exact List.pairwise_lt_range.imp_of_mem (fun {a b} _ hb' hab => hi a b hab (List.mem_range.1 hb'))
  have hlast : ((List.range (G.size energy)).map E).getLast? = some (E (G.size energy - 1)) := by
    rw [List.getLast?_eq_getElem?, List.length_map, List.length_range, nth_map_range _ (by omega)]
  have hcol : ∀ rows p, E (G.size energy - 1) ≤ p →
      boundColumn simpson rows ((List.range (G.size energy)).map E) p = .error .value := fun rows p hp => by
    unfold boundColumn
    rw [c56_above _ _ _ _ hpw hlast hp]
  have hval : ∀ rows p, boundColumn simpson rows ((List.range (G.size energy)).map E) p = .error .value ∨
      ∃ c, boundColumn simpson rows ((List.range (G.size energy)).map E) p = .ok c := fun rows p => by
    cases hc : boundColumn simpson rows ((List.range (G.size energy)).map E) p with
    | ok c => exact .inr ⟨c, rfl⟩
    | error e =>
      left
      unfold boundColumn at hc
      cases hk : checkInterp rows ((List.range (G.size energy)).map E) p with
      | error e' =>
        rw [hk] at hc
        cases hc
        rw [checkInterp_error hk]
      | ok c => rw [hk] at hc; cases hc
  have : ∀ l : List ℝ, b ∈ l → Axis.collect (fun p => boundColumn simpson (spectra f.arr.data.data)
      ((List.range (G.size energy)).map E) (max p tiny)) l = .error .value := by
    intro l
    induction l with
    | nil => intro h; cases h
    | cons c l ih =>
      intro h
      rcases List.mem_cons.1 h with rfl | h
      · simp only [Axis.collect, hcol _ _ (le_trans hb (le_max_left _ _))]
      · rcases hval (spectra f.arr.data.data) (max c tiny) with hc | ⟨v, hc⟩
        · simp only [Axis.collect, hc]
        · simp only [Axis.collect, hc, ih h]
  unfold integrateFlux
  simp only [hes, this bounds hbm]

/-- The array of the widths, for the energies that a slice selects: the elements `f i` for `i < n`, each minus the one at the
index before. -/
theorem widths {E : Nat → ℝ} {m : Nat} {a : ND ℝ} (hs : a.shape = [m]) (hv : ∀ i < m, a.get [i] = E i) {n : Nat} (hn : 0 < n)
    (f : Nat → Nat) (hf : ∀ i < n, f i < m) :
    ∃ e0 em d, timesAt a ((List.range n).map (fun i => (f i : ℤ))) = .ok e0 ∧
      timesAt a (shiftSequence ((List.range n).map (fun i => (f i : ℤ))) (-1) (some 0) none) = .ok em ∧
      zipData (fun x y => x - y) e0 em = .ok d ∧ d.shape = [n] ∧ ∀ i < n, d.get [i] = E (f i) - E (f i - 1) := by
  have sel : ∀ g : Nat → Nat, (∀ i < n, g i < m) → ∃ d, timesAt a ((List.range n).map (fun i => (g i : ℤ))) = .ok d ∧ d.shape = [n] ∧
      ∀ i < n, d.get [i] = E (g i) := fun g hg => by
    obtain ⟨d, h1, h2, h3⟩ := c27_single a .other (by decide) ((List.range n).map (fun i => (g i : ℤ)))
      (by simp [hn.ne']) [(List.range n).map g] (by
        rw [hs]
        refine ⟨?_, trivial⟩
        unfold Positions
        simp only
        rw [List.forall₂_map_left_iff, List.forall₂_map_right_iff, List.forall₂_same]
        intro i hi
        exact ⟨hg i (List.mem_range.1 hi), .inl rfl⟩)
    refine ⟨d, by unfold timesAt; rw [h1], by rw [h2]; simp, fun i hi => ?_⟩
    rw [h3 [i] (by rw [h2]; exact .cons (by simpa using hi) .nil)]
    simp only [List.zipWith_cons_cons, List.zipWith_nil_right]
    rw [show ((List.range n).map g).getD i 0 = g i by simp [List.getD, hi], hv _ (hg i hi)]
  obtain ⟨e0, a1, a2, a3⟩ := sel f hf
  obtain ⟨em, b1, b2, b3⟩ := sel (fun i => f i - 1) (fun i hi => by have := hf i hi; omega)
  obtain ⟨d, c1, c2, c3⟩ := zip_same (fun x y => x - y) a2 b2
  refine ⟨e0, em, d, a1, ?_, c1, c2, fun i hi => by rw [c3 i hi, a3 i hi, b3 i hi]⟩
  rw [c29_sequence _ _ _ _ (by intro f c _ hc; cases hc), List.map_map]
  rw [← b1]
  congr 1
  apply List.map_congr_left
  intro i _
  simp only [Function.comp, shiftValue]
  split <;> omega

/-- The integral flux for a slice that selects all energies, or only one. -/
theorem slice_grid {G : Grid κ (AnyAxis ℝ)} {front : List κ} {energy : κ} (order : List System) (ho : order ∈ orders) (s : System)
    {F : (κ → Nat) → ℝ} {E : Nat → ℝ} {flux e : Operand κ (AnyAxis ℝ) ℝ}
    (hf : OnGrid G (front ++ [energy]) (fluxUnit s) F flux)
    (he : OnGrid G [energy] (unitOf s (c! "energy")) (fun p => E (p energy)) e) {n : Nat} (hn : 0 < n)
    (f : Nat → Nat) (hlt : ∀ i < n, f i < G.size energy) (h1 : n = 1 ∨ n = G.size energy) :
    ∃ r, integrateFluxSlice order energy (G.axis energy) ((List.range n).map (fun i => (f i : ℤ))) flux e = .ok r ∧
      OnGrid G (front ++ [energy]) (integralUnit s) (fun p => ((List.range (p energy + 1)).map (fun i =>
        F (Function.update p energy i) * (E (f (if n = 1 then 0 else i)) - E (f (if n = 1 then 0 else i) - 1)))).sum) r := by
  obtain ⟨x, rfl⟩ := he.isArray
  have hed := hasDims_grid he
  have hxu : x.arr.unit = unitOf s (c! "energy") := he.unit_eq
  obtain ⟨e0, em, d, a1, a2, a3, a4, a5⟩ := widths (E := E) (a := x.arr.data.data) (m := G.size energy) hed.shape (fun i hi =>
    hed.get (fun _ => i) (by simpa using hi)) hn f hlt
  have hsz : (regrid G energy n hn (G.axis energy)).size energy = n := Function.update_self ..
  have hsx : ∀ d, (regrid G energy n hn (G.axis energy)).axis d = G.axis d := fun d => by
    show Function.update _ _ _ _ = _
    by_cases h : d = energy
    · subst h; rw [Function.update_self]
    · rw [Function.update_of_ne h]
  obtain ⟨de, b1, b2⟩ := newArray_grid (G := regrid G energy n hn (G.axis energy)) (u := unitOf s (c! "energy"))
    (List.nodup_singleton energy) (d := d) (by rw [a4]; simp [hsz])
    (g := fun p => E (f (p energy)) - E (f (p energy) - 1)) (fun pos hpos => by
      have := hpos energy (by simp)
      rw [hsz] at this
      exact a5 _ this)
  have b1' : newArray d (unitOf s (c! "energy")) [(energy, G.axis energy)] = .ok de := by
    rw [← b1]; unfold Grid.axes; rw [List.map_singleton, hsx]
  obtain ⟨p, c1, c2⟩ := mul_grids order true (fun x y => x * y) (G₃ := G) hf b2
    (merge_sublist hf.nodup (show [energy].Sublist (front ++ [energy]) by simp))
    (combine_mul (integral_units order ho s (mem_bothSystems s)).2) (by
      rcases h1 with h1 | h1
      · right; intro d hd; cases List.mem_singleton.1 hd; rw [hsz, h1]
      · left; intro d _ hd; cases List.mem_singleton.1 hd; rw [hsz, h1]) (fun _ _ => rfl)
    (fun d hd hd' => absurd (List.mem_append_right _ hd) hd') (fun d _ => (hsx d).symm) (fun _ _ _ => rfl)
  obtain ⟨c, rfl⟩ := c2.isArray
  have c2' : OnGrid G (front ++ [energy]) (integralUnit s) (fun p => F p *
      (E (f (if n = 1 then 0 else p energy)) - E (f (if n = 1 then 0 else p energy) - 1))) (.array c) := by
    refine c2.eq_inside (fun pos hpos => ?_)
    have hz : (regrid G energy n hn (G.axis energy)).clip pos energy = if n = 1 then 0 else pos energy := by
      unfold Grid.clip; rw [hsz]
    show F (G.clip pos) * (E (f ((regrid G energy n hn (G.axis energy)).clip pos energy)) -
      E (f ((regrid G energy n hn (G.axis energy)).clip pos energy) - 1)) = _
    rw [hz]
    congr 1
    exact hf.own hpos (fun d hd => clip_of_lt (hpos d hd))
  obtain ⟨r, d1, d2⟩ := cumsumLast_grid c2'
  refine ⟨r, ?_, ?_⟩
  · simp only [integrateFluxSlice, times, a1, a2, a3, hxu, b1', c1, bind, Except.bind]
    exact d1
  · simpa only [Function.update_self] using d2

/-- **C100**, the code does something else for a slice.  The slice that selects all energies, which is the default: the result
has energies instead of minimum energies as its last dimension.  It is zero at the lowest energy, and grows with the energy by
the flux multiplied by the width: it is the integral up to the energy, not above it. -/
theorem c100_not_slice {G : Grid κ (AnyAxis ℝ)} {front : List κ} {energy : κ} (order : List System) (ho : order ∈ orders)
    (s : System) {F : (κ → Nat) → ℝ} {E : Nat → ℝ} {flux e : Operand κ (AnyAxis ℝ) ℝ}
    (hf : OnGrid G (front ++ [energy]) (fluxUnit s) F flux)
    (he : OnGrid G [energy] (unitOf s (c! "energy")) (fun p => E (p energy)) e) :
    ∃ r R, integrateFluxSlice order energy (G.axis energy) ((List.range (G.size energy)).map (fun i : Nat => (i : ℤ))) flux e = .ok r ∧
      OnGrid G (front ++ [energy]) (integralUnit s) R r ∧ ∀ p, R (Function.update p energy 0) = 0 ∧
        ∀ k, k + 1 < G.size energy → R (Function.update p energy (k + 1)) = R (Function.update p energy k) +
          F (Function.update p energy (k + 1)) * (E (k + 1) - E k) := by
  obtain ⟨r, h1, h2⟩ := slice_grid order ho s hf he (G.pos energy) (fun i => i) (fun i hi => hi) (.inr rfl)
  refine ⟨r, _, h1, h2, fun p => ⟨by simp, fun k hk => ?_⟩⟩
  have hne : G.size energy ≠ 1 := by omega
  simp only [Function.update_self, Function.update_idem, hne, if_false]
  rw [List.range_succ (n := k + 1), List.map_append, List.sum_append]
  simp

/-- **C100**, the code does something else for a slice.  The slice that selects one energy, not the lowest: the result still has
all energies, and is the sum of the fluxes at all energies up to each, multiplied by the width of the selected one. -/
theorem c100_not_bin {G : Grid κ (AnyAxis ℝ)} {front : List κ} {energy : κ} (order : List System) (ho : order ∈ orders)
    (s : System) {F : (κ → Nat) → ℝ} {E : Nat → ℝ} {flux e : Operand κ (AnyAxis ℝ) ℝ}
    (hf : OnGrid G (front ++ [energy]) (fluxUnit s) F flux)
    (he : OnGrid G [energy] (unitOf s (c! "energy")) (fun p => E (p energy)) e) (j : Nat) (hj : j + 1 < G.size energy) :
    ∃ r, integrateFluxSlice order energy (G.axis energy) [(j : ℤ) + 1] flux e = .ok r ∧
      OnGrid G (front ++ [energy]) (integralUnit s) (fun p => ((List.range (p energy + 1)).map (fun i =>
        F (Function.update p energy i))).sum * (E (j + 1) - E j)) r := by
  obtain ⟨r, h1, h2⟩ := slice_grid order ho s hf he (n := 1) (by omega) (fun _ => j + 1) (fun i hi => hj) (.inl rfl)
  refine ⟨r, by rw [← h1]; simp, ?_⟩
  simp only [if_true, Nat.add_sub_cancel] at h2
  refine h2.eq_inside (fun pos _ => ?_)
  rw [List.sum_map_mul_right]

/-! ## Witnesses -/

theorem sample_ergs : UnitFactor tableNodes size (unitOf .mks (c! "energy")) [⟨1, c! "erg", 1⟩] (1 / 10000000) := by
  refine .inr ⟨c! "J", c! "erg", rfl, isSymbolOf_of (by decide +kernel), rfl, isSymbolOf_of (by decide +kernel),
    convertible_of (by decide +kernel), ?_⟩
  have h : size c! "J" = 10000000 * size c! "erg" ∧ size c! "erg" ≠ 0 := by decide +kernel
  rw [h.1]
  have h2 : ((size c! "erg" : ℚ) : ℝ) ≠ 0 := by exact_mod_cast h.2
  push_cast
  field_simp

theorem sample_flux : ∃ (F : (String → Nat) → ℝ) (flux e : Operand String (AnyAxis ℝ) ℝ),
    OnGrid windGrid (["time", "shell", "species"] ++ ["energy"]) (fluxUnit .mks) F flux ∧
    OnGrid windGrid ["energy"] (unitOf .mks (c! "energy")) (fun p => ((p "energy" : ℕ) : ℝ) + 1) e ∧ (∀ p, 0 < F p) ∧
    (∀ i < windGrid.size "energy", (0 : ℝ) < (i : ℝ) + 1) ∧
    Increasing (windGrid.size "energy") (fun i : Nat => (i : ℝ) + 1) := by
  obtain ⟨f, hf⟩ := onGrid_ofFn windGrid (["time", "shell", "species"] ++ ["energy"]) (by decide) (fluxUnit .mks)
    (fun l => ((l.sum : ℕ) : ℝ) + 1)
  obtain ⟨e, he⟩ := onGrid_ofFn windGrid ["energy"] (by decide) (unitOf .mks (c! "energy")) (fun l => ((l.sum : ℕ) : ℝ) + 1)
  exact ⟨_, f, e, hf, by simpa using he, fun p => by positivity, fun i _ => by positivity, fun i j h _ => by
    have : (i : ℝ) < j := by exact_mod_cast h
    simpa using this⟩

theorem wind_energies : windGrid.size "energy" = 4 := by simp [windGrid]

/-- `intflux[1, :, :, [25000000 erg, 5000000 erg]]` for the energies 1 J, ..., 4 J: the first bound is between the second and
the third energy, the other one below all of them; the result has the time with index 1 only -/
example : ∃ flux e rs' r, integralFlux (realConv tableNodes []) (afterRequests (realConv tableNodes []) [] []) [.mks, .cgs]
    (fun ys _ => ys.sum) (1 / 1000) "time" "energy" "minimum energy" (windGrid.axis "energy") (some (.seq .other [1])) flux e
    (.bounds ([25000000, 5000000], [⟨1, c! "erg", 1⟩])) = (afterRequests (realConv tableNodes []) [] rs', .ok r) := by
  obtain ⟨F, flux, e, h1, h2, h3, h4, h5⟩ := sample_flux
  obtain ⟨rs', r, _, _, h, _⟩ := c100_above_partial (G := windGrid) (front := ["time", "shell", "species"]) (time := "time")
    (energy := "energy") (minimum := "minimum energy") (by decide) (by decide) [.mks, .cgs] (by decide) .mks
    (fun ys _ => ys.sum) (1 / 1000) tableNodes [] size (real_sizes []) [] h1 h2
    (fun d hd => wind_fits d (by revert hd; simp only [List.mem_cons, List.not_mem_nil, or_false]; tauto)) (fun p _ => h3 p) h4 h5
    [25000000, 5000000] (by simp) [⟨1, c! "erg", 1⟩] (1 / 10000000) sample_ergs (by
      rw [wind_energies]
      intro v hv
      fin_cases hv <;> norm_num) (some (.seq .other [1]))
    (fun d => if d = "time" then [1] else if d = "minimum energy" then List.range 2 else List.range (windGrid.size d))
    (fun _ => by
      rw [if_pos rfl]
      exact .cons ⟨by simp [windGrid], .inl rfl⟩ .nil) (by
      intro d hd hdt
      rw [if_neg hdt, if_neg (by rintro rfl; revert hd; decide)]) rfl
  exact ⟨flux, e, rs', r, h⟩

/-- the hypotheses of `c100_independent` and `c100_refused`: the flux at the lowest energy does not matter above 2.5 J, and 4 J
is refused -/
example : ∃ flux flux' e r r' H I, integrateFlux [.mks, .cgs] (fun ys _ => ys.sum) 0 "energy" "minimum energy" [5 / 2]
      (newCoordinates [5 / 2] [⟨1, c! "J", 1⟩]) flux e = .ok r ∧
    integrateFlux [.mks, .cgs] (fun ys _ => ys.sum) 0 "energy" "minimum energy" [5 / 2] (newCoordinates [5 / 2] [⟨1, c! "J", 1⟩])
      flux' e = .ok r' ∧ OnGrid H ["time", "shell", "species", "minimum energy"] (integralUnit .mks) I r ∧
    OnGrid H ["time", "shell", "species", "minimum energy"] (integralUnit .mks) I r' ∧
    integrateFlux [.mks, .cgs] (fun ys _ => ys.sum) 0 "energy" "minimum energy" [1, 4] (newCoordinates [1, 4] [⟨1, c! "J", 1⟩])
      flux e = .error (.look .value) := by
  obtain ⟨f, hf⟩ := onGrid_ofFn windGrid (["time", "shell", "species"] ++ ["energy"]) (by decide) (fluxUnit .mks)
    (fun l => ((l.sum : ℕ) : ℝ) + 1)
  obtain ⟨f', hf'⟩ := onGrid_ofFn windGrid (["time", "shell", "species"] ++ ["energy"]) (by decide) (fluxUnit .mks)
    (fun l => if l.getD 3 0 = 0 then 7 else ((l.sum : ℕ) : ℝ) + 1)
  obtain ⟨_, _, e, _, he, _, h4, h5⟩ := sample_flux
  obtain ⟨r, r', H, I, k1, k2, k3, k4⟩ := c100_independent (G := windGrid) (front := ["time", "shell", "species"])
    (energy := "energy") (minimum := "minimum energy") (by decide) [.mks, .cgs] (fun ys _ => ys.sum) 0
    (integral_units [.mks, .cgs] (by decide) .mks (mem_bothSystems _)).2 hf hf' he (fun p _ => by positivity) (fun p _ => by
      show (0 : ℝ) < if _ then _ else _
      split
      · norm_num
      · positivity) h4 h5 (5 / 2) (newCoordinates [5 / 2] [⟨1, c! "J", 1⟩]) (by rw [wind_energies]; norm_num) (fun p hp hs => by
      have hne : p "energy" ≠ 0 := fun h0 => by
        rw [h0, wind_energies] at hs
        have := hs (by norm_num)
        norm_num at this
      show _ = if p "energy" = 0 then _ else _
      rw [if_neg hne])
  exact ⟨f, f', e, r, r', H, I, k1, k2, k3, k4, c100_refused (F := fun p => _) (E := fun i => (i : ℝ) + 1) [.mks, .cgs] _ 0 hf he
    h5 [1, 4] _ 4 (by simp) (by rw [wind_energies]; norm_num)⟩

/-- the hypotheses of `c100_not_slice` and `c100_not_bin` -/
example : ∃ flux e r r', integrateFluxSlice [.mks, .cgs] "energy" (windGrid.axis "energy") ((List.range (windGrid.size "energy")).map
      (fun i : Nat => (i : ℤ))) flux e = .ok r ∧
    integrateFluxSlice [.mks, .cgs] "energy" (windGrid.axis "energy") [((1 : ℕ) : ℤ) + 1] flux e = .ok r' := by
  obtain ⟨F, flux, e, h1, h2, _⟩ := sample_flux
  obtain ⟨r, _, k, _⟩ := c100_not_slice (front := ["time", "shell", "species"]) [.mks, .cgs] (by decide) .mks h1
    (E := fun i => (i : ℝ) + 1) h2
  obtain ⟨r', k', _⟩ := c100_not_bin (front := ["time", "shell", "species"]) [.mks, .cgs] (by decide) .mks h1
    (E := fun i => (i : ℝ) + 1) h2 1 (by rw [wind_energies]; norm_num)
  exact ⟨flux, e, r, r', k, k'⟩

end Eprem.Observable
