import Verif.Model.Coordinates
import Verif.Props.ObserveInterpolate
import Verif.Props.IntegralFlux

/-!
# C103: times, energies, pitch-angle cosines and speeds as observables
-/

namespace Eprem.Observable

open Eprem Eprem.Symbolic Eprem.Metric Eprem.Numeric Eprem.Measured Eprem.Physical Eprem.Interpolate

variable {κ : Type} [DecidableEq κ]

/-! ## Values on the axis -/

/-- The arguments that the request of a coordinate needs are parsed, and its stored values are subscripted. -/
theorem coordinate_stored {G : Grid κ (AnyAxis ℝ)} {d : κ} {u : List Term} {g : (κ → Nat) → ℝ}
    {x : Arr κ (AnyAxis ℝ) ℝ} (h : OnGrid G [d] u g (.array x)) (hf : G.Fits [d]) (hw : WholeAxis (G.axis d))
    (nodes : List Name) (systems : List System) (φ : Name → ℚ) (hφ : TableSizes φ)
    (S : Setting κ) (hc : S.conv = realConv nodes systems) (ha : S.axes d = G.axis d) (hs : d ≠ S.shell)
    (rs : List (Name × Name)) (v : UserArg) (l : List Nat) (h1 : Chooses S.toInt nodes φ (G.axis d) l v) :
    ∃ rs' idx r H, makeRequest S (afterRequests S.conv [] rs) [(d, v)] = (afterRequests S.conv [] rs', .ok ⟨idx, []⟩) ∧
      subscriptObserved AnyAxis.getItem x idx = .ok r ∧ G.Part [d] (fun _ => l) H ∧ H.Fits [d] ∧
      OnGrid H [d] u (fun pos => g (whole (fun _ => l) pos)) r := by
  obtain ⟨rs', idx, e1, e2⟩ := request_parses hc rs [d] h.nodup (fun _ => v) (fun _ => l)
    (fun e he _ => by
      cases List.mem_singleton.1 he
      rw [ha]
      exact fun rs => parse_chooses S.toInt nodes systems φ hφ rs hw h1)
    (fun hm => absurd (List.mem_singleton.1 hm).symm hs)
  obtain ⟨r, H, k1, k2, k3, k4⟩ := c87_observed h hf (by simp) idx (fun _ => l) (fun e he => by
    cases List.mem_singleton.1 he
    have := e2 d (by simp)
    rw [ha] at this
    rw [← hf d (by simp)]
    exact this)
  exact ⟨rs', idx, r, H, e1, k1, k2, k3, k4⟩

/-- **C103**, stored values.  The subscription of the times, of the energies or of the pitch-angle cosines by a position, by
positions, by a slice that selects something or by measurable values on the axis gives the stored values at the positions that
the argument stands for, with their unit, on an axis with the values at these positions. -/
theorem c103_stored {G : Grid κ (AnyAxis ℝ)} {d : κ} {u : List Term} {g : (κ → Nat) → ℝ}
    {x : Arr κ (AnyAxis ℝ) ℝ} (h : OnGrid G [d] u g (.array x)) (hf : G.Fits [d]) (hw : WholeAxis (G.axis d))
    (nodes : List Name) (systems : List System) (φ : Name → ℚ) (hφ : TableSizes φ)
    (S : Setting κ) (hc : S.conv = realConv nodes systems) (ha : S.axes d = G.axis d) (hs : d ≠ S.shell)
    (rs : List (Name × Name)) (v : UserArg) (l : List Nat) (h1 : Chooses S.toInt nodes φ (G.axis d) l v) :
    ∃ rs' r H, observeCoordinate S (afterRequests S.conv [] rs) d x [(d, v)] = (afterRequests S.conv [] rs', .ok r) ∧
      G.Part [d] (fun _ => l) H ∧ H.Fits [d] ∧ OnGrid H [d] u (fun pos => g (whole (fun _ => l) pos)) r := by
  obtain ⟨rs', idx, r, H, e1, k1, k2⟩ := coordinate_stored h hf hw nodes systems φ hφ S hc ha hs rs v l h1
  exact ⟨rs', r, H, by simp only [observeCoordinate, e1, coordinateOf, Dict.get?, k1], k2⟩

/-- **C103**, stored speeds: the same for the speeds. -/
theorem c103_stored_speed {G : Grid κ (AnyAxis ℝ)} {d : κ} {u : List Term} {g : (κ → Nat) → ℝ} (order : List System)
    (mass : Operand κ (AnyAxis ℝ) ℝ)
    {x y : Arr κ (AnyAxis ℝ) ℝ} (h : OnGrid G [d] u g (.array y)) (hf : G.Fits [d]) (hw : WholeAxis (G.axis d))
    (nodes : List Name) (systems : List System) (φ : Name → ℚ) (hφ : TableSizes φ)
    (S : Setting κ) (hc : S.conv = realConv nodes systems) (ha : S.axes d = G.axis d) (hs : d ≠ S.shell)
    (rs : List (Name × Name)) (v : UserArg) (l : List Nat) (h1 : Chooses S.toInt nodes φ (G.axis d) l v) :
    ∃ rs' r H, observeSpeed S order (afterRequests S.conv [] rs) d mass x y [(d, v)] = (afterRequests S.conv [] rs', .ok r) ∧
      G.Part [d] (fun _ => l) H ∧ H.Fits [d] ∧ OnGrid H [d] u (fun pos => g (whole (fun _ => l) pos)) r := by
  obtain ⟨rs', idx, r, H, e1, k1, k2⟩ := coordinate_stored h hf hw nodes systems φ hφ S hc ha hs rs v l h1
  exact ⟨rs', r, H, by simp only [observeSpeed, e1, Dict.get?, k1], k2⟩

/-! ## Other values -/

theorem ne_of_notOn {factor : List Term → List Term → ℝ → Prop} {axis : AnyAxis ℝ} {ts : List ℝ} {v : UserArg}
    (h : NotOn factor axis ts v) : ts ≠ [] := by
  obtain ⟨_, _, _, _, _, _, _, _, _, t, ht, _⟩ := h
  exact List.ne_nil_of_mem ht

/-- The request for values of which at least one is not on the axis. -/
theorem coordinate_request {d : κ} (nodes : List Name) (systems : List System) (φ : Name → ℚ) (hφ : TableSizes φ)
    (S : Setting κ) (hc : S.conv = realConv nodes systems) (hs : d ≠ S.shell) (hr : d ≠ S.radius)
    (hne : axisData (S.axes d) ≠ [])
    (rs : List (Name × Name)) (v : UserArg) (ts : List ℝ) (h1 : NotOn (UnitFactor nodes φ) (S.axes d) ts v) :
    ∃ rs' idx, makeRequest S (afterRequests S.conv [] rs) [(d, v)] = (afterRequests S.conv [] rs', .ok ⟨idx, [(d, keptOf v)]⟩) ∧
      ∃ rs'', inUnit S.conv (afterRequests S.conv [] rs') (keptOf v) (axisUnit (S.axes d)) = (afterRequests S.conv [] rs'', .ok ts) := by
  obtain ⟨rs', idx, e1, _⟩ := request_mixed hc φ hφ rs [d] (List.nodup_singleton _) [d] (fun _ => v) (fun _ => ts) (fun _ => [])
    (fun e he => by cases List.mem_singleton.1 he; exact ⟨by simp, hs, hr, h1, hne⟩)
    (fun e he _ hn => absurd he hn) (fun hm => absurd (List.mem_singleton.1 hm).symm hs)
  refine ⟨rs', idx, by simpa [argsOf] using e1, ?_⟩
  obtain ⟨vs, u, x, ux, f, rfl, hx, hf, rfl, _⟩ := h1
  rw [hc, hx]
  exact inUnit_factor φ hφ rs' vs hf

theorem coordinate_array {G : Grid κ (AnyAxis ℝ)} {d : κ} (u : List Term) (ts : List ℝ) (hts : 0 < ts.length) :
    ∃ r, newArray (valuesArray ts) u (G.axes [d]) = .ok r ∧
      OnGrid (regrid G d ts.length hts (G.axis d)) [d] u (fun pos => ts.getD (pos d) 0) r := by
  obtain ⟨r, e1, e2⟩ := newArray_grid (G := regrid G d ts.length hts (G.axis d)) (dims := [d]) (List.nodup_singleton _)
    (d := valuesArray ts) (u := u) (g := fun pos => ts.getD (pos d) 0)
    (by simp [valuesArray, ND.ofFn, regrid]) (fun pos hpos => by
      have := hpos d (by simp)
      exact get_ofFn (by simpa [regrid, Valid] using this))
  refine ⟨r, ?_, e2⟩
  rw [← e1]
  simp [Grid.axes, regrid]

/-- **C103**, other values.  The subscription of the times, of the energies or of the pitch-angle cosines by measurable values
of which at least one is not on the axis gives these values, in the unit of the quantity, whether or not they are in the range
of the stored values.  What is missing: the axis of the result has the stored values, not those of the result
(`c103_not_axis`). -/
theorem c103_values_partial {G : Grid κ (AnyAxis ℝ)} {d : κ} {g : (κ → Nat) → ℝ}
    {x : Arr κ (AnyAxis ℝ) ℝ} (h : OnGrid G [d] (axisUnit (G.axis d)) g (.array x))
    (nodes : List Name) (systems : List System) (φ : Name → ℚ) (hφ : TableSizes φ)
    (S : Setting κ) (hc : S.conv = realConv nodes systems) (ha : S.axes d = G.axis d) (hs : d ≠ S.shell) (hr : d ≠ S.radius)
    (hne : axisData (G.axis d) ≠ [])
    (rs : List (Name × Name)) (v : UserArg) (ts : List ℝ) (h1 : NotOn (UnitFactor nodes φ) (G.axis d) ts v) :
    ∃ rs' r H, observeCoordinate S (afterRequests S.conv [] rs) d x [(d, v)] = (afterRequests S.conv [] rs', .ok r) ∧
      H.size d = ts.length ∧ H.axis d = G.axis d ∧ OnGrid H [d] (axisUnit (G.axis d)) (fun pos => ts.getD (pos d) 0) r := by
  obtain ⟨rs₁, idx, e1, rs₂, e2⟩ := coordinate_request (d := d) nodes systems φ hφ S hc hs hr (ha ▸ hne) rs v ts (ha ▸ h1)
  obtain ⟨r, e3, e4⟩ := coordinate_array (G := G) (d := d) (axisUnit (G.axis d)) ts (List.length_pos_iff.2 (ne_of_notOn h1))
  obtain ⟨_, c, hcx, _, _, _, hax, hu, _⟩ := h
  cases hcx
  refine ⟨rs₂, r, _, ?_, Function.update_self .., Function.update_self .., e4⟩
  rw [ha] at e2
  simp only [observeCoordinate, e1, coordinateOf, Dict.get?, if_true, hu, e2, hax, e3]

/-- **C103** fails: the axis of the result has all stored values, so that it does not have the length of the result when
the numbers of requested and of stored values differ; and a requested value that is not on the stored axis is not on that of
the result. -/
theorem c103_not_axis {G : Grid κ (AnyAxis ℝ)} {d : κ} {g : (κ → Nat) → ℝ}
    {x : Arr κ (AnyAxis ℝ) ℝ} (h : OnGrid G [d] (axisUnit (G.axis d)) g (.array x)) (hf : G.Fits [d])
    (nodes : List Name) (systems : List System) (φ : Name → ℚ) (hφ : TableSizes φ)
    (S : Setting κ) (hc : S.conv = realConv nodes systems) (ha : S.axes d = G.axis d) (hs : d ≠ S.shell) (hr : d ≠ S.radius)
    (hne : axisData (G.axis d) ≠ [])
    (rs : List (Name × Name)) (v : UserArg) (ts : List ℝ) (h1 : NotOn (UnitFactor nodes φ) (G.axis d) ts v) :
    ∃ rs' r, observeCoordinate S (afterRequests S.conv [] rs) d x [(d, v)] = (afterRequests S.conv [] rs', .ok (.array r)) ∧
      ∃ axis, Dict.get? r.axes d = some axis ∧ (∃ t ∈ ts, t ∉ axisData axis) ∧
        (ts.length ≠ G.size d → r.arr.raw.data.shape ≠ [axis.length]) := by
  obtain ⟨rs', r, H, e1, e2, e3, e4⟩ := c103_values_partial h nodes systems φ hφ S hc ha hs hr hne rs v ts h1
  obtain ⟨_, c, rfl, _, _, hsh, hax, _, _⟩ := e4
  refine ⟨rs', c, e1, G.axis d, ?_, ?_, fun hl => ?_⟩
  · rw [hax, Grid.axes]; simp [Dict.get?, e3]
  · obtain ⟨vs, u, y, ux, f, rfl, hx, _, rfl, t, ht, hoff⟩ := h1
    refine ⟨t, ht, fun hm => ?_⟩
    rw [hx] at hm
    rcases hoff with ho | ho | ho
    · have := ho t hm
      rw [sub_self, abs_zero] at this
      exact absurd this (not_lt.2 (by positivity))
    · exact lt_irrefl _ (ho t hm)
    · exact lt_irrefl _ (ho t hm)
  · rw [hsh, hf d (by simp)]
    simpa [e2] using hl

/-- **C103** fails for several species: when the stored energies have other dimensions too, a subscription by energies that
are not on the axis raises. -/
theorem c103_not_several {G : Grid κ (AnyAxis ℝ)} {d : κ} {dims : List κ} {g : (κ → Nat) → ℝ}
    {x : Arr κ (AnyAxis ℝ) ℝ} (h : OnGrid G dims (axisUnit (G.axis d)) g (.array x)) (hd : dims.length ≠ 1)
    (nodes : List Name) (systems : List System) (φ : Name → ℚ) (hφ : TableSizes φ)
    (S : Setting κ) (hc : S.conv = realConv nodes systems) (ha : S.axes d = G.axis d) (hs : d ≠ S.shell) (hr : d ≠ S.radius)
    (hne : axisData (G.axis d) ≠ [])
    (rs : List (Name × Name)) (v : UserArg) (ts : List ℝ) (h1 : NotOn (UnitFactor nodes φ) (G.axis d) ts v) :
    ∃ rs' e, observeCoordinate S (afterRequests S.conv [] rs) d x [(d, v)] = (afterRequests S.conv [] rs', .error e) := by
  obtain ⟨rs₁, idx, e1, rs₂, e2⟩ := coordinate_request (d := d) nodes systems φ hφ S hc hs hr (ha ▸ hne) rs v ts (ha ▸ h1)
  obtain ⟨hn, c, hcx, _, _, _, hax, hu, _⟩ := h
  cases hcx
  refine ⟨rs₂, .look .value, ?_⟩
  rw [ha] at e2
  have e3 : newArray (valuesArray ts) (axisUnit (G.axis d)) (G.axes dims) = .error (.look .value) := by
    have hk : dimensions (G.axes dims).keys = dims := by rw [keys_axes, dimensions_nodup hn]
    unfold newArray arrayFactory
    rw [hk, if_neg (by simpa [ND.ndim, valuesArray, ND.ofFn] using hd)]
  simp only [observeCoordinate, e1, coordinateOf, Dict.get?, if_true, hu, e2, hax, e3]

/-! ## Speeds -/

set_option maxHeartbeats 100000000 in
theorem speed_units : ∀ o ∈ orders, ∀ s ∈ bothSystems,
    unitDiv o (unitOf s (c! "energy")) (unitOf s (c! "mass")) = .ok (speedSq s) ∧
    unitPow true (speedSq s) (1/2) = .ok (unitOf s (c! "velocity")) := by
  decide +kernel

/-- **C103**, speeds.  The subscription of the speeds by energies of which at least one is not on the axis gives the speeds of
protons with these energies, `√(2 E / m)`, in the unit of the metric system for velocity.  What is missing: the axis of the
result, as in `c103_not_axis`. -/
theorem c103_speed_partial {G : Grid κ (AnyAxis ℝ)} {d : κ} {g : (κ → Nat) → ℝ} (order : List System) (ho : order ∈ orders)
    (s : System) (m : ℝ) (mass : Operand κ (AnyAxis ℝ) ℝ) (hm : IsScalar (unitOf s (c! "mass")) m mass)
    {x y : Arr κ (AnyAxis ℝ) ℝ} (h : OnGrid G [d] (unitOf s (c! "energy")) g (.array x))
    (hu : axisUnit (G.axis d) = unitOf s (c! "energy"))
    (nodes : List Name) (systems : List System) (φ : Name → ℚ) (hφ : TableSizes φ)
    (S : Setting κ) (hc : S.conv = realConv nodes systems) (ha : S.axes d = G.axis d) (hs : d ≠ S.shell) (hr : d ≠ S.radius)
    (hne : axisData (G.axis d) ≠ [])
    (rs : List (Name × Name)) (v : UserArg) (ts : List ℝ) (h1 : NotOn (UnitFactor nodes φ) (G.axis d) ts v) :
    ∃ rs' r H, observeSpeed S order (afterRequests S.conv [] rs) d mass x y [(d, v)] = (afterRequests S.conv [] rs', .ok r) ∧
      H.size d = ts.length ∧ H.axis d = G.axis d ∧
      OnGrid H [d] (unitOf s (c! "velocity")) (fun pos => Real.sqrt (2 * ts.getD (pos d) 0 / m)) r := by
  obtain ⟨rs₁, idx, e1, rs₂, e2⟩ := coordinate_request (d := d) nodes systems φ hφ S hc hs hr (ha ▸ hne) rs v ts (ha ▸ h1)
  obtain ⟨e, e3, e4⟩ := coordinate_array (G := G) (d := d) (axisUnit (G.axis d)) ts (List.length_pos_iff.2 (ne_of_notOn h1))
  obtain ⟨_, c, hcx, _, _, _, hax, hcu, _⟩ := h
  cases hcx
  obtain ⟨v1, v2⟩ := speed_units order ho s (mem_bothSystems s)
  rw [hu] at e3 e4
  obtain ⟨a, k1, g1⟩ := map_grid (w := unitOf s (c! "energy")) e4 (fun y => 2 * y)
  obtain ⟨b, k2, g2⟩ := mul_scalar order false (fun x y => x / y) g1 hm (combine_div v1)
  obtain ⟨r, k3, g3⟩ := root_grid g2 (pow_units v2)
  have k1' : times order (.number 2) e = .ok a := by
    obtain ⟨_, z, rfl, _, _, _, _, hzu, _⟩ := e4
    rw [← k1, ← hzu]
    rfl
  refine ⟨rs₂, r, _, ?_, Function.update_self .., Function.update_self .., g3⟩
  rw [ha, hu] at e2
  simp only [observeSpeed, e1, coordinateOf, Dict.get?, if_true, hcu, e2, hax, e3, speedFrom, over, k1', k2, k3, bind, Except.bind]

/-! ## Witnesses -/

/-- the times of `sampleGrid`: 1, 2 and 5 seconds -/
theorem sample_times : ∃ T : Arr String (AnyAxis ℝ) ℝ, OnGrid sampleGrid ["time"] (axisUnit (sampleGrid.axis "time"))
    (fun p => axisValue (sampleGrid.axis "time") (p "time")) (.array T) := by
  obtain ⟨t, ht⟩ := onGrid_ofFn sampleGrid ["time"] (by decide) [⟨1, c! "s", 1⟩]
    (fun l => axisValue (sampleGrid.axis "time") (l.getD 0 0))
  obtain ⟨T, rfl⟩ : ∃ z, t = .array z := by obtain ⟨_, c, hc, _⟩ := ht; exact ⟨c, hc⟩
  exact ⟨T, ht⟩

/-- the hypotheses of `c103_stored`, for the time of 1/12 minutes, the last of three -/
example (systems : List System) (T R : Arr String (AnyAxis ℝ) ℝ) : sampleGrid.Fits ["time"] ∧ WholeAxis (sampleGrid.axis "time") ∧
    "time" ≠ (sampleSetting T R systems).shell ∧ Chooses (sampleSetting T R systems).toInt tableNodes size (sampleGrid.axis "time") [2]
      (.measured [1 / 12] [⟨1, c! "min", 1⟩]) := by
  refine ⟨?_, sample_whole "time" (by simp), by simp [sampleSetting], by simp, ⟨[1, 2, 5], none⟩, _, 60, rfl, .inl sample_minutes, ?_⟩
  · intro d hd; cases List.mem_singleton.1 hd; rfl
  · refine .cons ⟨by norm_num, ?_⟩ .nil
    intro j hj
    interval_cases j <;> norm_num

/-- those of `c103_values_partial` and of `c103_not_axis`, for 1.5 and 2 seconds, given in minutes: two values for an axis of
three -/
example (systems : List System) (T R : Arr String (AnyAxis ℝ) ℝ) : "time" ≠ (sampleSetting T R systems).shell ∧
    "time" ≠ (sampleSetting T R systems).radius ∧ axisData (sampleGrid.axis "time") ≠ [] ∧
    [(3 : ℝ) / 2, 2].length ≠ sampleGrid.size "time" ∧
    NotOn (UnitFactor tableNodes size) (sampleGrid.axis "time") [3 / 2, 2] (.measured [1 / 40, 1 / 30] [⟨1, c! "min", 1⟩]) := by
  refine ⟨by simp [sampleSetting], by simp [sampleSetting], ?_, by decide, sample_notOn⟩
  show [(1 : ℝ), 2, 5] ≠ []
  simp

/-- those of `c103_speed_partial` and `c103_not_several`, for the energy of 25000000 erg, between the stored 2 J and 3 J -/
example : ∃ (E : Arr String (AnyAxis ℝ) ℝ) (E2 : Arr String (AnyAxis ℝ) ℝ) (mass : Operand String (AnyAxis ℝ) ℝ) (g g2 : (String → Nat) → ℝ),
    OnGrid windGrid ["energy"] (unitOf .mks (c! "energy")) g (.array E) ∧
    OnGrid windGrid ["species", "energy"] (axisUnit (windGrid.axis "energy")) g2 (.array E2) ∧
    IsScalar (unitOf .mks (c! "mass")) 1 mass ∧ axisUnit (windGrid.axis "energy") = unitOf .mks (c! "energy") ∧
    axisData (windGrid.axis "energy") ≠ [] ∧
    NotOn (UnitFactor tableNodes size) (windGrid.axis "energy") [5 / 2] (.measured [25000000] [⟨1, c! "erg", 1⟩]) := by
  obtain ⟨e, he⟩ := onGrid_ofFn windGrid ["energy"] (by decide) (unitOf .mks (c! "energy")) (fun l => ((l.sum : ℕ) : ℝ) + 1)
  obtain ⟨E, rfl⟩ : ∃ z, e = .array z := by obtain ⟨_, c, hc, _⟩ := he; exact ⟨c, hc⟩
  obtain ⟨e2, he2⟩ := onGrid_ofFn windGrid ["species", "energy"] (by decide) (axisUnit (windGrid.axis "energy")) (fun l => ((l.sum : ℕ) : ℝ) + 1)
  obtain ⟨E2, rfl⟩ : ∃ z, e2 = .array z := by obtain ⟨_, c, hc, _⟩ := he2; exact ⟨c, hc⟩
  refine ⟨E, E2, .object .scalar ⟨⟨[], fun _ => 1⟩, unitOf .mks (c! "mass")⟩, _, _, he, he2, ⟨_, rfl, rfl, rfl, rfl⟩, rfl, ?_, ?_⟩
  · show [(1 : ℝ), 2, 3, 4] ≠ []
    simp
  · refine ⟨_, _, ⟨[1, 2, 3, 4], none⟩, _, _, rfl, rfl, sample_ergs, by norm_num, 5 / 2, by simp, .inl ?_⟩
    intro d hd
    fin_cases hd <;> norm_num [abs_lt, lt_abs]

end Eprem.Observable
