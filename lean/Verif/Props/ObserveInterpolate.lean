import Verif.Props.Observe
import Verif.Props.InterpolateAxes
import Verif.Props.NumericRestrict
import Verif.Props.Distribution

/-!
# C94: interpolation of observable quantities to values that are not on their axes

C93, continued: numbers of shells that do not exist.
-/

namespace Eprem.Observable

open Eprem Eprem.Symbolic Eprem.Metric Eprem.Numeric Eprem.Measured Eprem.Physical Eprem.Interpolate

variable {κ : Type} [DecidableEq κ]

/-! ## Selection of everything -/

/-- The indices of all positions. -/
def allIndices (n : Nat) : List ℤ := (List.range n).map (fun i : Nat => (i : ℤ))

theorem allIndices_ne {n : Nat} (h : 0 < n) : allIndices n ≠ [] := by
  simp [allIndices, List.range_eq_nil, Nat.ne_of_gt h]

theorem allIndices_positions (n : Nat) : Positions n (.seq .other (allIndices n)) (List.range n) :=
  natSeq_positions (fun j hj => List.mem_range.1 hj)

theorem whole_range {G : Grid κ (AnyAxis ℝ)} {dims : List κ} {pos : κ → Nat} (hp : G.Inside dims pos) {d : κ} (hd : d ∈ dims) :
    whole (fun d => List.range (G.size d)) pos d = pos d := by
  have := hp d hd
  simp [whole, List.getD_eq_getElem?_getD, this]

/-- The subscription by the indices of all positions keeps the numbers. -/
theorem subscript_all {G : Grid κ (AnyAxis ℝ)} {dims : List κ} {u : List Term} {g : (κ → Nat) → ℝ}
    {a : Arr κ (AnyAxis ℝ) ℝ} (h : OnGrid G dims u g (.array a)) (hf : G.Fits dims) (h0 : dims ≠ []) :
    ∃ r H, a.getItem AnyAxis.getItem (.tuple (dims.map (fun d => .seq .other (allIndices (G.size d))))) = .ok (.array r) ∧
      (∀ d ∈ dims, H.size d = G.size d) ∧ OnGrid H dims u (fun pos => g (whole (fun d => List.range (G.size d)) pos)) (.array r) := by
  obtain ⟨r, H, h1, h2, h3, h4⟩ := c87_observed h hf h0 (fun d => some (.seq .other (allIndices (G.size d))))
    (fun d => List.range (G.size d)) (fun d hd => sequence_positions (allIndices_ne (G.pos d)) (allIndices_positions _))
  obtain ⟨r, rfl⟩ : ∃ z, r = .array z := by obtain ⟨_, c, hc, _⟩ := h4; exact ⟨c, hc⟩
  refine ⟨r, H, ?_, fun d hd => by rw [h2.size d hd, List.length_range], h4⟩
  rw [← h1]
  obtain ⟨hn, c, hc, hpl, hd, hsh, haxs, hu, hg⟩ := h
  cases hc
  unfold subscriptObserved
  rw [haxs, keys_axes]
  have e1 : ∀ d, indexOrFull (some (Arg.seq .other (allIndices (G.size d)))) = .seq .other (allIndices (G.size d)) := fun d => by
    simp [indexOrFull, allIndices_ne (G.pos d)]
  simp only [e1]
  have e2 : (dims.map (fun d => Arg.seq .other (allIndices (G.size d)))).all isValue = false := by
    cases dims with
    | nil => exact absurd rfl h0
    | cons d dims => simp [isValue]
  simp only [normalizeIndices, e2, List.map_map]
  congr 3

/-! ## The subscription after interpolation -/

/-- The index for a dimension after interpolation. -/
def finishedIndex (finished : List κ) (indexed : κ → Option Arg) (d : κ) (axis : AnyAxis ℝ) : Option Arg :=
  if d ∈ finished then (if anyLength axis = 1 then some (.int 0) else none)
  else match indexed d with
    | none => if anyLength axis = 1 then some (.int 0) else none
    | some (.seq k l) => if l = [] then (if anyLength axis = 1 then some (.int 0) else none) else some (.seq k l)
    | some a => some a

theorem default_eq (axis : AnyAxis ℝ) :
    defaultIndex axis = indexOrFull (if anyLength axis = 1 then some (.int 0) else none) := by
  unfold defaultIndex
  split <;> rfl

theorem finished_eq (finished : List κ) (indexed : κ → Option Arg) (d : κ) (axis : AnyAxis ℝ) :
    (if d ∈ finished then defaultIndex axis else indexOr (defaultIndex axis) (indexed d)) =
      indexOrFull (finishedIndex finished indexed d axis) := by
  unfold finishedIndex
  by_cases h : d ∈ finished
  · rw [if_pos h, if_pos h]; exact default_eq axis
  · rw [if_neg h, if_neg h]
    cases indexed d with
    | none => exact default_eq axis
    | some a => cases a with
      | seq k l =>
        by_cases hl : l = []
        · simp only [indexOr, if_pos hl]; exact default_eq axis
        · simp only [indexOr, if_neg hl, indexOrFull]
      | int i => rfl
      | slice b e s => rfl
      | ellipsis => rfl

theorem anyLength_eq (axis : AnyAxis ℝ) : anyLength axis = axis.length := by cases axis <;> rfl

theorem default_positions {n : Nat} {axis : AnyAxis ℝ} (hl : axis.length = n) :
    ObservedPositions n (if anyLength axis = 1 then some (.int 0) else none) (List.range n) := by
  rw [anyLength_eq, hl]
  by_cases h : n = 1
  · subst h
    rw [if_pos rfl]
    exact ⟨0, rfl, by omega, .inl rfl⟩
  · rw [if_neg h]; rfl

theorem finished_positions {finished : List κ} {indexed : κ → Option Arg} {d : κ} {axis : AnyAxis ℝ} {n : Nat} {l : List Nat}
    (hl : axis.length = n) (h1 : d ∈ finished → l = List.range n)
    (h2 : d ∉ finished → ObservedPositions n (indexed d) l) :
    ObservedPositions n (finishedIndex finished indexed d axis) l := by
  unfold finishedIndex
  by_cases h : d ∈ finished
  · rw [if_pos h, h1 h]; exact default_positions hl
  · rw [if_neg h]
    have h2 := h2 h
    cases hi : indexed d with
    | none =>
      rw [hi] at h2
      have h2 : l = List.range n := h2
      rw [h2]; exact default_positions hl
    | some a => cases a with
      | seq k m =>
        rw [hi] at h2
        by_cases hm : m = []
        · subst hm
          have h2 : l = List.range n := by cases k <;> exact h2
          simp only [if_true]
          rw [h2]; exact default_positions hl
        · simp only [if_neg hm]; exact h2
      | int i => rw [hi] at h2; exact h2
      | slice b e s => rw [hi] at h2; exact absurd h2 id
      | ellipsis => rw [hi] at h2; exact absurd h2 id

theorem finish_grid {G : Grid κ (AnyAxis ℝ)} {dims : List κ} {u : List Term} {g : (κ → Nat) → ℝ}
    {a : Arr κ (AnyAxis ℝ) ℝ} (h : OnGrid G dims u g (.array a)) (hf : G.Fits dims) (h0 : dims ≠ []) (finished : List κ)
    (indexed : κ → Option Arg) (ls : κ → List Nat) (h1 : ∀ d ∈ dims, d ∈ finished → ls d = List.range (G.size d))
    (h2 : ∀ d ∈ dims, d ∉ finished → ObservedPositions (G.size d) (indexed d) (ls d)) :
    ∃ r H, finishInterpolated finished indexed a = .ok r ∧ G.Part dims ls H ∧ H.Fits dims ∧
      OnGrid H dims u (fun pos => g (whole ls pos)) r := by
  obtain ⟨r, H, k1, k2⟩ := c87_observed h hf h0 (fun d => finishedIndex finished indexed d (G.axis d)) ls
    (fun d hd => finished_positions (hf d hd) (h1 d hd) (h2 d hd))
  refine ⟨r, H, ?_, k2⟩
  rw [← k1]
  obtain ⟨hn, c, hc, hpl, hd, hsh, haxs, hu, hg⟩ := h
  cases hc
  unfold subscriptObserved finishInterpolated
  rw [haxs, keys_axes]
  simp only [Grid.axes, List.map_map]
  congr 3
  exact List.map_congr_left (fun d _ => finished_eq _ _ _ _)

/-! ## The array of radii -/

theorem get?_axes (G : Grid κ (AnyAxis ℝ)) {d : κ} : ∀ {dims : List κ}, d ∈ dims → Dict.get? (G.axes dims) d = some (G.axis d)
  | e :: dims, hd => by
    show Dict.get? ((e, G.axis e) :: G.axes dims) d = _
    rw [Dict.get?_cons]
    by_cases he : e = d
    · subst he; simp
    · rw [if_neg he]
      exact get?_axes G ((List.mem_cons.1 hd).resolve_left (fun h => he h.symm))

theorem grid_none {G : Grid κ (AnyAxis ℝ)} {dims : List κ} {u ur : List Term} {g R : (κ → Nat) → ℝ}
    {a : Arr κ (AnyAxis ℝ) ℝ} (h : OnGrid G dims u g (.array a)) (hw : ∀ d ∈ dims, WholeAxis (G.axis d))
    (hf : G.Fits dims) {S : Setting κ} (ht : S.time ∈ dims) (hs : S.shell ∈ dims)
    (hr : OnGrid G [S.time, S.shell] ur R (.array S.grid)) (st : Cache ℝ) (parsed : List (κ × Assumption))
    (hp : Dict.get? parsed S.radius = none) : gridInterpolant S st a parsed = (st, .ok []) := by
  obtain ⟨r, H, k1, _, _⟩ := subscript_all hr (fun d hd => by
    rcases List.mem_cons.1 hd with rfl | hd
    · exact hf _ ht
    · rw [List.mem_singleton.1 hd]; exact hf _ hs) (by simp)
  obtain ⟨hn, c, hc, hpl, hd, hsh, haxs, hu, hg⟩ := h
  cases hc
  have hget : ∀ d ∈ dims, Dict.get? a.axes d = some (G.axis d) := fun d hd => by
    rw [haxs]; exact get?_axes G hd
  unfold gridInterpolant
  rw [hget _ ht, hget _ hs]
  simp only [(hw _ ht).indices, (hw _ hs).indices, hf _ ht, hf _ hs]
  simp only [List.map_cons, List.map_nil, allIndices] at k1
  simp only [k1, hp]

/-! ## Several interpolations -/

theorem map_one_mul (w : ND ℝ) : w.map (fun d => (1 : ℝ) * d) = w := by
  simp [ND.map]

/-- The interpolation along axes is done one after the other. -/
theorem interpolate_cons {radii : List κ} {shell radius : κ} {coordinates : List ℝ → List Term → AnyAxis ℝ}
    {x y : Arr κ (AnyAxis ℝ) ℝ} {i : Interpolant κ (AnyAxis ℝ)} (is : List (Interpolant κ (AnyAxis ℝ)))
    (h : interpolate radii shell radius coordinates x [i] = .ok (.array y)) (hk : y.axes.keys = x.axes.keys)
    (hn : x.axes.keys.Nodup) :
    interpolate radii shell radius coordinates x (i :: is) = interpolate radii shell radius coordinates y is := by
  unfold interpolate at h
  rw [if_neg (by simp)] at h
  cases hl : interpolateLoop radii shell radius coordinates x.axes.keys [i] x.arr.data.data x.axes with
  | error e => rw [hl] at h; cases h
  | ok p =>
    obtain ⟨w, axes⟩ := p
    rw [hl] at h
    have hy : y.arr.data.data = w ∧ y.axes = axes ∧ y.arr.unit = x.arr.unit := by
      simp only [newArray] at h
      cases hf : arrayFactory w axes.keys with
      | error e => rw [hf] at h; cases h
      | ok d =>
        rw [hf] at h
        cases h
        refine ⟨?_, rfl, rfl⟩
        unfold arrayFactory at hf
        split at hf
        · cases hf
          exact map_one_mul w
        · cases hf
    obtain ⟨h1, h2, h3⟩ := hy
    have hnew : newArray w x.arr.unit axes = .ok (.array y) := h
    have hstep : interpolateLoop radii shell radius coordinates x.axes.keys (i :: is) x.arr.data.data x.axes =
        interpolateLoop radii shell radius coordinates x.axes.keys is w axes := by
      rw [interpolateLoop] at hl ⊢
      cases hu : updateInterpolation x.axes.keys x.arr.data.data i.reference.arr.data.dims i.reference.arr.data.data i.targets with
      | error e => rw [hu] at hl; cases hl
      | ok ws =>
        rw [hu] at hl
        dsimp only at hl ⊢
        cases hr : (if i.dimension ∈ radii then Axes.replacePair x.axes shell radius (coordinates i.targets i.reference.arr.unit)
            else Axes.replace x.axes i.dimension (coordinates i.targets i.reference.arr.unit)) with
        | error e => rw [hr] at hl; cases hl
        | ok axes' =>
          rw [hr] at hl
          simp only [interpolateLoop] at hl
          cases hl
          rfl
    unfold interpolate
    rw [if_neg (by simp), hstep]
    by_cases he : is = []
    · subst he
      simp only [interpolateLoop, if_true]
      exact hnew
    · rw [if_neg he, h1, h2, h3, ← h2, hk]

theorem interpolate_reference {radii : List κ} {shell radius : κ} {coordinates : List ℝ → List Term → AnyAxis ℝ}
    {x r r' : Arr κ (AnyAxis ℝ) ℝ} {d : κ} {ts : List ℝ} (h : r.arr = r'.arr) :
    interpolate radii shell radius coordinates x [⟨d, r, ts⟩] = interpolate radii shell radius coordinates x [⟨d, r', ts⟩] := by
  simp only [interpolate, interpolateLoop, h, reduceCtorEq, if_false]

/-- Linear interpolation along any number of axes. -/
theorem interpolate_axes_then (radii : List κ) (shell radius : κ) {dims : List κ} {u : List Term} (value : κ → Nat → ℝ)
    (ts : κ → List ℝ) (ux : κ → List Term) (ref : κ → Arr κ (AnyAxis ℝ) ℝ) : ∀ (es : List κ), es.Nodup → (∀ e ∈ es, e ∈ dims ∧ e ∉ radii) →
    ∀ {G : Grid κ (AnyAxis ℝ)} {g : (κ → Nat) → ℝ} {a : Arr κ (AnyAxis ℝ) ℝ}, OnGrid G dims u g (.array a) →
    (∀ e ∈ es, Increasing (G.size e) (value e) ∧ ts e ≠ [] ∧ ∀ t ∈ ts e, value e 0 ≤ t ∧ t ≤ value e (G.size e - 1)) →
    (∀ e ∈ es, ∃ H : Grid κ (AnyAxis ℝ), H.size e = G.size e ∧
      OnGrid H [e] (ux e) (fun pos => value e (pos e)) (.array (ref e))) →
    ∃ r T h, (∀ is, interpolate radii shell radius newCoordinates a (es.map (fun e => ⟨e, ref e, ts e⟩) ++ is) =
        interpolate radii shell radius newCoordinates r is) ∧
      OnGrid T dims u h (.array r) ∧ (∀ d, d ∉ es → T.size d = G.size d ∧ T.axis d = G.axis d) ∧
      (∀ e ∈ es, T.size e = (ts e).length ∧ T.axis e = newCoordinates (ts e) (ux e)) ∧
      Polygons value ts dims es G.size g h
  | [], _, _, G, g, a, ha, _, _ => ⟨a, G, g, fun _ => rfl, ha, fun _ _ => ⟨rfl, rfl⟩, by simp, fun _ _ => rfl⟩
  | e :: es, hn, hes, G, g, a, ha, hv, hr => by
    obtain ⟨hed, her⟩ := hes e (by simp)
    obtain ⟨hinc, hts, hin⟩ := hv e (by simp)
    obtain ⟨H, hH, hR⟩ := hr e (by simp)
    have hT : 0 < (ts e).length := List.length_pos_of_ne_nil hts
    have hR' := OnGrid.reaxis (H := G) hR (by simpa using hH.symm)
    obtain ⟨r, h, k1, k2, k3⟩ := c57_axis (G := G) radii shell radius newCoordinates hed her ha hR'
      (fun pos i j hij hj => by simpa using hinc i j hij hj) (ts e) hT (fun t ht pos => by simpa using hin t ht)
    obtain ⟨y, rfl⟩ : ∃ z, r = .array z := by obtain ⟨_, c, hc, _⟩ := k2; exact ⟨c, hc⟩
    replace k1 := (interpolate_reference (r := ref e) (r' := ⟨(ref e).arr, G.axes [e]⟩) rfl).trans k1
    obtain ⟨hne, hnes⟩ := List.nodup_cons.1 hn
    have hsz : ∀ d, d ≠ e → (regrid G e (ts e).length hT (newCoordinates (ts e) (ux e))).size d = G.size d := fun d hd =>
      Function.update_of_ne hd _ _
    obtain ⟨r, T, h', m1, m2, m3, m4, m5⟩ := interpolate_axes_then radii shell radius value ts ux ref es hnes
      (fun d hd => hes d (by simp [hd])) k2
      (fun d hd => by
        have hde : d ≠ e := fun h => hne (h ▸ hd)
        rw [hsz d hde]; exact hv d (by simp [hd]))
      (fun d hd => by
        have hde : d ≠ e := fun h => hne (h ▸ hd)
        rw [hsz d hde]; exact hr d (by simp [hd]))
    have hkeys : ∀ {G : Grid κ (AnyAxis ℝ)} {h : (κ → Nat) → ℝ} {c : Arr κ (AnyAxis ℝ) ℝ}, OnGrid G dims u h (.array c) →
        c.axes.keys = dims := fun h => by
      obtain ⟨_, _, hc, _, _, _, haxs, _, _⟩ := h
      cases hc
      rw [haxs, keys_axes]
    refine ⟨r, T, h', ?_, m2, fun d hd => ?_, fun d hd => ?_, h, fun pos hpos t ht => ?_, m5⟩
    · intro is
      rw [List.map_cons, List.cons_append, interpolate_cons _ k1 (by rw [hkeys k2, hkeys ha]) (by rw [hkeys ha]; exact ha.nodup)]
      exact m1 is
    · simp only [List.mem_cons, not_or] at hd
      obtain ⟨q1, q2⟩ := m3 d hd.2
      exact ⟨q1.trans (hsz d hd.1), q2.trans (Function.update_of_ne hd.1 _ _)⟩
    · rcases List.mem_cons.1 hd with rfl | hd
      · obtain ⟨q1, q2⟩ := m3 d hne
        exact ⟨q1.trans (Function.update_self ..), q2.trans (Function.update_self ..)⟩
      · exact m4 d hd
    · have := k3 pos hpos t ht
      simpa using this

/-- The same for nothing else. -/
theorem interpolate_axes (radii : List κ) (shell radius : κ) {dims : List κ} {u : List Term} (value : κ → Nat → ℝ)
    (ts : κ → List ℝ) (ux : κ → List Term) (ref : κ → Arr κ (AnyAxis ℝ) ℝ) : ∀ (es : List κ), es.Nodup → (∀ e ∈ es, e ∈ dims ∧ e ∉ radii) →
    ∀ {G : Grid κ (AnyAxis ℝ)} {g : (κ → Nat) → ℝ} {a : Arr κ (AnyAxis ℝ) ℝ}, OnGrid G dims u g (.array a) →
    (∀ e ∈ es, Increasing (G.size e) (value e) ∧ ts e ≠ [] ∧ ∀ t ∈ ts e, value e 0 ≤ t ∧ t ≤ value e (G.size e - 1)) →
    (∀ e ∈ es, ∃ H : Grid κ (AnyAxis ℝ), H.size e = G.size e ∧
      OnGrid H [e] (ux e) (fun pos => value e (pos e)) (.array (ref e))) →
    ∃ r T h, interpolate radii shell radius newCoordinates a (es.map (fun e => ⟨e, ref e, ts e⟩)) = .ok (.array r) ∧
      OnGrid T dims u h (.array r) ∧ (∀ d, d ∉ es → T.size d = G.size d ∧ T.axis d = G.axis d) ∧
      (∀ e ∈ es, T.size e = (ts e).length ∧ T.axis e = newCoordinates (ts e) (ux e)) ∧
      Polygons value ts dims es G.size g h := by
  intro es hn hes G g a ha hv hr
  obtain ⟨r, T, h, k1, k2⟩ := interpolate_axes_then radii shell radius value ts ux ref es hn hes ha hv hr
  refine ⟨r, T, h, ?_, k2⟩
  have := k1 []
  rw [List.append_nil] at this
  exact this.trans rfl

/-! ## Requests with values that are not on their axes -/

theorem compute_off {data : List ℝ} {t : ℝ} (hne : data ≠ []) (h : OffValues data t) :
    Axis.computeIndex data .none t = .error .value := by
  rcases h with h | h
  · exact Axis.c38_compute_missing data t h
  · have ht : t ∉ data := fun hm => by
      rcases h with h | h <;> exact absurd (h t hm) (lt_irrefl t)
    have hc : Axis.isclose data t = .ok false := by
      unfold Axis.isclose
      rw [if_neg ht, if_neg hne, if_pos]
      simp only [Bool.or_eq_true, List.all_eq_true, decide_eq_true_eq]
      exact h
    simp only [Axis.computeIndex, hc]

theorem restrict_ok (l ts : List ℝ) (h : ts ≠ []) : ∃ r, restrict l ts = .ok r := by
  obtain ⟨lo, hi, h0, _⟩ := restrictLoop_spec (bs := ts.map (find1d l)) (by simpa using h)
  exact ⟨indexRange lo hi, by simp only [restrict, h0]⟩

theorem compute_cases (data : List ℝ) (t : ℝ) (hne : data ≠ []) :
    (∃ i, Axis.computeIndex data .none t = .ok i) ∨ Axis.computeIndex data .none t = .error .value := by
  unfold Axis.computeIndex
  cases hc : Axis.isclose data t with
  | error e =>
    exfalso
    unfold Axis.isclose at hc
    split at hc
    · cases hc
    · split at hc <;> cases hc
  | ok b => cases b with
    | false => exact .inr rfl
    | true =>
      obtain ⟨i, v, h1, _⟩ := Axis.nearestIndex_none (t := t) hne
      exact .inl ⟨_, h1⟩

/-- The measurement that is kept for an argument. -/
def keptOf : UserArg → Assumption
  | .measured l u => (l, u)
  | _ => ([], noUnit)

/-- The argument is not on the axis, whatever was converted before. -/
theorem parse_off (toInt : Name → Option ℤ) (nodes : List Name) (systems : List System) (φ : Name → ℚ)
    (hφ : TableSizes φ) (rs : List (Name × Name)) {axis : AnyAxis ℝ} {v : UserArg} {ts : List ℝ}
    (h : NotOn (AxisFactor nodes φ) axis ts v) (hd : axisData axis ≠ []) :
    (∃ rs', parseUserArg toInt (realConv nodes systems) (afterRequests (realConv nodes systems) [] rs) axis v =
      (afterRequests (realConv nodes systems) [] rs', .error (.look .value))) ∧
    offAxis axis v (.look .value) = some (keptOf v) := by
  obtain ⟨vs, u, x, ux, f, rfl, rfl, hf, rfl, t, ht, hoff⟩ := h
  refine ⟨?_, rfl⟩
  have hvs : vs ≠ [] := by rintro rfl; simp at ht
  obtain ⟨rs', h1⟩ := index_eq' nodes systems φ hφ rs x vs hvs ux u f hf .none
  have hne : x.data ≠ [] := hd
  have h2 := Axis.collect_error (f := Axis.computeIndex x.data .none) (e := .value) (l := vs.map (fun v => v * f))
    (fun t _ => compute_cases x.data t hne) ⟨t, ht, compute_off hne hoff⟩
  rw [h2] at h1
  exact ⟨rs', by simp only [parseUserArg, h1]⟩

theorem loop_mixed {S : Setting κ} {nodes : List Name} {systems : List System} (hc : S.conv = realConv nodes systems)
    (φ : Name → ℚ) (hφ : TableSizes φ) (off : List κ) (ts : κ → List ℝ) (ls : κ → List Nat) :
    ∀ (args : List (κ × UserArg)), (args.map Prod.fst).Nodup →
    (∀ p ∈ args, p.1 ∉ off → Parses S.toInt nodes systems (S.axes p.1) (ls p.1) p.2) →
    (∀ p ∈ args, p.1 ∈ off → NotOn (AxisFactor nodes φ) (S.axes p.1) (ts p.1) p.2 ∧ axisData (S.axes p.1) ≠ []) → ∀ (rs : List (Name × Name)) (r : Request κ),
    ∃ rs' idx, implementLoop S (afterRequests S.conv [] rs) r args = (afterRequests S.conv [] rs',
        .ok ⟨idx, r.parsed ++ (args.filter (fun p => p.1 ∈ off)).map (fun p => (p.1, keptOf p.2))⟩) ∧
      (∀ k, k ∉ args.map Prod.fst → idx k = r.indexed k) ∧
      (∀ p ∈ args, p.1 ∉ off → ∃ a, idx p.1 = some a ∧ ObservedPositions (S.axes p.1).length (some a) (ls p.1))
  | [], _, _, _, rs, r => ⟨rs, r.indexed, by simp [implementLoop], fun _ _ => rfl, by simp⟩
  | (k, v) :: args, hn, h, hb, rs, r => by
    simp only [List.map_cons, List.nodup_cons] at hn
    by_cases ho : k ∈ off
    · obtain ⟨⟨rs₁, h1⟩, h2⟩ := parse_off S.toInt nodes systems φ hφ rs (hb (k, v) (by simp) ho).1
        (hb (k, v) (by simp) ho).2
      rw [← hc] at h1
      obtain ⟨rs', idx, e1, e2, e3⟩ := loop_mixed hc φ hφ off ts ls args hn.2 (fun p hp => h p (by simp [hp]))
        (fun p hp => hb p (by simp [hp])) rs₁ (r.assume k (.seq .other (anyIndices (S.axes k))) (keptOf v))
      refine ⟨rs', idx, ?_, fun j hj => ?_, fun p hp hpo => ?_⟩
      · simp only [implementLoop, h1, h2]
        rw [e1]
        simp [Request.assume, ho]
      · simp only [List.map_cons, List.mem_cons, not_or] at hj
        rw [e2 j hj.2]
        simp [Request.assume, Function.update_of_ne hj.1]
      · rcases List.mem_cons.1 hp with rfl | hp
        · exact absurd ho hpo
        · exact e3 p hp hpo
    · obtain ⟨rs₁, a, h1, h2⟩ := h (k, v) (by simp) ho rs
      rw [← hc] at h1
      obtain ⟨rs', idx, e1, e2, e3⟩ := loop_mixed hc φ hφ off ts ls args hn.2 (fun p hp => h p (by simp [hp]))
        (fun p hp => hb p (by simp [hp])) rs₁ (r.setIndex k a)
      refine ⟨rs', idx, ?_, fun j hj => ?_, fun p hp hpo => ?_⟩
      · simp only [implementLoop, h1]
        rw [e1]
        simp [Request.setIndex, ho]
      · simp only [List.map_cons, List.mem_cons, not_or] at hj
        rw [e2 j hj.2]
        simp [Request.setIndex, Function.update_of_ne hj.1]
      · rcases List.mem_cons.1 hp with rfl | hp
        · exact ⟨a, by rw [e2 k hn.1]; simp [Request.setIndex], h2⟩
        · exact e3 p hp hpo

theorem inUnit_factor {nodes : List Name} {systems : List System} (φ : Name → ℚ) (hφ : TableSizes φ)
    (rs : List (Name × Name)) (l : List ℝ) {ux u : List Term} {f : ℝ} (hf : UnitFactor nodes φ ux u f) :
    ∃ rs', inUnit (realConv nodes systems) (afterRequests (realConv nodes systems) [] rs) (l, u) ux =
      (afterRequests (realConv nodes systems) [] rs', .ok (l.map (fun v => v * f))) := by
  obtain ⟨rs', y, h1, h2⟩ := inOtherUnit nodes systems φ hφ rs l ux u f hf
  exact ⟨rs', by simp only [inUnit, h1, h2]⟩

theorem inside_sorted {l ts : List ℝ} (hs : l.Pairwise (· < ·)) (h : ∀ t ∈ ts, InsideOf l t) :
    Inside l ts := by
  intro t ht
  obtain ⟨⟨lo, hlo, h1⟩, hi, hhi, h2⟩ := h t ht
  have hne := List.ne_nil_of_mem hlo
  refine ⟨⟨l.head hne, by simp [List.head?_eq_some_head hne], ?_⟩, l.getLast hne, by simp [List.getLast?_eq_some_getLast hne], ?_⟩
  · obtain ⟨i, hi', rfl⟩ := List.getElem_of_mem hlo
    rw [List.head_eq_getElem]
    rcases Nat.eq_zero_or_pos i with rfl | h0
    · exact h1.le
    · exact ((List.pairwise_iff_getElem.1 hs 0 i (by omega) hi' h0).trans h1).le
  · obtain ⟨i, hi', rfl⟩ := List.getElem_of_mem hhi
    rw [List.getLast_eq_getElem]
    rcases Nat.lt_or_ge i (l.length - 1) with h0 | h0
    · exact (h2.trans (List.pairwise_iff_getElem.1 hs i (l.length - 1) hi' (by omega) h0)).le
    · have : i = l.length - 1 := by omega
      subst this
      exact h2.le

theorem restrict_off {S : Setting κ} {nodes : List Name} {systems : List System} (hc : S.conv = realConv nodes systems)
    (φ : Name → ℚ) (hφ : TableSizes φ) (ts : κ → List ℝ) : ∀ (args : List (κ × UserArg)),
    (∀ p ∈ args, p.1 ≠ S.shell ∧ p.1 ≠ S.radius ∧ NotOn (UnitFactor nodes φ) (S.axes p.1) (ts p.1) p.2) →
    ∀ (rs : List (Name × Name)) (idx : κ → Option Arg),
    ∃ rs' idx', restrictLoop' S (afterRequests S.conv [] rs) idx (args.map (fun p => (p.1, keptOf p.2))) =
      (afterRequests S.conv [] rs', .ok idx') ∧ ∀ k, k ∉ args.map Prod.fst → idx' k = idx k
  | [], _, rs, idx => ⟨rs, idx, rfl, fun _ _ => rfl⟩
  | (k, v) :: args, h, rs, idx => by
    obtain ⟨h1, h2, vs, u, x, ux, f, hv, hax, hf, hts, t, ht, hoff⟩ := h (k, v) (by simp)
    simp only at h1 h2 hv hax hts
    subst hv
    obtain ⟨rs₁, e1⟩ := inUnit_factor (systems := systems) φ hφ rs vs hf
    rw [← hc, ← hts] at e1
    obtain ⟨l, e2⟩ := restrict_ok x.data (ts k) (List.ne_nil_of_mem ht)
    obtain ⟨rs', idx', e3, e4⟩ := restrict_off hc φ hφ ts args (fun p hp => h p (by simp [hp])) rs₁
      (Function.update idx k (some (.seq .other (l.map (fun i : Nat => (i : ℤ))))))
    refine ⟨rs', idx', ?_, fun j hj => ?_⟩
    · simp only [List.map_cons, restrictLoop', if_neg h1, if_neg h2, hax, keptOf, e1, e2]
      exact e3
    · simp only [List.map_cons, List.mem_cons, not_or] at hj
      rw [e4 j hj.2, Function.update_of_ne hj.1]

theorem NotOn.loose {nodes : List Name} {φ : Name → ℚ} {axis : AnyAxis ℝ} {ts : List ℝ} {v : UserArg}
    (h : NotOn (UnitFactor nodes φ) axis ts v) : NotOn (AxisFactor nodes φ) axis ts v := by
  obtain ⟨vs, u, x, ux, f, h1, h2, h3, h4⟩ := h
  exact ⟨vs, u, x, ux, f, h1, h2, .inl h3, h4⟩

/-- One argument for each of these dimensions. -/
theorem request_mixed {S : Setting κ} {nodes : List Name} {systems : List System} (hc : S.conv = realConv nodes systems)
    (φ : Name → ℚ) (hφ : TableSizes φ) (rs : List (Name × Name)) (dims : List κ) (hn : dims.Nodup) (off : List κ)
    (args : κ → UserArg) (ts : κ → List ℝ) (ls : κ → List Nat)
    (ho : ∀ d ∈ off, d ∈ dims ∧ d ≠ S.shell ∧ d ≠ S.radius ∧ NotOn (UnitFactor nodes φ) (S.axes d) (ts d) (args d) ∧ axisData (S.axes d) ≠ [])
    (h1 : ∀ d ∈ dims, d ≠ S.shell → d ∉ off → Parses S.toInt nodes systems (S.axes d) (ls d) (args d))
    (h2 : S.shell ∈ dims → ParsesShells (κ := κ) (S.axes S.shell) (ls S.shell) (args S.shell)) :
    ∃ rs' idx, makeRequest S (afterRequests S.conv [] rs) (argsOf dims args) =
      (afterRequests S.conv [] rs', .ok ⟨idx, (dims.filter (fun d => d ∈ off)).map (fun d => (d, keptOf (args d)))⟩) ∧
      ∀ d ∈ dims, d ∉ off → ObservedPositions (S.axes d).length (idx d) (ls d) := by
  obtain ⟨rs₁, idx, e1, e2, e3⟩ := loop_mixed hc φ hφ off ts ls (argsOf (dims.filter (fun d => d ≠ S.shell)) args)
    (by rw [argsOf_keys]; exact hn.filter _) (fun p hp hpo => by
      obtain ⟨d, hd, rfl⟩ := List.mem_map.1 hp
      obtain ⟨hd, hs⟩ := List.mem_filter.1 hd
      exact h1 d hd (by simpa using hs) hpo) (fun p hp hpo => by
      obtain ⟨d, hd, rfl⟩ := List.mem_map.1 hp
      exact ⟨(ho d hpo).2.2.2.1.loose, (ho d hpo).2.2.2.2⟩) rs ⟨fun _ => none, []⟩
  have hp : ((argsOf (dims.filter (fun d => d ≠ S.shell)) args).filter (fun p => p.1 ∈ off)).map (fun p => (p.1, keptOf p.2)) =
      (argsOf (dims.filter (fun d => d ∈ off)) args).map (fun p => (p.1, keptOf p.2)) := by
    unfold argsOf
    rw [List.filter_map, List.filter_filter]
    congr 2
    refine List.filter_congr (fun d hd => ?_)
    by_cases hdo : d ∈ off
    · have := (ho d hdo).2.1
      simp [hdo, this]
    · simp [hdo]
  have hp2 : (argsOf (dims.filter (fun d => d ∈ off)) args).map (fun p => (p.1, keptOf p.2)) =
      (dims.filter (fun d => d ∈ off)).map (fun d => (d, keptOf (args d))) := by
    simp [argsOf]
  rw [List.nil_append, hp] at e1
  have hb : ∀ p ∈ argsOf (dims.filter (fun d => d ∈ off)) args,
      p.1 ≠ S.shell ∧ p.1 ≠ S.radius ∧ NotOn (UnitFactor nodes φ) (S.axes p.1) (ts p.1) p.2 := fun p hp => by
    obtain ⟨d, hd, rfl⟩ := List.mem_map.1 hp
    have := (ho d (by simpa using (List.mem_filter.1 hd).2)).2
    exact ⟨this.1, this.2.1, this.2.2.1⟩
  have e3' : ∀ d ∈ dims, d ≠ S.shell → d ∉ off → ObservedPositions (S.axes d).length (idx d) (ls d) := fun d hd hs hdo => by
    obtain ⟨a, ha, hp⟩ := e3 (d, args d) (List.mem_map.2 ⟨d, List.mem_filter.2 ⟨hd, by simpa using hs⟩, rfl⟩) hdo
    rw [ha]; exact hp
  have hoff : ∀ d, d ∉ off → d ∉ (argsOf (dims.filter (fun d => d ∈ off)) args).map Prod.fst := fun d hd => by
    rw [argsOf_keys]
    simp [hd]
  by_cases hs : S.shell ∈ dims
  · obtain ⟨s, a, k1, k2, k3⟩ := h2 hs
    obtain ⟨rs', idx', f1, f2⟩ := restrict_off hc φ hφ ts _ hb rs₁ (Function.update idx S.shell (some a))
    refine ⟨rs', idx', ?_, fun d hd hdo => ?_⟩
    · unfold makeRequest
      rw [argsOf_get, if_pos hs, argsOf_filter, e1]
      simp only [k1, Except.map, k2, Request.setIndex, f1]
      rw [hp2]
    · rw [f2 d (hoff d hdo)]
      by_cases h : d = S.shell
      · subst h; rw [Function.update_self]; exact k3
      · rw [Function.update_of_ne h]; exact e3' d hd h hdo
  · obtain ⟨rs', idx', f1, f2⟩ := restrict_off hc φ hφ ts _ hb rs₁ idx
    refine ⟨rs', idx', ?_, fun d hd hdo => ?_⟩
    · unfold makeRequest
      rw [argsOf_get, if_neg hs, argsOf_filter, e1]
      simp only [f1]
      rw [hp2]
    · rw [f2 d (hoff d hdo)]
      exact e3' d hd (fun h => hs (h ▸ hd)) hdo

/-! ## The interpolants -/

theorem OnGrid.congr_inside {G : Grid κ (AnyAxis ℝ)} {dims : List κ} {u : List Term} {g h : (κ → Nat) → ℝ}
    {a : Operand κ (AnyAxis ℝ) ℝ} (ha : OnGrid G dims u g a) (hg : ∀ pos, G.Inside dims pos → g pos = h pos) :
    OnGrid G dims u h a := by
  obtain ⟨hn, c, hc, hpl, hd, hsh, haxs, hu, he⟩ := ha
  exact ⟨hn, c, hc, hpl, hd, hsh, haxs, hu, fun pos hp => (he pos hp).trans (hg pos hp)⟩

/-- The array of the coordinates of one axis, with all of its indices. -/
theorem reference_all {G : Grid κ (AnyAxis ℝ)} {e : κ} {u : List Term} {value : Nat → ℝ} {a : Arr κ (AnyAxis ℝ) ℝ}
    (h : OnGrid G [e] u (fun pos => value (pos e)) (.array a)) (hf : G.Fits [e]) :
    ∃ r, a.getItem AnyAxis.getItem (.one (.seq .other (allIndices (G.size e)))) = .ok (.array r) ∧
      ∃ H : Grid κ (AnyAxis ℝ), H.size e = G.size e ∧ OnGrid H [e] u (fun pos => value (pos e)) (.array r) := by
  obtain ⟨r, H, h1, h2, h3⟩ := subscript_all h hf (by simp)
  have hnd : a.arr.raw.data.ndim = 1 := by
    obtain ⟨_, c, hc, _, _, hsh, _⟩ := h
    cases hc
    rw [ND.ndim, hsh]; rfl
  refine ⟨r, ?_, H, h2 e (by simp), h3.congr_inside (fun pos hp => ?_)⟩
  · rw [c87_single _ _ _ (by omega) (by rintro l ⟨⟩) (by rintro ⟨⟩), hnd]
    exact h1
  · rw [whole_range (G := G) (dims := [e]) (fun d hd => ?_) (by simp)]
    have := hp d hd
    rw [List.mem_singleton.1 hd] at this ⊢
    rw [h2 e (by simp)] at this
    exact this

theorem getItem_all {α : Type} (x : Axis.Axis α) : ∃ y, x.getItem (.seq .other (allIndices x.data.length)) = .ok y ∧
    y.data = x.data := by
  obtain ⟨y, h1, h2⟩ := getItem_axis (x := x) (allIndices_positions x.data.length)
  refine ⟨y, h1, ?_⟩
  have hl : y.data.length = x.data.length := by rw [← h2.length_eq, List.length_range]
  apply List.ext_getElem? 
  intro i
  rcases Nat.lt_or_ge i x.data.length with hi | hi
  · have := h2.get (i := i) (by simpa using hi) (by omega)
    simp only [List.get_eq_getElem, List.getElem_range] at this
    rw [this, List.getElem?_eq_getElem (by omega)]
  · rw [List.getElem?_eq_none hi, List.getElem?_eq_none (by omega)]

theorem parsed_get {dims off : List κ} (args : κ → UserArg) (d : κ) :
    Dict.get? ((dims.filter (fun d => d ∈ off)).map (fun d => (d, keptOf (args d)))) d =
      if d ∈ dims ∧ d ∈ off then some (keptOf (args d)) else none := by
  have : ∀ l : List κ, Dict.get? (l.map (fun d => (d, keptOf (args d)))) d = if d ∈ l then some (keptOf (args d)) else none := by
    intro l
    induction l with
    | nil => rfl
    | cons e l ih =>
      rw [List.map_cons, Dict.get?_cons]
      by_cases h : e = d
      · subst h; simp
      · rw [if_neg h, ih]
        have : d ≠ e := fun h' => h h'.symm
        simp [this]
  rw [this]
  simp [List.mem_filter]

theorem inside_all {l ts : List ℝ} (h : ∀ t ∈ ts, InsideOf l t) :
    ts.all (strictlyInside l) = true := by
  rw [List.all_eq_true]
  intro t ht
  obtain ⟨⟨lo, hlo, h1⟩, hi, hhi, h2⟩ := h t ht
  simp only [strictlyInside, Bool.and_eq_true, List.any_eq_true, decide_eq_true_eq]
  exact ⟨⟨lo, hlo, h1⟩, hi, hhi, h2⟩

theorem interpolants_between {G : Grid κ (AnyAxis ℝ)} {dims : List κ} {S : Setting κ} {nodes : List Name}
    {systems : List System} (hc : S.conv = realConv nodes systems) (φ : Name → ℚ) (hφ : TableSizes φ)
    {a : Arr κ (AnyAxis ℝ) ℝ} (haxs : a.axes = G.axes dims) (hf : G.Fits dims) (hw : ∀ d ∈ dims, WholeAxis (G.axis d))
    (ha : ∀ d ∈ dims, S.axes d = G.axis d) (off : List κ) (args : κ → UserArg) (ts : κ → List ℝ)
    (ho : ∀ d ∈ off, d ∈ dims ∧ NotOn (UnitFactor nodes φ) (G.axis d) (ts d) (args d) ∧ ∀ t ∈ ts d, InsideOf (axisData (G.axis d)) t) (ref : κ → Arr κ (AnyAxis ℝ) ℝ)
    (hr : ∀ e ∈ off, (S.refs e).getItem AnyAxis.getItem (.one (.seq .other (allIndices (G.size e)))) = .ok (.array (ref e))) :
    ∀ (keys : List κ) (rs : List (Name × Name)), ∃ rs',
      axisInterpolants S a ((dims.filter (fun d => d ∈ off)).map (fun d => (d, keptOf (args d)))) (afterRequests S.conv [] rs)
        keys = (afterRequests S.conv [] rs', .ok ((keys.filter (fun d => d ∈ off)).map (fun e => ⟨e, ref e, ts e⟩)))
  | [], rs => ⟨rs, rfl⟩
  | k :: keys, rs => by
    by_cases hk : k ∈ off
    · obtain ⟨hd, ⟨vs, u, x, ux, f, hv, hax, hu, hts, _⟩, hin⟩ := ho k hk
      rw [hax] at hin
      obtain ⟨rs₁, e1⟩ := inUnit_factor (systems := systems) φ hφ rs vs hu
      rw [← hc, ← hts] at e1
      obtain ⟨rs', e2⟩ := interpolants_between hc φ hφ haxs hf hw ha off args ts ho ref hr keys rs₁
      obtain ⟨y, e3, e4⟩ := getItem_all x
      have hl : x.data.length = G.size k := by
        have := hf k hd
        rw [hax] at this
        exact this
      rw [hl] at e3
      have e5 : axisInterpolant S.conv (afterRequests S.conv [] rs) (S.axes k) (S.refs k) (anyIndices (G.axis k)) k (keptOf (args k)) =
          (afterRequests S.conv [] rs₁, .ok (some ⟨k, ref k, ts k⟩)) := by
        rw [(hw k hd).indices, hf k hd, ha k hd, hax, hv]
        have hr' := hr k hk
        simp only [allIndices] at e3 hr'
        simp only [axisInterpolant, keptOf, e1, e3, e4, inside_all (l := x.data) hin, if_true, hr']
      refine ⟨rs', ?_⟩
      simp only [axisInterpolants, parsed_get, haxs, get?_axes G hd, if_pos (And.intro hd hk), e5]
      rw [e2]
      simp [hk]
    · obtain ⟨rs', e2⟩ := interpolants_between hc φ hφ haxs hf hw ha off args ts ho ref hr keys rs
      refine ⟨rs', ?_⟩
      simp only [axisInterpolants, parsed_get, if_neg (fun h : k ∈ dims ∧ k ∈ off => hk h.2)]
      rw [e2]
      simp [hk]

/-! ## C94 -/

theorem keys_grid {G : Grid κ (AnyAxis ℝ)} {dims : List κ} {u : List Term} {h : (κ → Nat) → ℝ} {c : Arr κ (AnyAxis ℝ) ℝ}
    (hc : OnGrid G dims u h (.array c)) : c.axes = G.axes dims ∧ c.axes.keys = dims := by
  obtain ⟨_, _, hc, _, _, _, haxs, _, _⟩ := hc
  cases hc
  exact ⟨haxs, by rw [haxs, keys_axes]⟩

/-- The coordinates of the dataset, as arrays: `refs d` holds the values of the axis of `d`, and the array of radii has the
dimensions time and shell. -/
structure GridArrays (S : Setting κ) (G : Grid κ (AnyAxis ℝ)) (dims off : List κ) (ur : List Term) (R : (κ → Nat) → ℝ) : Prop where
  keys : S.keys.Nodup
  radius : S.radius ∉ dims
  refs : ∀ d ∈ off, d ∈ S.keys ∧
    OnGrid G [d] (axisUnit (G.axis d)) (fun pos => axisValue (G.axis d) (pos d)) (.array (S.refs d))
  time : S.shell ∈ dims → S.time ∈ dims
  radii : S.shell ∈ dims → OnGrid G [S.time, S.shell] ur R (.array S.grid)

/-- **C94**: the subscription of a stored quantity by values strictly between those of one or more of its axes — in any unit
that can be converted to that of the axis, in any order, also together with values on the axis — interpolates the quantity
linearly along these axes, one after the other, and selects the positions given for the other dimensions.  The new axes have
the given values, in the units of the old axes. -/
theorem c94_interpolated {G : Grid κ (AnyAxis ℝ)} {dims : List κ} {u ur : List Term} {g R : (κ → Nat) → ℝ}
    {a : Arr κ (AnyAxis ℝ) ℝ} (h : OnGrid G dims u g (.array a)) (hf : G.Fits dims)
    (hw : ∀ d ∈ dims, WholeAxis (G.axis d)) (nodes : List Name) (systems : List System) (φ : Name → ℚ) (hφ : TableSizes φ)
    (S : Setting κ) (hc : S.conv = realConv nodes systems) (ha : ∀ d ∈ dims, S.axes d = G.axis d)
    (rs : List (Name × Name)) (args : κ → UserArg) (off : List κ) (hoff : off ≠ []) (hS : GridArrays S G dims off ur R)
    (ts : κ → List ℝ) (ls : κ → List Nat)
    (ho : ∀ d ∈ off, d ∈ dims ∧ d ≠ S.shell ∧ NotOn (UnitFactor nodes φ) (G.axis d) (ts d) (args d) ∧ ls d = List.range (ts d).length)
    (hi : ∀ d ∈ off, (axisData (G.axis d)).Pairwise (· < ·) ∧ ∀ t ∈ ts d, InsideOf (axisData (G.axis d)) t)
    (h1 : ∀ d ∈ dims, d ≠ S.shell → d ∉ off → Chooses S.toInt nodes φ (G.axis d) (ls d) (args d))
    (h2 : S.shell ∈ dims → ChoosesShells (G.axis S.shell) (ls S.shell) (args S.shell)) :
    ∃ (rs' : List (Name × Name)) (r : Operand κ (AnyAxis ℝ) ℝ) (T H : Grid κ (AnyAxis ℝ)) (f : (κ → Nat) → ℝ),
      observeStored S (afterRequests S.conv [] rs) a (argsOf dims args) = (afterRequests S.conv [] rs', .ok r) ∧
      (∀ d, d ∉ off → T.size d = G.size d ∧ T.axis d = G.axis d) ∧
      (∀ d ∈ off, T.size d = (ts d).length ∧ T.axis d = .coordinates ⟨ts d, none⟩ (axisUnit (G.axis d))) ∧
      Polygons (fun d => axisValue (G.axis d)) ts dims (S.keys.filter (fun d => d ∈ off)) G.size g f ∧
      T.Part dims ls H ∧ H.Fits dims ∧ OnGrid H dims u (fun pos => f (whole ls pos)) r := by
  have h0 : dims ≠ [] := by
    obtain ⟨d, hd⟩ := List.exists_mem_of_ne_nil _ hoff
    exact List.ne_nil_of_mem (ho d hd).1
  have hdata : ∀ d ∈ off, axisData (G.axis d) ≠ [] := fun d hd => by
    obtain ⟨_, _, ⟨vs, v, x, ux, fc, _, _, _, _, t, ht, _⟩, _⟩ := ho d hd
    obtain ⟨⟨lo, hlo, _⟩, _⟩ := (hi d hd).2 t ht
    exact List.ne_nil_of_mem hlo
  obtain ⟨rs₁, idx, e1, e2⟩ := request_mixed hc φ hφ rs dims h.nodup off args ts ls
    (fun d hd => ⟨(ho d hd).1, (ho d hd).2.1, fun h => hS.radius (h ▸ (ho d hd).1), by
      rw [ha d (ho d hd).1]
      exact ⟨(ho d hd).2.2.1, hdata d hd⟩⟩)
    (fun d hd hs hdo => by
      rw [ha d hd]
      exact fun rs => parse_chooses S.toInt nodes systems φ hφ rs (hw d hd) (h1 d hd hs hdo))
    (fun hs => by rw [ha _ hs]; exact parse_shells (hw _ hs) (h2 hs))
  have hfit : ∀ d ∈ dims, G.Fits [d] := fun d hd e he => by rw [List.mem_singleton.1 he]; exact hf d hd
  have href : ∀ e, ∃ r, e ∈ off →
      (S.refs e).getItem AnyAxis.getItem (.one (.seq .other (allIndices (G.size e)))) = .ok (.array r) ∧
      ∃ H : Grid κ (AnyAxis ℝ), H.size e = G.size e ∧
        OnGrid H [e] (axisUnit (G.axis e)) (fun pos => axisValue (G.axis e) (pos e)) (.array r) := fun e => by
    by_cases he : e ∈ off
    · obtain ⟨r, hr⟩ := reference_all (hS.refs e he).2 (hfit e (ho e he).1)
      exact ⟨r, fun _ => hr⟩
    · exact ⟨a, fun h => absurd h he⟩
  choose ref href using href
  obtain ⟨rs₂, e3⟩ := interpolants_between hc φ hφ (keys_grid h).1 hf hw ha off args ts
    (fun d hd => ⟨(ho d hd).1, (ho d hd).2.2.1, (hi d hd).2⟩) ref (fun e he => (href e he).1) S.keys rs₁
  have hmem : ∀ e, e ∈ S.keys.filter (fun d => d ∈ off) ↔ e ∈ off := fun e => by
    rw [List.mem_filter]
    constructor
    · rintro ⟨_, h⟩; simpa using h
    · intro h; exact ⟨(hS.refs e h).1, by simpa using h⟩
  obtain ⟨b, T, f, k1, k2, k3, k4, k5⟩ := interpolate_axes [S.radius] S.shell S.radius
    (fun d => axisValue (G.axis d)) ts (fun d => axisUnit (G.axis d)) ref (S.keys.filter (fun d => d ∈ off))
    (hS.keys.filter _) (fun e he => by
      have he := (hmem e).1 he
      exact ⟨(ho e he).1, by
        rw [List.mem_singleton]
        exact fun h => hS.radius (h ▸ (ho e he).1)⟩) h
    (fun e he => by
      have he := (hmem e).1 he
      obtain ⟨hd, _, ⟨vs, v, x, ux, fc, _, hax, _, _, t, ht, _⟩, _⟩ := ho e he
      obtain ⟨hs, hin⟩ := hi e he
      rw [hax] at hs hin
      have hs : x.data.Pairwise (· < ·) := hs
      have hin : ∀ t ∈ ts e, InsideOf x.data t := hin
      have hl : x.data.length = G.size e := by
        have := hf e hd
        rw [hax] at this
        exact this
      have hval : ∀ i (hi : i < x.data.length), axisValue (G.axis e) i = x.data[i] := fun i hi => by
        rw [hax]
        simp [axisValue, axisData, List.getD_eq_getElem?_getD, hi]
      refine ⟨fun i j hij hj => ?_, List.ne_nil_of_mem ht, fun t ht => ?_⟩
      · rw [hval i (by omega), hval j (by omega)]
        exact List.pairwise_iff_getElem.1 hs i j (by omega) (by omega) hij
      · obtain ⟨⟨lo, hlo, q1⟩, hi, hhi, q2⟩ := inside_sorted hs hin t ht
        have hpos := G.pos e
        rw [hval 0 (by omega), hval (G.size e - 1) (by omega)]
        rw [List.head?_eq_getElem?, List.getElem?_eq_getElem (by omega)] at hlo
        rw [List.getLast?_eq_getElem?, List.getElem?_eq_getElem (by omega)] at hhi
        simp only [Option.mem_some_iff] at hlo hhi
        refine ⟨hlo ▸ q1, ?_⟩
        simp only [← hl]
        exact hhi ▸ q2)
    (fun e he => (href e ((hmem e).1 he)).2)
  have hTf : T.Fits dims := fun d hd => by
    by_cases hdo : d ∈ off
    · obtain ⟨q1, q2⟩ := k4 d ((hmem d).2 hdo)
      rw [q1, q2]; rfl
    · obtain ⟨q1, q2⟩ := k3 d (fun h => hdo ((hmem d).1 h))
      rw [q1, q2]; exact hf d hd
  have hfin : ∀ d, d ∈ ((S.keys.filter (fun d => d ∈ off)).map (fun e => (⟨e, ref e, ts e⟩ : Interpolant κ (AnyAxis ℝ)))).map
      (fun i => if i.dimension = S.radius then S.shell else i.dimension) ↔ d ∈ off := fun d => by
    rw [List.map_map, ← hmem d]
    have : (S.keys.filter (fun d => d ∈ off)).map ((fun i : Interpolant κ (AnyAxis ℝ) =>
        if i.dimension = S.radius then S.shell else i.dimension) ∘ (fun e => ⟨e, ref e, ts e⟩)) =
        (S.keys.filter (fun d => d ∈ off)).map id := List.map_congr_left (fun e he => by
      have : e ≠ S.radius := fun h => hS.radius (h ▸ (ho e ((hmem e).1 he)).1)
      simp [this])
    rw [this, List.map_id]
  obtain ⟨r, H, m1, m2, m3, m4⟩ := finish_grid k2 hTf h0
    (((S.keys.filter (fun d => d ∈ off)).map (fun e => (⟨e, ref e, ts e⟩ : Interpolant κ (AnyAxis ℝ)))).map
      (fun i => if i.dimension = S.radius then S.shell else i.dimension)) idx ls
    (fun d hd hdf => by
      have hdo := (hfin d).1 hdf
      rw [(k4 d ((hmem d).2 hdo)).1]
      exact (ho d hdo).2.2.2)
    (fun d hd hdf => by
      have hdo : d ∉ off := fun h => hdf ((hfin d).2 h)
      have := e2 d hd hdo
      rw [ha d hd, hf d hd] at this
      rw [(k3 d (fun h => hdo ((hmem d).1 h))).1]
      exact this)
  refine ⟨rs₂, r, T, H, f, ?_, fun d hd => k3 d (fun h => hd ((hmem d).1 h)), fun d hd => k4 d ((hmem d).2 hd), k5, m2, m3, m4⟩
  have hpne : (dims.filter (fun d => d ∈ off)).map (fun d => (d, keptOf (args d))) ≠ [] := by
    obtain ⟨d, hd⟩ := List.exists_mem_of_ne_nil _ hoff
    have : d ∈ dims.filter (fun d => d ∈ off) := List.mem_filter.2 ⟨(ho d hd).1, by simpa using hd⟩
    intro hm
    rw [List.map_eq_nil_iff] at hm
    rw [hm] at this
    cases this
  have hgrid : (if S.shell ∈ a.axes.keys then gridInterpolant S (afterRequests S.conv [] rs₂) a
      ((dims.filter (fun d => d ∈ off)).map (fun d => (d, keptOf (args d)))) else (afterRequests S.conv [] rs₂, .ok [])) =
      (afterRequests S.conv [] rs₂, .ok []) := by
    rw [(keys_grid h).2]
    by_cases hs : S.shell ∈ dims
    · rw [if_pos hs]
      refine grid_none h hw hf (hS.time hs) hs (hS.radii hs) _ _ ?_
      rw [parsed_get, if_neg (fun h => hS.radius h.1)]
    · rw [if_neg hs]
  simp only [observeStored, e1, observe, if_neg hpne, interpolateObserved, e3, hgrid, List.append_nil, k1, m1]

/-- Without interpolants there is nothing to do but to select. -/
theorem interpolated_none {G : Grid κ (AnyAxis ℝ)} {dims : List κ} {u ur : List Term} {g R : (κ → Nat) → ℝ}
    {a : Arr κ (AnyAxis ℝ) ℝ} (h : OnGrid G dims u g (.array a)) (hf : G.Fits dims) (hw : ∀ d ∈ dims, WholeAxis (G.axis d))
    {S : Setting κ} (hs : S.shell ∈ dims) (ht : S.time ∈ dims) (hr : OnGrid G [S.time, S.shell] ur R (.array S.grid))
    (hk : S.shell ∉ S.keys) (hsr : S.radius ≠ S.shell) (st : Cache ℝ) (idx : κ → Option Arg) (m : Assumption) (ls : κ → List Nat)
    (ho : ∀ d ∈ dims, ObservedPositions (G.size d) (idx d) (ls d)) :
    ∃ r H, interpolateObserved S st a ⟨idx, [(S.shell, m)]⟩ = (st, .ok r) ∧ G.Part dims ls H ∧ H.Fits dims ∧
      OnGrid H dims u (fun pos => g (whole ls pos)) r := by
  have e1 : ∀ keys : List κ, S.shell ∉ keys → axisInterpolants S a [(S.shell, m)] st keys = (st, .ok []) := by
    intro keys
    induction keys with
    | nil => intro _; rfl
    | cons k keys ih =>
      intro hk
      simp only [List.mem_cons, not_or] at hk
      have : Dict.get? [(S.shell, m)] k = none := by
        rw [Dict.get?_cons, if_neg hk.1]; rfl
      simp only [axisInterpolants, this]
      exact ih hk.2
  have e2 : gridInterpolant S st a [(S.shell, m)] = (st, .ok []) := by
    refine grid_none h hw hf ht hs hr st _ ?_
    rw [Dict.get?_cons, if_neg (fun h => hsr h.symm)]; rfl
  obtain ⟨r, H, k1, k2⟩ := finish_grid h hf (List.ne_nil_of_mem hs) [] idx ls (by simp) (fun d hd _ => ho d hd)
  refine ⟨r, H, ?_, k2⟩
  simp only [interpolateObserved, e1 S.keys hk, (keys_grid h).2, if_pos hs, e2, List.append_nil, interpolate, if_true, List.map_nil, k1]

/-- **C93** is violated by numbers of shells that do not exist: instead of an error, the user gets all shells. -/
theorem c93_not_shell {G : Grid κ (AnyAxis ℝ)} {dims : List κ} {u ur : List Term} {g R : (κ → Nat) → ℝ}
    {a : Arr κ (AnyAxis ℝ) ℝ} (h : OnGrid G dims u g (.array a)) (hf : G.Fits dims) (hw : ∀ d ∈ dims, WholeAxis (G.axis d))
    (nodes : List Name) (systems : List System) (φ : Name → ℚ) (hφ : TableSizes φ) (S : Setting κ)
    (hc : S.conv = realConv nodes systems) (ha : ∀ d ∈ dims, S.axes d = G.axis d) (hs : S.shell ∈ dims) (ht : S.time ∈ dims)
    (hr : OnGrid G [S.time, S.shell] ur R (.array S.grid)) (hk : S.shell ∉ S.keys) (hsr : S.radius ≠ S.shell)
    (rs : List (Name × Name)) (args : κ → UserArg) (ls : κ → List Nat)
    (h1 : ∀ d ∈ dims, d ≠ S.shell → Chooses S.toInt nodes φ (G.axis d) (ls d) (args d)) (i : ℤ) (hi : 0 ≤ i)
    (x : Axis.Axis ℤ) (hx : G.axis S.shell = .points x) (hix : i ∉ x.data) (h2 : args S.shell = .index i)
    (hls : ls S.shell = List.range (G.size S.shell)) :
    ∃ rs' r H, observeStored S (afterRequests S.conv [] rs) a (argsOf dims args) =
      (afterRequests S.conv [] rs', .ok r) ∧ G.Part dims ls H ∧ H.Fits dims ∧
      OnGrid H dims u (fun pos => g (whole ls pos)) r := by
  obtain ⟨rs', idx, e1, e2, e3⟩ := loop_parses hc ls (argsOf (dims.filter (fun d => d ≠ S.shell)) args)
    (by rw [argsOf_keys]; exact h.nodup.filter _) (fun p hp => by
      obtain ⟨d, hd, rfl⟩ := List.mem_map.1 hp
      obtain ⟨hd, hs⟩ := List.mem_filter.1 hd
      rw [ha d hd]
      exact fun rs => parse_chooses S.toInt nodes systems φ hφ rs (hw d hd) (h1 d hd (by simpa using hs))) rs ⟨fun _ => none, []⟩
  have e3' : ∀ d ∈ dims, d ≠ S.shell → ObservedPositions (G.size d) (idx d) (ls d) := fun d hd hs => by
    obtain ⟨b, hb, hp⟩ := e3 (d, args d) (List.mem_map.2 ⟨d, List.mem_filter.2 ⟨hd, by simpa using hs⟩, rfl⟩)
    rw [hb]
    rw [ha d hd, hf d hd] at hp
    exact hp
  have hmiss : x.indexPoints true (.iterable [i]) = .error .value := by
    simp [Axis.Axis.indexPoints, Axis.normalizeTargets, Axis.collect, Axis.pointIndex, hix]
  obtain ⟨r, H, k1, k2⟩ := interpolated_none h hf hw hs ht hr hk hsr (afterRequests S.conv [] rs')
    (Function.update idx S.shell (some (.seq .other (anyIndices (S.axes S.shell)))))
    ([(i : ℝ)], [⟨1, Symbolic.one, 1⟩]) ls (fun d hd => by
      by_cases hd' : d = S.shell
      · subst hd'
        rw [Function.update_self, ha _ hs, (hw _ hs).indices, hf _ hs, hls]
        exact sequence_positions (allIndices_ne (G.pos _)) (allIndices_positions _)
      · rw [Function.update_of_ne hd']; exact e3' d hd hd')
  refine ⟨rs', r, H, ?_, k2⟩
  have hreq : makeRequest S (afterRequests S.conv [] rs) (argsOf dims args) = (afterRequests S.conv [] rs',
      .ok ⟨Function.update idx S.shell (some (.seq .other (anyIndices (S.axes S.shell)))),
        [(S.shell, ([(i : ℝ)], [⟨1, Symbolic.one, 1⟩]))]⟩) := by
    have hsp : shellPoints [i] = .ok (.points [i]) := shellPoints_ok (by simpa using hi)
    unfold makeRequest
    rw [argsOf_get, if_pos hs, argsOf_filter, e1, h2]
    simp only [shellOrRadius, hsp, Except.map, implementShell, ha _ hs, hx, hmiss, Request.assume, List.nil_append, restrictLoop',
      if_true, List.map_cons, List.map_nil]
  simp only [observeStored, hreq, observe, reduceCtorEq, if_false, k1]

/-- **C93** is violated by slices that select nothing: instead of an empty array or an error, the user gets everything along
that dimension. -/
theorem c93_not_empty {G : Grid κ (AnyAxis ℝ)} {dims : List κ} {u : List Term} {g : (κ → Nat) → ℝ}
    {a : Arr κ (AnyAxis ℝ) ℝ} (h : OnGrid G dims u g (.array a)) (hf : G.Fits dims) (h0 : dims ≠ [])
    (hw : ∀ d ∈ dims, WholeAxis (G.axis d)) (nodes : List Name) (systems : List System) (φ : Name → ℚ) (hφ : TableSizes φ)
    (S : Setting κ) (hc : S.conv = realConv nodes systems) (ha : ∀ d ∈ dims, S.axes d = G.axis d)
    (rs : List (Name × Name)) (args : κ → UserArg) (ls : κ → List Nat)
    (h1 : ∀ d ∈ dims, (d ≠ S.shell ∧ Chooses S.toInt nodes φ (G.axis d) (ls d) (args d)) ∨
      (d = S.shell ∧ ChoosesShells (G.axis d) (ls d) (args d)) ∨
      ∃ b e s, args d = .slice b e s ∧ Positions (G.axis d).length (.slice b e s) [] ∧ ls d = List.range (G.size d)) :
    ∃ rs' r H, observeStored S (afterRequests S.conv [] rs) a (argsOf dims args) =
      (afterRequests S.conv [] rs', .ok r) ∧ G.Part dims ls H ∧ H.Fits dims ∧
      OnGrid H dims u (fun pos => g (whole ls pos)) r := by
  refine observed_of_request h hf h0 hc ha rs args ls (fun d hd hs rs => ?_) (fun hs => ?_)
  · rcases h1 d hd with ⟨_, h1⟩ | ⟨h1, _⟩ | ⟨b, e, s, h1, h2, h3⟩
    · exact parse_chooses S.toInt nodes systems φ hφ rs (hw d hd) h1
    · exact absurd h1 hs
    · refine ⟨rs, .seq .other [], ?_, by rw [hf d hd]; exact h3⟩
      rw [h1]
      simp only [parseUserArg, slice_index (hw d hd) h2, List.map_nil]
  · rcases h1 _ hs with ⟨h1, _⟩ | ⟨_, h1⟩ | ⟨b, e, s, h1, h2, h3⟩
    · exact absurd rfl h1
    · exact parse_shells (hw _ hs) h1
    · refine ⟨.slice b e s, .seq .other [], by rw [h1]; rfl, fun shell radius r => ?_, by rw [hf _ hs]; exact h3⟩
      simp only [implementShell, slice_index (hw _ hs) h2, List.map_nil]

/-- **C93** is violated by negative numbers of shells, which count from the end for all other dimensions: they raise a
`TypeError`. -/
theorem c93_not_negative (S : Setting κ) (st : Cache ℝ) (a : Arr κ (AnyAxis ℝ) ℝ) (dims : List κ) (args : κ → UserArg)
    (hs : S.shell ∈ dims) (i : ℤ) (hi : i < 0) (h : args S.shell = .index i) :
    observeStored S st a (argsOf dims args) = (st, .error (.look .type)) := by
  have hreq : makeRequest S st (argsOf dims args) = (st, .error (.look .type)) := by
    have hsp : shellPoints [i] = .error (.look .type) := by
      simp [shellPoints, Axis.pointsFactory, hi]
    unfold makeRequest
    rw [argsOf_get, if_pos hs, h]
    simp only [shellOrRadius, hsp, Except.map]
  simp only [observeStored, hreq, asPErr]

theorem truncate_map {l : List ℝ} {is : List ℤ} (h : List.Forall₂ WithoutFraction l is) : l.map truncate = is := by
  induction h with
  | nil => rfl
  | @cons x i l is hx _ ih =>
    rw [List.map_cons, ih]
    congr 1
    unfold truncate
    by_cases h0 : 0 ≤ x
    · rw [if_pos h0]
      exact Int.floor_eq_iff.2 (hx.1 h0)
    · rw [if_neg h0]
      obtain ⟨h1, h2⟩ := hx.2 (not_le.1 h0)
      exact Int.ceil_eq_iff.2 ⟨h2, h1⟩

/-- **C93** is violated by measurable arguments for the shells that are neither lengths nor numbers: their unit is ignored, and
they are read as numbers of shells, without their fractions. -/
theorem c93_not_unit (S : Setting κ) (st : Cache ℝ) (a : Arr κ (AnyAxis ℝ) ℝ) (dims : List κ) (args : κ → UserArg)
    (l : List ℝ) (u q : List Term) (hl : l ≠ []) (hu : Axis.isUnitless u = false) (hq : getQuantity u = .ok q)
    (hq' : exprEq q [⟨1, c! "length", 1⟩] = false) (h : args S.shell = .measured l u)
    (shells : List ℤ) (hsh : List.Forall₂ WithoutFraction l shells) :
    observeStored S st a (argsOf dims args) =
      observeStored S st a (argsOf dims (Function.update args S.shell (.indices shells))) := by
  rw [← truncate_map hsh]
  have hreq : makeRequest S st (argsOf dims args) =
      makeRequest S st (argsOf dims (Function.update args S.shell (.indices (l.map truncate)))) := by
    unfold makeRequest
    have hrest : (argsOf dims args).filter (fun p => p.1 ≠ S.shell) =
        (argsOf dims (Function.update args S.shell (.indices (l.map truncate)))).filter (fun p => p.1 ≠ S.shell) := by
      rw [argsOf_filter, argsOf_filter]
      refine List.map_congr_left (fun d hd => ?_)
      rw [Function.update_of_ne (by simpa using (List.mem_filter.1 hd).2)]
    rw [hrest, argsOf_get, argsOf_get, Function.update_self, h]
    by_cases hs : S.shell ∈ dims
    · have hml : l.map truncate ≠ [] := by simpa using hl
      simp only [if_pos hs, shellOrRadius, hu, hq, hq', if_neg hml]
      rfl
    · simp only [if_neg hs]
  simp only [observeStored, hreq]

/-! ## Values that are refused -/

theorem interpolants_refused {G : Grid κ (AnyAxis ℝ)} {dims : List κ} {S : Setting κ} {nodes : List Name}
    {systems : List System} (hc : S.conv = realConv nodes systems) (φ : Name → ℚ) (hφ : TableSizes φ)
    {a : Arr κ (AnyAxis ℝ) ℝ} (haxs : a.axes = G.axes dims) (hf : G.Fits dims) (hw : ∀ d ∈ dims, WholeAxis (G.axis d))
    (ha : ∀ d ∈ dims, S.axes d = G.axis d) (off : List κ) (args : κ → UserArg) (ts : κ → List ℝ)
    (ho : ∀ d ∈ off, d ∈ dims ∧ NotOn (UnitFactor nodes φ) (G.axis d) (ts d) (args d)) (ref : κ → Arr κ (AnyAxis ℝ) ℝ)
    (hr : ∀ e ∈ off, (S.refs e).getItem AnyAxis.getItem (.one (.seq .other (allIndices (G.size e)))) = .ok (.array (ref e)))
    {e : κ} (he : e ∈ off) {t : ℝ} (ht : t ∈ ts e) (hout : ¬ InsideOf (axisData (G.axis e)) t) :
    ∀ (keys : List κ), e ∈ keys → ∀ (rs : List (Name × Name)), ∃ st,
      axisInterpolants S a ((dims.filter (fun d => d ∈ off)).map (fun d => (d, keptOf (args d)))) (afterRequests S.conv [] rs)
        keys = (st, .error (.look .value))
  | [], h, _ => by cases h
  | k :: keys, h, rs => by
    by_cases hk : k ∈ off
    · obtain ⟨hd, vs, u, x, ux, f, hv, hax, hu, hts, _⟩ := ho k hk
      obtain ⟨rs₁, e1⟩ := inUnit_factor (systems := systems) φ hφ rs vs hu
      rw [← hc, ← hts] at e1
      obtain ⟨y, e3, e4⟩ := getItem_all x
      have hl : x.data.length = G.size k := by
        have := hf k hd
        rw [hax] at this
        exact this
      rw [hl] at e3
      have hr' := hr k hk
      simp only [allIndices] at e3 hr'
      by_cases hin : (ts k).all (strictlyInside x.data) = true
      · have hke : e ≠ k := by
          rintro rfl
          have := List.all_eq_true.1 hin t ht
          simp only [strictlyInside, Bool.and_eq_true, List.any_eq_true, decide_eq_true_eq] at this
          rw [hax] at hout
          exact hout this
        obtain ⟨st, e2⟩ := interpolants_refused hc φ hφ haxs hf hw ha off args ts ho ref hr he ht hout keys
          ((List.mem_cons.1 h).resolve_left hke) rs₁
        have e5 : axisInterpolant S.conv (afterRequests S.conv [] rs) (S.axes k) (S.refs k) (anyIndices (G.axis k)) k (keptOf (args k)) =
            (afterRequests S.conv [] rs₁, .ok (some ⟨k, ref k, ts k⟩)) := by
          rw [(hw k hd).indices, hf k hd, ha k hd, hax, hv]
          simp only [axisInterpolant, keptOf, e1, e3, e4, hin, if_true, hr']
        refine ⟨st, ?_⟩
        simp only [axisInterpolants, parsed_get, haxs, get?_axes G hd, if_pos (And.intro hd hk), e5]
        rw [e2]
      · have e5 : axisInterpolant S.conv (afterRequests S.conv [] rs) (S.axes k) (S.refs k) (anyIndices (G.axis k)) k (keptOf (args k)) =
            (afterRequests S.conv [] rs₁, .error (.look .value)) := by
          rw [(hw k hd).indices, hf k hd, ha k hd, hax, hv]
          simp only [axisInterpolant, keptOf, e1, e3, e4, if_neg hin]
        refine ⟨afterRequests S.conv [] rs₁, ?_⟩
        simp only [axisInterpolants, parsed_get, haxs, get?_axes G hd, if_pos (And.intro hd hk), e5]
    · obtain ⟨st, e2⟩ := interpolants_refused hc φ hφ haxs hf hw ha off args ts ho ref hr he ht hout keys
        ((List.mem_cons.1 h).resolve_left (fun h' => hk (h' ▸ he))) rs
      refine ⟨st, ?_⟩
      simp only [axisInterpolants, parsed_get, if_neg (fun h : k ∈ dims ∧ k ∈ off => hk h.2)]
      exact e2

/-- **C94**: nothing is extrapolated.  If one of the values is not strictly between the smallest and the largest value of its
axis, and interpolation is needed along this axis, then the user gets a `ValueError`.  This also refuses the smallest and the
largest value of the axis together with values between others, although each of them can be observed. -/
theorem c94_refused {G : Grid κ (AnyAxis ℝ)} {dims : List κ} {u ur : List Term} {g R : (κ → Nat) → ℝ}
    {a : Arr κ (AnyAxis ℝ) ℝ} (h : OnGrid G dims u g (.array a)) (hf : G.Fits dims)
    (hw : ∀ d ∈ dims, WholeAxis (G.axis d)) (nodes : List Name) (systems : List System) (φ : Name → ℚ) (hφ : TableSizes φ)
    (S : Setting κ) (hc : S.conv = realConv nodes systems) (ha : ∀ d ∈ dims, S.axes d = G.axis d)
    (rs : List (Name × Name)) (args : κ → UserArg) (off : List κ) (hS : GridArrays S G dims off ur R)
    (ts : κ → List ℝ) (ls : κ → List Nat)
    (ho : ∀ d ∈ off, d ∈ dims ∧ d ≠ S.shell ∧ NotOn (UnitFactor nodes φ) (G.axis d) (ts d) (args d))
    (h1 : ∀ d ∈ dims, d ≠ S.shell → d ∉ off → Chooses S.toInt nodes φ (G.axis d) (ls d) (args d))
    (h2 : S.shell ∈ dims → ChoosesShells (G.axis S.shell) (ls S.shell) (args S.shell))
    (e : κ) (he : e ∈ off) (t : ℝ) (ht : t ∈ ts e) (hout : ¬ InsideOf (axisData (G.axis e)) t) :
    ∃ st, observeStored S (afterRequests S.conv [] rs) a (argsOf dims args) = (st, .error (.look .value)) := by
  have hdata : ∀ d ∈ off, axisData (G.axis d) ≠ [] := fun d hd => by
    obtain ⟨hdd, _, vs, v, x, ux, fc, _, hax, _⟩ := ho d hd
    have := hf d hdd
    have hp := G.pos d
    rw [hax] at this ⊢
    have this : x.data.length = G.size d := this
    show x.data ≠ []
    rintro hx
    rw [hx] at this
    simp at this
    omega
  obtain ⟨rs₁, idx, e1, _⟩ := request_mixed hc φ hφ rs dims h.nodup off args ts ls
    (fun d hd => ⟨(ho d hd).1, (ho d hd).2.1, fun h => hS.radius (h ▸ (ho d hd).1), by
      rw [ha d (ho d hd).1]
      exact ⟨(ho d hd).2.2, hdata d hd⟩⟩)
    (fun d hd hs hdo => by
      rw [ha d hd]
      exact fun rs => parse_chooses S.toInt nodes systems φ hφ rs (hw d hd) (h1 d hd hs hdo))
    (fun hs => by rw [ha _ hs]; exact parse_shells (hw _ hs) (h2 hs))
  have hfit : ∀ d ∈ dims, G.Fits [d] := fun d hd e he => by rw [List.mem_singleton.1 he]; exact hf d hd
  have href : ∀ e, ∃ r, e ∈ off →
      (S.refs e).getItem AnyAxis.getItem (.one (.seq .other (allIndices (G.size e)))) = .ok (.array r) := fun e => by
    by_cases he : e ∈ off
    · obtain ⟨r, hr, _⟩ := reference_all (hS.refs e he).2 (hfit e (ho e he).1)
      exact ⟨r, fun _ => hr⟩
    · exact ⟨a, fun h => absurd h he⟩
  choose ref href using href
  obtain ⟨st, e3⟩ := interpolants_refused hc φ hφ (keys_grid h).1 hf hw ha off args ts
    (fun d hd => ⟨(ho d hd).1, (ho d hd).2.2⟩) ref href he ht hout S.keys (hS.refs e he).1 rs₁
  have hpne : (dims.filter (fun d => d ∈ off)).map (fun d => (d, keptOf (args d))) ≠ [] := by
    have : e ∈ dims.filter (fun d => d ∈ off) := List.mem_filter.2 ⟨(ho e he).1, by simpa using he⟩
    intro hm
    rw [List.map_eq_nil_iff] at hm
    rw [hm] at this
    cases this
  refine ⟨st, ?_⟩
  simp only [observeStored, e1, observe, if_neg hpne, interpolateObserved, e3]

set_option maxHeartbeats 100000000 in
theorem plain_table : ∀ o ∈ orders, ∀ n ∈ [c! "s", c! "J", c! "erg"],
    integralSteps tableNodes o Symbolic.one n = true ∧ integralSteps tableNodes o n Symbolic.one = true ∧
    (convert (rats tableNodes o) Symbolic.one n).toOption = none ∧ (convert (rats tableNodes o) n Symbolic.one).toOption = none := by
  decide +kernel

theorem error_of_toOption {ε α : Type} {x : Except ε α} (h : x.toOption = none) : ∃ e, x = .error e := by
  cases x with
  | error e => exact ⟨e, rfl⟩
  | ok a => cases h

theorem convert_fails {order : List System} {c : Conv ℝ} (hc : Package order c) {u v : Name}
    (h1 : integralSteps tableNodes order u v = true) (h2 : (convert (rats tableNodes order) u v).toOption = none) :
    ∃ e, convert c u v = .error e := by
  obtain ⟨nodes, hn, rfl⟩ := hc
  obtain ⟨e, he⟩ := error_of_toOption h2
  refine ⟨e, ?_⟩
  rw [convert_congr (c := realConv nodes order) (c' := realConv tableNodes order) rfl rfl (fun u v => c19_order_independent nodes tableNodes hn u v),
    convert_map h1, he]
  rfl

theorem plain_fails {order : List System} (ho : order ∈ orders) {c : Conv ℝ} (hc : Package order c) {n : Name}
    (hn : n ∈ [c! "s", c! "J", c! "erg"]) (rs : List (Name × Name)) (l : List ℝ) :
    ∃ st e, inUnit c (afterRequests c [] rs) (l, noUnit) [⟨1, n, 1⟩] = (st, .error (.metric e)) := by
  obtain ⟨i1, i2, h1, h2⟩ := plain_table order ho n hn
  obtain ⟨e1, h1⟩ := convert_fails hc i1 h1
  obtain ⟨e2, h2⟩ := convert_fails hc i2 h2
  have hs : showExpr noUnit = Symbolic.one := by decide +kernel
  rcases hf : conversionFactory c (afterRequests c [] rs) Symbolic.one n with ⟨st, r⟩
  have hr : r = .error e1 := by
    rcases c23_stored c rs Symbolic.one n with h | ⟨g, hg, _⟩
    · rw [hf, h1] at h; exact h
    · rw [h2] at hg; cases hg
  subst hr
  refine ⟨st, e1, ?_⟩
  simp only [inUnit, withunit, conversion, hs, show_symbol, hf]

/-- **C94** is violated by numbers without a unit.  They are taken in the unit of the axis if they are on the axis (C93), but
otherwise the conversion to the unit of the axis fails. -/
theorem c94_not_plain {G : Grid κ (AnyAxis ℝ)} {dims : List κ} {a : Arr κ (AnyAxis ℝ) ℝ} (hnd : dims.Nodup) (hf : G.Fits dims)
    (hw : ∀ d ∈ dims, WholeAxis (G.axis d)) (order : List System) (hord : order ∈ orders) (nodes : List Name)
    (hnodes : ∀ n, n ∈ nodes ↔ n ∈ tableNodes) (φ : Name → ℚ) (hφ : TableSizes φ)
    (S : Setting κ) (hc : S.conv = realConv nodes order) (ha : ∀ d ∈ dims, S.axes d = G.axis d)
    (rs : List (Name × Name)) (args : κ → UserArg) (ls : κ → List Nat) (e : κ) (he : e ∈ dims) (hes : e ≠ S.shell)
    (her : e ≠ S.radius) (vs : List ℝ) (x : Axis.Axis ℝ) (n : Name) (hn : n ∈ [c! "s", c! "J", c! "erg"])
    (hsym : IsSymbolOf n n) (hax : G.axis e = .coordinates x [⟨1, n, 1⟩]) (hv : args e = .measured vs noUnit)
    (hoff : ∃ v ∈ vs, OffValues x.data v)
    (h1 : ∀ d ∈ dims, d ≠ S.shell → d ≠ e → Chooses S.toInt nodes φ (G.axis d) (ls d) (args d))
    (h2 : S.shell ∈ dims → ChoosesShells (G.axis S.shell) (ls S.shell) (args S.shell)) :
    ∃ st err, observeStored S (afterRequests S.conv [] rs) a (argsOf dims args) = (st, .error (.metric err)) := by
  have hlen : x.data.length = G.size e := by
    have := hf e he
    rw [hax] at this
    exact this
  have hdata : axisData (G.axis e) ≠ [] := by
    rw [hax]
    show x.data ≠ []
    have := G.pos e
    rintro hx
    rw [hx] at hlen
    simp at hlen
    omega
  obtain ⟨rs₁, idx, e1, _, _⟩ := loop_mixed hc φ hφ [e] (fun _ => vs) ls (argsOf (dims.filter (fun d => d ≠ S.shell)) args)
    (by rw [argsOf_keys]; exact hnd.filter _) (fun p hp hpo => by
      obtain ⟨d, hd, rfl⟩ := List.mem_map.1 hp
      obtain ⟨hd, hs⟩ := List.mem_filter.1 hd
      rw [ha d hd]
      exact fun rs => parse_chooses S.toInt nodes order φ hφ rs (hw d hd) (h1 d hd (by simpa using hs) (by simpa using hpo)))
    (fun p hp hpo => by
      obtain ⟨d, hd, rfl⟩ := List.mem_map.1 hp
      have hde : d = e := by simpa using hpo
      subst hde
      rw [ha d he]
      refine ⟨⟨vs, noUnit, x, _, 1, hv, hax, .inr ⟨rfl, rfl, n, rfl, hsym⟩, by simp, hoff⟩, hdata⟩) rs ⟨fun _ => none, []⟩
  have hp : ((argsOf (dims.filter (fun d => d ≠ S.shell)) args).filter (fun p => p.1 ∈ [e])).map (fun p => (p.1, keptOf p.2)) =
      [(e, (vs, noUnit))] := by
    unfold argsOf
    rw [List.filter_map, List.filter_filter]
    have : dims.filter (fun a => ((fun p : κ × UserArg => decide (p.1 ∈ [e])) ∘ fun d => (d, args d)) a && decide (a ≠ S.shell)) = [e] := by
      have h3 : dims.filter (fun a => ((fun p : κ × UserArg => decide (p.1 ∈ [e])) ∘ fun d => (d, args d)) a && decide (a ≠ S.shell)) =
          dims.filter (fun a => a == e) := List.filter_congr (fun d _ => by
        by_cases hde : d = e
        · subst hde; simp [hes]
        · simp [hde])
      rw [h3, List.filter_beq, List.count_eq_one_of_mem hnd he]
      rfl
    rw [this]
    simp [keptOf, hv]
  rw [List.nil_append, hp] at e1
  obtain ⟨st, err, e2⟩ := plain_fails hord (c := S.conv) ⟨nodes, hnodes, hc⟩ hn rs₁ vs
  have hrest : ∀ idx : κ → Option Arg, restrictLoop' S (afterRequests S.conv [] rs₁) idx [(e, (vs, noUnit))] =
      (st, .error (.metric err)) := fun idx => by
    simp only [restrictLoop', if_neg hes, if_neg her, ha e he, hax, e2]
  refine ⟨st, err, ?_⟩
  have hreq : makeRequest S (afterRequests S.conv [] rs) (argsOf dims args) = (st, .error (.metric err)) := by
    unfold makeRequest
    by_cases hs : S.shell ∈ dims
    · obtain ⟨s, b, k1, k2, _⟩ := parse_shells (κ := κ) (hw _ hs) (h2 hs)
      rw [argsOf_get, if_pos hs, argsOf_filter, e1]
      simp only [k1, Except.map, ha _ hs, k2, Request.setIndex, hrest]
    · rw [argsOf_get, if_neg hs, argsOf_filter, e1]
      simp only [hrest]
  simp only [observeStored, hreq, asPErr]

/-! ## Witnesses -/

/-- the arrays of the sample dataset: times, radii and a quantity -/
theorem sample_arrays (systems : List System) : ∃ (T R a : Arr String (AnyAxis ℝ) ℝ) (u : List Term) (g r : (String → Nat) → ℝ),
    OnGrid sampleGrid ["time", "shell"] u g (.array a) ∧
    GridArrays (sampleSetting T R systems) sampleGrid ["time", "shell"] ["time"] [⟨1, c! "m", 1⟩] r := by
  obtain ⟨a, ha⟩ := sample_array [⟨1, c! "m", 1⟩]
  obtain ⟨t, ht⟩ := onGrid_ofFn sampleGrid ["time"] (by decide) [⟨1, c! "s", 1⟩]
    (fun l => axisValue (sampleGrid.axis "time") (l.getD 0 0))
  obtain ⟨T, rfl⟩ : ∃ z, t = .array z := by obtain ⟨_, c, hc, _⟩ := ht; exact ⟨c, hc⟩
  refine ⟨T, a, a, _, _, fun p => ((["time", "shell"].map p).sum : ℝ), ha, ⟨?_, ?_, ?_, ?_, ?_⟩⟩
  · exact List.nodup_singleton _
  · show "radius" ∉ ["time", "shell"]
    decide
  · intro d hd
    cases List.mem_singleton.1 hd
    exact ⟨List.mem_singleton.2 rfl, ht⟩
  · intro _
    show "time" ∈ ["time", "shell"]
    decide
  · intro _
    exact ha

/-- 1.5 s, in minutes, is between the times -/
theorem sample_notOn : NotOn (UnitFactor tableNodes size) (sampleGrid.axis "time") [3 / 2, 2]
    (.measured [1 / 40, 1 / 30] [⟨1, c! "min", 1⟩]) := by
  refine ⟨_, _, ⟨[1, 2, 5], none⟩, [⟨1, c! "s", 1⟩], 60, rfl, rfl, sample_minutes, by norm_num, 3 / 2, by simp, .inl ?_⟩
  intro d hd
  fin_cases hd <;> norm_num [abs_lt, lt_abs]

/-- the hypotheses of `c94_interpolated` for `a[(1/40 min, 1/30 min), 3]`; those of `sampleSetting` are met by `sample_arrays` -/
example : NotOn (UnitFactor tableNodes size) (sampleGrid.axis "time") [3 / 2, 2] (.measured [1 / 40, 1 / 30] [⟨1, c! "min", 1⟩]) ∧
    (axisData (sampleGrid.axis "time")).Pairwise (· < ·) ∧
    (∀ t ∈ [(3 : ℝ) / 2, 2], InsideOf (axisData (sampleGrid.axis "time")) t) ∧
    ChoosesShells (sampleGrid.axis "shell") [3] (.index 3) := by
  refine ⟨sample_notOn, ?_, ?_, by decide, ⟨[0, 1, 2, 3], none⟩, rfl, 3, rfl, by decide, by decide⟩
  · show [(1 : ℝ), 2, 5].Pairwise (· < ·)
    norm_num
  · intro t ht
    refine ⟨⟨1, ?_, ?_⟩, 5, ?_, ?_⟩
    · show (1 : ℝ) ∈ [(1 : ℝ), 2, 5]; simp
    · fin_cases ht <;> norm_num
    · show (5 : ℝ) ∈ [(1 : ℝ), 2, 5]; simp
    · fin_cases ht <;> norm_num

/-- the hypotheses of `c94_refused` for `a[(1/40 min, 1/60 min), 3]`: the first time, and a time between the first two -/
example : NotOn (UnitFactor tableNodes size) (sampleGrid.axis "time") [3 / 2, 1] (.measured [1 / 40, 1 / 60] [⟨1, c! "min", 1⟩]) ∧
    ¬ InsideOf (axisData (sampleGrid.axis "time")) 1 := by
  refine ⟨⟨_, _, ⟨[1, 2, 5], none⟩, [⟨1, c! "s", 1⟩], 60, rfl, rfl, sample_minutes, by norm_num, 3 / 2, by simp, .inl ?_⟩, ?_⟩
  · intro d hd
    fin_cases hd <;> norm_num [abs_lt, lt_abs]
  · rintro ⟨⟨lo, hlo, h⟩, _⟩
    have hlo : lo ∈ [(1 : ℝ), 2, 5] := hlo
    fin_cases hlo <;> norm_num at h

/-- the hypotheses of `c94_not_plain` for `a[(1.5), 3]` -/
example : IsSymbolOf c! "s" c! "s" ∧ sampleGrid.axis "time" = .coordinates ⟨[1, 2, 5], none⟩ [⟨1, c! "s", 1⟩] ∧
    OffValues [1, 2, 5] (3 / 2) ∧ ∀ n, n ∈ tableNodes ↔ n ∈ tableNodes := by
  refine ⟨isSymbolOf_of (by decide +kernel), rfl, .inl ?_, fun _ => Iff.rfl⟩
  intro d hd
  fin_cases hd <;> norm_num [abs_lt, lt_abs]

/-- the hypotheses of `c93_not_shell` for shell 4 of four shells, and of `c93_not_empty` for `a[0, 3:1]` -/
example : (∃ x, sampleGrid.axis "shell" = .points x ∧ (4 : ℤ) ∉ x.data) ∧
    Positions (sampleGrid.axis "shell").length (.slice (some 3) (some 1) none) [] := by
  refine ⟨⟨⟨[0, 1, 2, 3], none⟩, rfl, by decide⟩, ?_⟩
  show slicePositions 4 _ _ _ = _
  decide

/-- the hypotheses of `c93_not_unit` for `a[0, (2.5 s)]` -/
example : Axis.isUnitless [⟨1, c! "s", 1⟩] = false ∧ ∃ q, getQuantity [⟨1, c! "s", 1⟩] = .ok q ∧
    exprEq q [⟨1, c! "length", 1⟩] = false :=
  ⟨by decide +kernel, [⟨1, c! "time", 1⟩], by decide +kernel, by decide +kernel⟩

example : List.Forall₂ WithoutFraction [5 / 2, -5 / 2] [2, -2] := by
  refine .cons ⟨?_, ?_⟩ (.cons ⟨?_, ?_⟩ .nil) <;> norm_num

end Eprem.Observable
