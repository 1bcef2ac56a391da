import Verif.Spec.Observe
import Verif.Props.Axis
import Verif.Props.Subscript

/-!
# C93: subscription of observable quantities by what a user writes
-/

namespace Eprem.Observable

open Eprem Eprem.Symbolic Eprem.Metric Eprem.Numeric Eprem.Measured Eprem.Physical Eprem.Interpolate

variable {κ : Type} [DecidableEq κ]

/-! ## Measurements in the unit of an axis -/

theorem seqList_seqData (l : List ℝ) : Axis.seqList (Axis.seqData l) = l := by
  have := Axis.seqList_map (y := Axis.seqData l) l id rfl (fun i => by
    simp [Axis.seqData, ND.get, ravel, Numeric.sizeOf])
  simpa using this

theorem withunit_same (nodes : List Name) (systems : List System) (rs : List (Name × Name)) (l : List ℝ) :
    ∃ y, withunit (realConv nodes systems) (afterRequests (realConv nodes systems) [] rs) ⟨Axis.seqData l, noUnit⟩
      (showExpr noUnit) = (afterRequests (realConv nodes systems) [] (rs ++ [(showExpr noUnit, showExpr noUnit)]), .ok y) ∧
      Axis.seqList y.data = l := by
  have h1 : convert (realConv nodes systems) (showExpr noUnit) (showExpr noUnit) = .ok 1 := by
    have : convertAsStrings (realConv nodes systems).env (showExpr noUnit) (showExpr noUnit) = some 1 := by
      simp [convertAsStrings, recursiveConversion, standardConversion, simpleConversion, truthy]
    simp only [convert, this]
    simp [realConv]
  have h2 : freshUnit (showExpr noUnit) = .ok noUnit := by decide +kernel
  refine ⟨_, withunit_ok _ rs ⟨Axis.seqData l, noUnit⟩ (showExpr noUnit) noUnit noUnit 1 h1 (by simpa using h1) h2 h2, ?_⟩
  unfold apply
  split
  · exact seqList_seqData l
  · refine (Axis.seqList_map l (fun d => 1 * d) ?_ ?_).trans (by simp)
    · rfl
    · intro i
      simp [ND.map, Axis.seqData, ND.get, ravel, Numeric.sizeOf]

theorem inOtherUnit (nodes : List Name) (systems : List System) (φ : Name → ℚ) (hφ : TableSizes φ)
    (rs : List (Name × Name)) (l : List ℝ) (ux u : List Term) (f : ℝ) (hf : UnitFactor nodes φ ux u f) :
    ∃ rs' y, withunit (realConv nodes systems) (afterRequests (realConv nodes systems) [] rs) ⟨Axis.seqData l, u⟩ (showExpr ux) =
      (afterRequests (realConv nodes systems) [] rs', .ok y) ∧ Axis.seqList y.data = l.map (fun a => a * f) := by
  rcases hf with ⟨rfl, rfl, rfl⟩ | ⟨n, m, rfl, hn, rfl, hm, hc, rfl⟩
  · obtain ⟨y, h1, h2⟩ := withunit_same nodes systems rs l
    exact ⟨_, y, h1, by simpa using h2⟩
  · obtain ⟨y, h1, h2⟩ := Axis.converted nodes systems φ hφ rs l m n hm hn hc
    exact ⟨_, y, by rw [show_symbol]; exact h1, h2⟩

/-- The targets are converted to the unit of the axis. -/
theorem inAxisUnit (nodes : List Name) (systems : List System) (φ : Name → ℚ) (hφ : TableSizes φ)
    (rs : List (Name × Name)) (l : List ℝ) (ux u : List Term) (f : ℝ) (hf : AxisFactor nodes φ ux u f) :
    ∃ rs' y, withunit (realConv nodes systems) (afterRequests (realConv nodes systems) [] rs)
      ⟨Axis.seqData l, if Axis.isUnitless u then ux else u⟩ (showExpr ux) =
      (afterRequests (realConv nodes systems) [] rs', .ok y) ∧ Axis.seqList y.data = l.map (fun a => a * f) := by
  rcases hf with hf | ⟨rfl, rfl, n, rfl, hn⟩
  · obtain ⟨rs', y, h1, h2⟩ := inOtherUnit nodes systems φ hφ rs l ux u f hf
    refine ⟨rs', y, ?_, h2⟩
    rw [← h1]
    rcases hf with ⟨rfl, rfl, rfl⟩ | ⟨n, m, rfl, hn, rfl, hm, hc, rfl⟩
    · rw [ite_self]
    · rw [Axis.unitless_symbol hm.1]; rfl
  · obtain ⟨y, h1, h2⟩ := Axis.converted nodes systems φ hφ rs l n n hn hn (Axis.convertible_self nodes hn)
    have hp : (φ n : ℝ) ≠ 0 := by have := hφ.pos n; exact_mod_cast this.ne'
    exact ⟨_, y, by rw [if_pos (by decide +kernel), show_symbol]; exact h1, by rw [h2, div_self hp]⟩
/-- The look-up of a measurement. -/
theorem index_eq' (nodes : List Name) (systems : List System) (φ : Name → ℚ) (hφ : TableSizes φ)
    (rs : List (Name × Name)) (x : Axis.Axis ℝ) (l : List ℝ) (hl : l ≠ []) (ux u : List Term) (f : ℝ)
    (hf : AxisFactor nodes φ ux u f) (c : Axis.Closest) :
    ∃ rs', x.indexCoordinates (realConv nodes systems) (afterRequests (realConv nodes systems) [] rs) ux
      (some (l, u)) c = (afterRequests (realConv nodes systems) [] rs',
        match Axis.collect (Axis.computeIndex x.data c) (l.map (fun a => a * f)) with
        | .error e => .error (.look e)
        | .ok is => .ok (.ofList is)) := by
  obtain ⟨rs', y, h1, h2⟩ := inAxisUnit nodes systems φ hφ rs l ux u f hf
  refine ⟨rs', ?_⟩
  cases l with
  | nil => exact absurd rfl hl
  | cons a l =>
    simp only [Axis.Axis.indexCoordinates, h1, h2]
    cases Axis.collect (Axis.computeIndex x.data c) (List.map (fun a => a * f) (a :: l)) <;> rfl

/-! ## The index of one dimension -/

theorem forall₂_right {α β : Type} {R : α → β → Prop} {l : List α} {m : List β} (h : List.Forall₂ R l m) :
    ∀ b ∈ m, ∃ a, R a b := by
  induction h with
  | nil => simp
  | cons hab _ ih =>
    intro c hc
    rcases List.mem_cons.1 hc with rfl | hc
    · exact ⟨_, hab⟩
    · exact ih c hc

/-- The indices that the code makes stand for these positions. -/
theorem indexArg_positions {n : Nat} {js : List Nat} (hj : ∀ j ∈ js, j < n) (hne : js ≠ []) :
    ObservedPositions n (some (indexArg (.ofList (js.map (fun i : Nat => (i : ℤ)))))) js := by
  match js, hne with
  | [j], _ => exact ⟨j, rfl, hj j (by simp), .inl rfl⟩
  | i :: j :: js, _ =>
    show List.Forall₂ _ ((i :: j :: js).map (fun i : Nat => (i : ℤ))) _
    rw [List.forall₂_map_left_iff, List.forall₂_same]
    exact fun k hk => ⟨hj k hk, .inl rfl⟩

theorem sequence_positions {n : Nat} {is : List ℤ} {js : List Nat} (hne : is ≠ [])
    (h : Positions n (.seq .other is) js) : ObservedPositions n (some (.seq .other is)) js := by
  cases is with
  | nil => exact absurd rfl hne
  | cons i is => exact h

theorem firstAt_lt {α : Type} {l : List α} {x : α} {i : Nat} (h : Axis.FirstAt l x i) : i < l.length :=
  (List.getElem?_eq_some_iff.1 h.1).1

theorem WholeAxis.indices {axis : AnyAxis ℝ} (h : WholeAxis axis) :
    anyIndices axis = (List.range axis.length).map (fun i : Nat => (i : ℤ)) := by
  cases axis with
  | points x =>
    have h : x = _ := h
    rw [h]
    simp [anyIndices, Axis.Axis.pointIndices, AnyAxis.length]
  | symbols x => 
    have h : x.stored = none := h
    simp [anyIndices, Axis.Axis.indices, AnyAxis.length, h]
  | coordinates x u =>
    have h : x.stored = none := h
    simp [anyIndices, Axis.Axis.indices, AnyAxis.length, h]

/-- A slice gives the sequence of its positions. -/
theorem slice_index {axis : AnyAxis ℝ} (h : WholeAxis axis) {b e s : Option ℤ} {l : List Nat}
    (hp : Positions axis.length (.slice b e s) l) :
    sliceIndices axis b e s = .ok (.seq .other (l.map (fun i : Nat => (i : ℤ)))) := by
  have hlt := hp.lt
  have hp' : slicePositions axis.length b e s = .ok l := hp
  unfold sliceIndices
  rw [h.indices]
  simp only [Axis.pick, List.length_map, List.length_range, hp']
  congr 2
  clear hp' hp
  induction l with
  | nil => rfl
  | cons j l ih =>
    have hj := hlt j (by simp)
    rw [List.filterMap_cons_some (b := (j : ℤ)) (by simp [hj]), ih (fun k hk => hlt k (by simp [hk]))]
    rfl

theorem natSeq_positions {n : Nat} {js : List Nat} (hj : ∀ j ∈ js, j < n) :
    Positions n (.seq .other (js.map (fun i : Nat => (i : ℤ)))) js := by
  show List.Forall₂ _ (js.map (fun i : Nat => (i : ℤ))) _
  rw [List.forall₂_map_left_iff, List.forall₂_same]
  exact fun k hk => ⟨hj k hk, .inl rfl⟩

/-- An argument gives an index that stands for the positions that the user means. -/
theorem parse_chooses (toInt : Name → Option ℤ) (nodes : List Name) (systems : List System) (φ : Name → ℚ)
    (hφ : TableSizes φ) (rs : List (Name × Name)) {axis : AnyAxis ℝ} (hw : WholeAxis axis) {v : UserArg} {l : List Nat}
    (h : Chooses toInt nodes φ axis l v) :
    ∃ rs' a, parseUserArg toInt (realConv nodes systems) (afterRequests (realConv nodes systems) [] rs) axis v =
      (afterRequests (realConv nodes systems) [] rs', .ok a) ∧ ObservedPositions axis.length (some a) l := by
  cases v with
  | index i =>
    obtain ⟨j, rfl, hj⟩ := h
    exact ⟨rs, _, rfl, .cons hj .nil⟩
  | indices is =>
    refine ⟨rs, .seq .other is, ?_, sequence_positions h.1 h.2⟩
    simp only [parseUserArg, if_neg h.1]
  | slice b e s =>
    refine ⟨rs, _, ?_, sequence_positions (by simpa using h.1) (natSeq_positions h.2.lt)⟩
    simp only [parseUserArg, slice_index hw h.2]
  | name s =>
    obtain ⟨h0, x, rfl, j, rfl, hj⟩ := h
    obtain ⟨r, is, h1, h2, h3⟩ := Axis.c38_symbols x [s] (by simp) (by simpa using List.mem_of_getElem? hj.1)
    obtain ⟨k, hk, rfl⟩ : ∃ k, Axis.FirstAt x.data s k ∧ is = [k] := by
      cases h3 with
      | cons hk h => cases h; exact ⟨_, hk, rfl⟩
    have hjk : j = k := by
      rcases lt_trichotomy j k with h | h | h
      · exact absurd hj.1 (hk.2 j h)
      · exact h
      · exact absurd hk.1 (hj.2 k h)
    subst hjk
    have hr : r = .value (j : ℤ) := by
      cases r with
      | value i => have := h2; simp only [Axis.Index.Is] at this; simpa using this.symm
      | sequence l =>
        obtain ⟨e1, e2⟩ := h2
        subst e1
        simp at e2
    subst hr
    refine ⟨rs, .int j, ?_, j, rfl, firstAt_lt hj, .inl rfl⟩
    have h1 : x.indexSymbols [.str s] = .ok (.value (j : ℤ)) := h1
    simp only [parseUserArg, h0, h1, indexArg]
  | measured vs u =>
    obtain ⟨hvs, x, ux, f, rfl, hf, h2⟩ := h
    obtain ⟨rs', h1⟩ := index_eq' nodes systems φ hφ rs x vs hvs ux u f hf .none
    have h3 : Axis.collect (Axis.computeIndex x.data .none) (vs.map (fun a => a * f)) =
        .ok (l.map (fun i : Nat => (i : ℤ))) := by
      clear h1 hvs
      induction h2 with
      | nil => rfl
      | @cons v j vs js hv _ ih =>
        obtain ⟨k, hk, hk'⟩ := Axis.c38_compute_exact x.data (v * f) .none (List.mem_of_getElem? hv.1)
        have hjk : j = k := by
          rcases lt_trichotomy j k with h | h | h
          · exact absurd hv.1 (hk'.2 j h)
          · exact h
          · exact absurd hk'.1 (hv.2 k h)
        subst hjk
        simp only [List.map_cons, Axis.collect, hk, ih]
    rw [h3] at h1
    refine ⟨rs', _, ?_, indexArg_positions (n := x.data.length) (js := l) ?_ ?_⟩
    · simp only [parseUserArg, h1]
    · intro j hj
      obtain ⟨v, hv⟩ := forall₂_right h2 j hj
      exact firstAt_lt hv
    · rintro rfl
      cases h2
      exact hvs rfl

/-! ## The request -/

/-- The argument gives an index that stands for these positions, whatever was converted before. -/
def Parses (toInt : Name → Option ℤ) (nodes : List Name) (systems : List System) (axis : AnyAxis ℝ) (l : List Nat)
    (v : UserArg) : Prop :=
  ∀ rs, ∃ rs' a, parseUserArg toInt (realConv nodes systems) (afterRequests (realConv nodes systems) [] rs) axis v =
    (afterRequests (realConv nodes systems) [] rs', .ok a) ∧ ObservedPositions axis.length (some a) l

/-- The same for the shells. -/
def ParsesShells (axis : AnyAxis ℝ) (l : List Nat) (v : UserArg) : Prop :=
  ∃ s a, shellOrRadius v = .ok s ∧
    (∀ (shell radius : κ) (r : Request κ), implementShell axis shell radius r s = .ok (r.setIndex shell a)) ∧
    ObservedPositions axis.length (some a) l

theorem points_index {x : Axis.Axis ℤ} {is : List ℤ} {l : List Nat} (h : List.Forall₂ (Axis.FirstAt x.data) is l) :
    x.indexPoints true (.iterable is) = .ok (.ofList (l.map (fun i : Nat => (i : ℤ)))) := by
  have : Axis.collect (Axis.pointIndex true x.data) is = .ok (l.map (fun i : Nat => (i : ℤ))) := by
    induction h with
    | nil => rfl
    | @cons v j vs js hv _ ih =>
      have hm := List.mem_of_getElem? hv.1
      have hk := Axis.firstAt_idxOf hm
      have hjk : j = x.data.idxOf v := by
        rcases lt_trichotomy j (x.data.idxOf v) with h | h | h
        · exact absurd hv.1 (hk.2 j h)
        · exact h
        · exact absurd hk.1 (hv.2 _ h)
      simp only [Axis.collect, Axis.pointIndex, hm, if_true, ih, List.map_cons, hjk]
  simp only [Axis.Axis.indexPoints, Axis.normalizeTargets, this]

theorem shellPoints_ok {is : List ℤ} (h : ∀ i ∈ is, 0 ≤ i) : shellPoints is = .ok (.points is) := by
  have : is.any (fun i => decide (i < 0)) = false := by
    rw [← Bool.not_eq_true, List.any_eq_true]
    rintro ⟨i, hi, hn⟩
    exact absurd (h i hi) (not_le.2 (by simpa using hn))
  simp only [shellPoints, Axis.pointsFactory, this]
  rfl

theorem parse_shells {axis : AnyAxis ℝ} (hw : WholeAxis axis) {l : List Nat} {v : UserArg} (h : ChoosesShells axis l v) :
    ParsesShells (κ := κ) axis l v := by
  cases v with
  | index i =>
    obtain ⟨h0, x, rfl, j, rfl, hj⟩ := h
    refine ⟨.points [i], _, shellPoints_ok (by simpa using h0), fun shell radius r => ?_,
      indexArg_positions (n := x.data.length) (js := [j]) (by simpa using firstAt_lt hj) (by simp)⟩
    simp only [implementShell, points_index (.cons hj .nil)]
  | indices is =>
    obtain ⟨hne, h0, x, rfl, hj⟩ := h
    refine ⟨.points is, _, by simp only [shellOrRadius, if_neg hne]; exact shellPoints_ok h0, fun shell radius r => ?_,
      indexArg_positions (n := x.data.length) (js := l) ?_ ?_⟩
    · simp only [implementShell, points_index hj]
    · intro j hm
      obtain ⟨v, hv⟩ := forall₂_right hj j hm
      exact firstAt_lt hv
    · rintro rfl
      cases hj
      exact hne rfl
  | slice b e s =>
    refine ⟨.slice b e s, _, rfl, fun shell radius r => ?_,
      sequence_positions (by simpa using h.1) (natSeq_positions h.2.lt)⟩
    simp only [implementShell, slice_index hw h.2]
  | name s => exact absurd h id
  | measured vs u => exact absurd h id

theorem loop_parses {S : Setting κ} {nodes : List Name} {systems : List System} (hc : S.conv = realConv nodes systems)
    (ls : κ → List Nat) : ∀ (args : List (κ × UserArg)), (args.map Prod.fst).Nodup →
    (∀ p ∈ args, Parses S.toInt nodes systems (S.axes p.1) (ls p.1) p.2) → ∀ (rs : List (Name × Name)) (r : Request κ),
    ∃ rs' idx, implementLoop S (afterRequests S.conv [] rs) r args = (afterRequests S.conv [] rs', .ok ⟨idx, r.parsed⟩) ∧
      (∀ k, k ∉ args.map Prod.fst → idx k = r.indexed k) ∧
      (∀ p ∈ args, ∃ a, idx p.1 = some a ∧ ObservedPositions (S.axes p.1).length (some a) (ls p.1))
  | [], _, _, rs, r => ⟨rs, r.indexed, rfl, fun _ _ => rfl, by simp⟩
  | (k, v) :: args, hn, h, rs, r => by
    obtain ⟨rs₁, a, h1, h2⟩ := h (k, v) (by simp) rs
    rw [← hc] at h1
    simp only [List.map_cons, List.nodup_cons] at hn
    obtain ⟨rs', idx, e1, e2, e3⟩ := loop_parses hc ls args hn.2 (fun p hp => h p (by simp [hp])) rs₁ (r.setIndex k a)
    refine ⟨rs', idx, by simp only [implementLoop, h1]; exact e1, fun j hj => ?_, fun p hp => ?_⟩
    · simp only [List.map_cons, List.mem_cons, not_or] at hj
      rw [e2 j hj.2]
      simp [Request.setIndex, Function.update_of_ne hj.1]
    · rcases List.mem_cons.1 hp with rfl | hp
      · exact ⟨a, by rw [e2 k hn.1]; simp [Request.setIndex], h2⟩
      · exact e3 p hp

/-- One argument for every dimension. -/
def argsOf (dims : List κ) (args : κ → UserArg) : List (κ × UserArg) := dims.map (fun d => (d, args d))

theorem argsOf_get (dims : List κ) (args : κ → UserArg) (d : κ) :
    Dict.get? (argsOf dims args) d = if d ∈ dims then some (args d) else none := by
  induction dims with
  | nil => simp [argsOf, Dict.get?]
  | cons e dims ih =>
    show Dict.get? ((e, args e) :: argsOf dims args) d = _
    rw [Dict.get?_cons]
    by_cases h : e = d
    · subst h; simp
    · rw [if_neg h, ih]
      have : d ≠ e := fun h' => h h'.symm
      simp [this]

theorem argsOf_filter (dims : List κ) (args : κ → UserArg) (s : κ) :
    (argsOf dims args).filter (fun p => p.1 ≠ s) = argsOf (dims.filter (fun d => d ≠ s)) args := by
  induction dims with
  | nil => rfl
  | cons e dims ih =>
    by_cases h : e = s <;> simp [argsOf, h] <;> simpa [argsOf] using ih

theorem argsOf_keys (dims : List κ) (args : κ → UserArg) : (argsOf dims args).map Prod.fst = dims := by
  induction dims with
  | nil => rfl
  | cons e dims ih => simpa [argsOf] using ih

theorem request_parses {S : Setting κ} {nodes : List Name} {systems : List System} (hc : S.conv = realConv nodes systems)
    (rs : List (Name × Name)) (dims : List κ) (hn : dims.Nodup) (args : κ → UserArg) (ls : κ → List Nat)
    (h1 : ∀ d ∈ dims, d ≠ S.shell → Parses S.toInt nodes systems (S.axes d) (ls d) (args d))
    (h2 : S.shell ∈ dims → ParsesShells (κ := κ) (S.axes S.shell) (ls S.shell) (args S.shell)) :
    ∃ rs' idx, makeRequest S (afterRequests S.conv [] rs) (argsOf dims args) =
      (afterRequests S.conv [] rs', .ok ⟨idx, []⟩) ∧
      ∀ d ∈ dims, ObservedPositions (S.axes d).length (idx d) (ls d) := by
  obtain ⟨rs', idx, e1, e2, e3⟩ := loop_parses hc ls (argsOf (dims.filter (fun d => d ≠ S.shell)) args)
    (by rw [argsOf_keys]; exact hn.filter _) (fun p hp => by
      obtain ⟨d, hd, rfl⟩ := List.mem_map.1 hp
      obtain ⟨hd, hs⟩ := List.mem_filter.1 hd
      exact h1 d hd (by simpa using hs)) rs ⟨fun _ => none, []⟩
  have e3' : ∀ d ∈ dims, d ≠ S.shell → ObservedPositions (S.axes d).length (idx d) (ls d) := fun d hd hs => by
    obtain ⟨a, ha, hp⟩ := e3 (d, args d) (List.mem_map.2 ⟨d, List.mem_filter.2 ⟨hd, by simpa using hs⟩, rfl⟩)
    rw [ha]; exact hp
  by_cases hs : S.shell ∈ dims
  · obtain ⟨s, a, k1, k2, k3⟩ := h2 hs
    refine ⟨rs', Function.update idx S.shell (some a), ?_, fun d hd => ?_⟩
    · unfold makeRequest
      rw [argsOf_get, if_pos hs, argsOf_filter, e1]
      simp only [k1, Except.map, k2, Request.setIndex, restrictLoop']
    · by_cases h : d = S.shell
      · subst h; rw [Function.update_self]; exact k3
      · rw [Function.update_of_ne h]; exact e3' d hd h
  · refine ⟨rs', idx, ?_, fun d hd => e3' d hd (fun h => hs (h ▸ hd))⟩
    unfold makeRequest
    rw [argsOf_get, if_neg hs, argsOf_filter, e1]
    simp only [restrictLoop']

/-! ## Selection -/

theorem observed_of_request {G : Grid κ (AnyAxis ℝ)} {dims : List κ} {u : List Term} {g : (κ → Nat) → ℝ}
    {a : Arr κ (AnyAxis ℝ) ℝ} (h : OnGrid G dims u g (.array a)) (hf : G.Fits dims) (h0 : dims ≠ []) {S : Setting κ}
    {nodes : List Name} {systems : List System} (hc : S.conv = realConv nodes systems) (ha : ∀ d ∈ dims, S.axes d = G.axis d)
    (rs : List (Name × Name)) (args : κ → UserArg) (ls : κ → List Nat)
    (h1 : ∀ d ∈ dims, d ≠ S.shell → Parses S.toInt nodes systems (G.axis d) (ls d) (args d))
    (h2 : S.shell ∈ dims → ParsesShells (κ := κ) (G.axis S.shell) (ls S.shell) (args S.shell)) :
    ∃ rs' r H, observeStored S (afterRequests S.conv [] rs) a (argsOf dims args) =
      (afterRequests S.conv [] rs', .ok r) ∧ G.Part dims ls H ∧ H.Fits dims ∧
      OnGrid H dims u (fun pos => g (whole ls pos)) r := by
  obtain ⟨rs', idx, e1, e2⟩ := request_parses hc rs dims h.nodup args ls
    (fun d hd hs => by rw [ha d hd]; exact h1 d hd hs) (fun hs => by rw [ha _ hs]; exact h2 hs)
  obtain ⟨r, H, k1, k2⟩ := c87_observed h hf h0 idx ls (fun d hd => by
    have := e2 d hd
    rw [ha d hd] at this
    rw [← hf d hd]
    exact this)
  exact ⟨rs', r, H, by simp only [observeStored, e1, observe, if_true, k1], k2⟩

/-- **C93**: the subscription of a stored quantity by any mixture of positions, lists of positions, slices that select
something, names of species and measurable values on the axes, with numbers of shells for the shells, gives the part of the
quantity at the positions that the arguments stand for, in the unit of the quantity: the same numbers, on axes with the same
values. -/
theorem c93_select {G : Grid κ (AnyAxis ℝ)} {dims : List κ} {u : List Term} {g : (κ → Nat) → ℝ}
    {a : Arr κ (AnyAxis ℝ) ℝ} (h : OnGrid G dims u g (.array a)) (hf : G.Fits dims) (h0 : dims ≠ [])
    (hw : ∀ d ∈ dims, WholeAxis (G.axis d)) (nodes : List Name) (systems : List System) (φ : Name → ℚ) (hφ : TableSizes φ)
    (S : Setting κ) (hc : S.conv = realConv nodes systems) (ha : ∀ d ∈ dims, S.axes d = G.axis d)
    (rs : List (Name × Name)) (args : κ → UserArg) (ls : κ → List Nat)
    (h1 : ∀ d ∈ dims, d ≠ S.shell → Chooses S.toInt nodes φ (G.axis d) (ls d) (args d))
    (h2 : S.shell ∈ dims → ChoosesShells (G.axis S.shell) (ls S.shell) (args S.shell)) :
    ∃ rs' r H, observeStored S (afterRequests S.conv [] rs) a (argsOf dims args) =
      (afterRequests S.conv [] rs', .ok r) ∧ G.Part dims ls H ∧ H.Fits dims ∧
      OnGrid H dims u (fun pos => g (whole ls pos)) r :=
  observed_of_request h hf h0 hc ha rs args ls
    (fun d hd hs rs => parse_chooses S.toInt nodes systems φ hφ rs (hw d hd) (h1 d hd hs))
    (fun hs => parse_shells (hw _ hs) (h2 hs))

/-! ## Witnesses -/

/-- The dataset of `sampleGrid`, with the radii `R` and the times `T`. -/
noncomputable def sampleSetting (T R : Arr String (AnyAxis ℝ) ℝ) (systems : List System) : Setting String :=
  ⟨fun _ => none, realConv tableNodes systems, .mks, sampleGrid.axis, "time", "shell", "radius", ["time"], fun _ => T, R⟩

theorem sample_whole : ∀ d ∈ ["time", "shell"], WholeAxis (sampleGrid.axis d) := by
  intro d hd
  fin_cases hd <;> rfl

set_option maxHeartbeats 100000000 in
theorem sample_minutes : UnitFactor tableNodes size [⟨1, c! "s", 1⟩] [⟨1, c! "min", 1⟩] 60 := by
  refine .inr ⟨c! "s", c! "min", rfl, isSymbolOf_of (by decide +kernel), rfl, isSymbolOf_of (by decide +kernel),
    convertible_of (by decide +kernel), ?_⟩
  have h : size c! "min" = 60 * size c! "s" ∧ size c! "s" ≠ 0 := by decide +kernel
  rw [h.1]
  have h2 : ((size c! "s" : ℚ) : ℝ) ≠ 0 := by exact_mod_cast h.2
  push_cast
  field_simp

/-- the hypotheses of `c93_select` for `a[(1/12 min, 1/60 min), [3, 0]]` -/
example (systems : List System) : ∃ (T R a : Arr String (AnyAxis ℝ) ℝ) (args : String → UserArg) (ls : String → List Nat),
    (∃ u g, OnGrid sampleGrid ["time", "shell"] u g (.array a)) ∧
    args "time" = .measured [1 / 12, 1 / 60] [⟨1, c! "min", 1⟩] ∧ args "shell" = .indices [3, 0] ∧
    ls "time" = [2, 0] ∧ ls "shell" = [3, 0] ∧
    (∀ d ∈ ["time", "shell"], d ≠ (sampleSetting T R systems).shell →
      Chooses (sampleSetting T R systems).toInt tableNodes size (sampleGrid.axis d) (ls d) (args d)) ∧
    ((sampleSetting T R systems).shell ∈ ["time", "shell"] →
      ChoosesShells (sampleGrid.axis (sampleSetting T R systems).shell) (ls (sampleSetting T R systems).shell)
        (args (sampleSetting T R systems).shell)) := by
  obtain ⟨a, ha⟩ := sample_array [⟨1, c! "m", 1⟩]
  refine ⟨a, a, a, fun d => if d = "time" then .measured [1 / 12, 1 / 60] [⟨1, c! "min", 1⟩] else .indices [3, 0],
    fun d => if d = "time" then [2, 0] else [3, 0], ⟨_, _, ha⟩, rfl, rfl, rfl, rfl, ?_, ?_⟩
  · intro d hd hs
    fin_cases hd
    · refine ⟨by simp, ⟨[1, 2, 5], none⟩, _, 60, rfl, .inl sample_minutes, ?_⟩
      refine .cons ⟨by norm_num, ?_⟩ (.cons ⟨by norm_num, by simp⟩ .nil)
      intro j hj
      interval_cases j <;> norm_num
    · exact absurd rfl hs
  · intro _
    refine ⟨by simp, by simp, ⟨[0, 1, 2, 3], none⟩, rfl, ?_⟩
    exact .cons ⟨by decide, by decide⟩ (.cons ⟨by decide, by decide⟩ .nil)

end Eprem.Observable
