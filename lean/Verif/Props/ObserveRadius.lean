import Verif.Props.ObserveInterpolate
import Verif.Props.MetricSystem

/-!
# C95: interpolation of observable quantities to radii
-/

namespace Eprem.Observable

open Eprem Eprem.Symbolic Eprem.Metric Eprem.Numeric Eprem.Measured Eprem.Physical Eprem.Interpolate

variable {κ : Type} [DecidableEq κ]

/-! ## Units of length -/

/-- The symbols of units of length. -/
def lengthSymbols : List Name :=
  (basePrefix :: scaledPrefixes).flatMap (fun p => [c! "m", c! "au", c! "Rs"].map (fun u => p.symbol ++ u))

theorem length_table : ∀ p ∈ namedTable, p.2.base.quantity = c! "length" → p.2.symbol ∈ lengthSymbols := by decide +kernel

set_option maxHeartbeats 100000000 in
theorem length_parse : ∀ n ∈ lengthSymbols, exprOfString false n = .ok [⟨1, n, 1⟩] ∨ freshUnit n ≠ .ok [⟨1, n, 1⟩] := by
  decide +kernel

theorem length_ne : ∀ n ∈ lengthSymbols, n ≠ c! "1" := by decide +kernel

theorem length_unitless : ∀ n ∈ lengthSymbols, Axis.isUnitless [⟨1, n, 1⟩] = false := by decide +kernel

theorem length_unambiguous : ∀ n ∈ lengthSymbols, ∀ s ∈ [System.mks, .cgs], (s = .mks → n ≠ c! "cm") →
    ∀ x ∈ sharedUnits s, exprEq x [⟨1, n, 1⟩] = false := by decide +kernel

theorem length_quantity : ∀ n ∈ lengthSymbols, getQuantity [⟨1, n, 1⟩] = .ok [⟨1, c! "length", 1⟩] := by decide +kernel

theorem length_substitution : ∀ s ∈ [System.mks, .cgs], substitution s (showExpr [⟨1, c! "length", 1⟩]) = .ok (lengthUnit s) := by
  decide +kernel

theorem length_symbol {n : Name} (hn : IsSymbolOf n n) (hq : quantityOf n = some c! "length") : n ∈ lengthSymbols := by
  obtain ⟨_, _, e, he, hs⟩ := hn
  obtain ⟨p, hp, _, rfl⟩ := named_mem he
  rw [← hs]
  refine length_table p hp ?_
  simpa [quantityOf, he] using hq

theorem length_target (s : System) {n : Name} (hn : IsSymbolOf n n) (hq : quantityOf n = some c! "length")
    (hc : s = .mks → n ≠ c! "cm") : systemTarget s n none = .ok (lengthUnit s) := by
  have hm := length_symbol hn hq
  rw [target_eq ((length_parse n hm).resolve_right (fun h => h hn.2.1)) (length_ne n hm)
    (length_unambiguous n hm s (mem_systems s) hc) (length_quantity n hm)]
  exact length_substitution s (mem_systems s)

/-- Radii in the unit of the metric system. -/
theorem inSystem_length {nodes : List Name} {systems : List System} (φ : Name → ℚ) (hφ : TableSizes φ) (s : System)
    (rs : List (Name × Name)) (l : List ℝ) {n : Name} (hn : IsSymbolOf n n) (hq : quantityOf n = some c! "length")
    (hc : s = .mks → n ≠ c! "cm") (hcv : Convertible nodes n (lengthUnit s)) :
    ∃ rs', inSystem (realConv nodes systems) (afterRequests (realConv nodes systems) [] rs) s (l, [⟨1, n, 1⟩]) =
      (afterRequests (realConv nodes systems) [] rs', .ok (l.map (fun v => v * ((φ n : ℝ) / φ (lengthUnit s))))) := by
  obtain ⟨⟨f, hf⟩, g, hg⟩ := hcv
  obtain ⟨h1, h2⟩ := c83_factor nodes systems φ hφ s n (lengthUnit s) none f g (length_target s hn hq hc) hf hg rs
  have hst : ∃ rs', (convertSystem (realConv nodes systems) (afterRequests (realConv nodes systems) [] rs) s n none).1 =
      afterRequests (realConv nodes systems) [] rs' := by
    unfold convertSystem
    rw [length_target s hn hq hc]
    dsimp only
    by_cases hu : n = lengthUnit s ∧ n ≠ c! "1"
    · rw [if_pos hu]; exact ⟨rs, rfl⟩
    · rw [if_neg hu]
      refine ⟨rs ++ [(n, lengthUnit s)], ?_⟩
      rw [afterRequests_append]
      cases conversionFactory (realConv nodes systems) (afterRequests (realConv nodes systems) [] rs) n (lengthUnit s) with
      | mk st r => cases r <;> rfl
  obtain ⟨rs', h3⟩ := hst
  refine ⟨rs', ?_⟩
  unfold inSystem
  rw [show_symbol]
  have : convertSystem (realConv nodes systems) (afterRequests (realConv nodes systems) [] rs) s n none =
      (afterRequests (realConv nodes systems) [] rs', .ok (lengthUnit s, (f : ℝ))) := Prod.ext h3 h1
  rw [this]
  simp only [h2]
  push_cast
  rw [List.map_congr_left (fun v _ => mul_comm _ v)]

/-! ## The request -/

theorem rows_ok (rows : List (List ℝ)) (ts : List ℝ) (hr : rows ≠ []) (ht : ts ≠ []) :
    ∃ l, restrict2 (boundsRows rows) ts = .ok l := by
  obtain ⟨bs, h0, h1, _⟩ := boundsAll_rows hr ts
  have hbs : bs ≠ [] := by
    intro h; rw [h] at h1; exact ht (List.eq_nil_of_length_eq_zero h1.symm)
  obtain ⟨lo, hi, h2, _⟩ := restrictLoop_spec hbs
  exact ⟨indexRange lo hi, by simp only [restrict2, h0, h2]⟩

theorem restrict_off_then {S : Setting κ} {nodes : List Name} {systems : List System} (hc : S.conv = realConv nodes systems)
    (φ : Name → ℚ) (hφ : TableSizes φ) (ts : κ → List ℝ) (tail : List (κ × Assumption)) : ∀ (args : List (κ × UserArg)),
    (∀ p ∈ args, p.1 ≠ S.shell ∧ p.1 ≠ S.radius ∧ NotOn (UnitFactor nodes φ) (S.axes p.1) (ts p.1) p.2) →
    ∀ (rs : List (Name × Name)) (idx : κ → Option Arg),
    ∃ rs' idx', restrictLoop' S (afterRequests S.conv [] rs) idx (args.map (fun p => (p.1, keptOf p.2)) ++ tail) =
      restrictLoop' S (afterRequests S.conv [] rs') idx' tail ∧ ∀ k, k ∉ args.map Prod.fst → idx' k = idx k
  | [], _, rs, idx => ⟨rs, idx, rfl, fun _ _ => rfl⟩
  | (k, v) :: args, h, rs, idx => by
    obtain ⟨h1, h2, vs, u, x, ux, f, hv, hax, hf, hts, t, ht, hoff⟩ := h (k, v) (by simp)
    simp only at h1 h2 hv hax hts
    subst hv
    obtain ⟨rs₁, e1⟩ := inUnit_factor (systems := systems) φ hφ rs vs hf
    rw [← hc, ← hts] at e1
    obtain ⟨l, e2⟩ := restrict_ok x.data (ts k) (List.ne_nil_of_mem ht)
    obtain ⟨rs', idx', e3, e4⟩ := restrict_off_then hc φ hφ ts tail args (fun p hp => h p (by simp [hp])) rs₁
      (Function.update idx k (some (.seq .other (l.map (fun i : Nat => (i : ℤ))))))
    refine ⟨rs', idx', ?_, fun j hj => ?_⟩
    · simp only [List.map_cons, List.cons_append, restrictLoop', if_neg h1, if_neg h2, hax, keptOf, e1, e2]
      exact e3
    · simp only [List.map_cons, List.mem_cons, not_or] at hj
      rw [e4 j hj.2, Function.update_of_ne hj.1]

/-- The radii in the unit of the array of radii. -/
theorem restrict_radius {S : Setting κ} {nodes : List Name} {systems : List System} (hc : S.conv = realConv nodes systems)
    (φ : Name → ℚ) (hφ : TableSizes φ) {G : Grid κ (AnyAxis ℝ)} {ur : List Term} {R : (κ → Nat) → ℝ}
    (hr : OnGrid G [S.time, S.shell] ur R (.array S.grid)) (hsr : S.radius ≠ S.shell) {vs : List ℝ} {u : List Term} {f : ℝ}
    (hv : vs ≠ []) (hf : UnitFactor nodes φ ur u f) (rs : List (Name × Name)) (idx : κ → Option Arg) :
    ∃ rs' idx', restrictLoop' S (afterRequests S.conv [] rs) idx [(S.radius, (vs, u))] = (afterRequests S.conv [] rs', .ok idx') ∧
      ∀ k, k ≠ S.shell → idx' k = idx k := by
  obtain ⟨rs₁, e1⟩ := inUnit_factor (systems := systems) φ hφ rs vs hf
  rw [← hc] at e1
  have hu : S.grid.arr.unit = ur := by
    obtain ⟨_, c, hc, _, _, _, _, hu, _⟩ := hr
    cases hc; exact hu
  have hrows : rowsOf S.grid.arr.data.data ≠ [] := by
    have hp := G.pos S.time
    unfold rowsOf
    rw [(hasDims_grid hr).shape]
    intro h
    simp at h
    omega
  obtain ⟨l, e2⟩ := rows_ok (rowsOf S.grid.arr.data.data) (vs.map (fun v => v * f)) hrows (by simpa using hv)
  refine ⟨rs₁, Function.update idx S.shell (some (.seq .other (l.map (fun i : Nat => (i : ℤ))))), ?_,
    fun k hk => Function.update_of_ne hk _ _⟩
  simp only [restrictLoop', if_neg hsr, if_true, hu, e1, e2]

/-- The request made from arguments on the axes, arguments beside the axes, and radii. -/
theorem request_radius {S : Setting κ} {nodes : List Name} {systems : List System} (hc : S.conv = realConv nodes systems)
    (φ : Name → ℚ) (hφ : TableSizes φ) (rs : List (Name × Name)) (dims : List κ) (hn : dims.Nodup) (off : List κ)
    (args : κ → UserArg) (ts : κ → List ℝ) (ls : κ → List Nat)
    (ho : ∀ d ∈ off, d ∈ dims ∧ d ≠ S.shell ∧ d ≠ S.radius ∧ NotOn (UnitFactor nodes φ) (S.axes d) (ts d) (args d) ∧ axisData (S.axes d) ≠ [])
    (h1 : ∀ d ∈ dims, d ≠ S.shell → d ∉ off → Parses S.toInt nodes systems (S.axes d) (ls d) (args d))
    {G : Grid κ (AnyAxis ℝ)} {ur : List Term} {R : (κ → Nat) → ℝ} (hr : OnGrid G [S.time, S.shell] ur R (.array S.grid))
    (hs : S.shell ∈ dims) (hrd : S.radius ∉ dims) {vs : List ℝ} {n : Name} {f : ℝ} (hv : vs ≠ [])
    (hsym : IsSymbolOf n n) (hq : quantityOf n = some c! "length")
    (hf : UnitFactor nodes φ ur [⟨1, n, 1⟩] f) (hsh : args S.shell = .measured vs [⟨1, n, 1⟩]) :
    ∃ rs' idx, makeRequest S (afterRequests S.conv [] rs) (argsOf dims args) =
      (afterRequests S.conv [] rs', .ok ⟨idx, (dims.filter (fun d => d ∈ off)).map (fun d => (d, keptOf (args d))) ++
        [(S.radius, (vs, [⟨1, n, 1⟩]))]⟩) ∧ idx S.radius = none ∧
      ∀ d ∈ dims, d ≠ S.shell → d ∉ off → ObservedPositions (S.axes d).length (idx d) (ls d) := by
  have hsr : S.radius ≠ S.shell := fun h => hrd (h ▸ hs)
  obtain ⟨rs₁, idx, e1, e2, e3⟩ := loop_mixed hc φ hφ off ts ls (argsOf (dims.filter (fun d => d ≠ S.shell)) args)
    (by rw [argsOf_keys]; exact hn.filter _) (fun p hp hpo => by
      obtain ⟨d, hd, rfl⟩ := List.mem_map.1 hp
      obtain ⟨hd, hs⟩ := List.mem_filter.1 hd
      exact h1 d hd (by simpa using hs) hpo) (fun p hp hpo => by
      obtain ⟨d, hd, rfl⟩ := List.mem_map.1 hp
      exact ⟨(ho d hpo).2.2.2.1.loose, (ho d hpo).2.2.2.2⟩) rs ⟨fun _ => none, []⟩
  have hp : ((argsOf (dims.filter (fun d => d ≠ S.shell)) args).filter (fun p => p.1 ∈ off)).map (fun p => (p.1, keptOf p.2)) =
      (argsOf (dims.filter (fun d => d ∈ off)) args).map (fun p => (p.1, keptOf p.2)) := by
    unfold argsOf
    rw [List.filter_map, List.filter_filter]
    congr 2
    refine List.filter_congr (fun d hd => ?_)
    by_cases hdo : d ∈ off
    · have := (ho d hdo).2.1
      simp [hdo, this]
    · simp [hdo]
  have hp2 : (argsOf (dims.filter (fun d => d ∈ off)) args).map (fun p => (p.1, keptOf p.2)) =
      (dims.filter (fun d => d ∈ off)).map (fun d => (d, keptOf (args d))) := by
    simp [argsOf]
  rw [List.nil_append, hp] at e1
  have hb : ∀ p ∈ argsOf (dims.filter (fun d => d ∈ off)) args,
      p.1 ≠ S.shell ∧ p.1 ≠ S.radius ∧ NotOn (UnitFactor nodes φ) (S.axes p.1) (ts p.1) p.2 := fun p hp => by
    obtain ⟨d, hd, rfl⟩ := List.mem_map.1 hp
    have := (ho d (by simpa using (List.mem_filter.1 hd).2)).2
    exact ⟨this.1, this.2.1, this.2.2.1⟩
  obtain ⟨rs₂, idx₂, f1, f2⟩ := restrict_off_then hc φ hφ ts [(S.radius, (vs, [⟨1, n, 1⟩]))] _ hb rs₁ idx
  obtain ⟨rs', idx', g1, g2⟩ := restrict_radius hc φ hφ hr hsr hv hf rs₂ idx₂
  have hm := length_symbol hsym hq
  refine ⟨rs', idx', ?_, ?_, fun d hd hds hdo => ?_⟩
  · unfold makeRequest
    rw [argsOf_get, if_pos hs, argsOf_filter, e1]
    have : shellOrRadius (args S.shell) = .ok (.radius (vs, [⟨1, n, 1⟩])) := by
      rw [hsh]
      simp only [shellOrRadius, length_unitless n hm, length_quantity n hm, Bool.false_eq_true, if_false]
      rw [if_pos (by decide +kernel)]
    simp only [this, Except.map, implementShell, f1, g1]
    rw [hp2]
  · rw [g2 _ hsr, f2 _ (by rw [argsOf_keys]; simp [hrd]), e2 _ (by rw [argsOf_keys]; simp [hrd])]
  · rw [g2 d hds, f2 d (by rw [argsOf_keys]; simp [hdo])]
    obtain ⟨a, ha, hp⟩ := e3 (d, args d) (List.mem_map.2 ⟨d, List.mem_filter.2 ⟨hd, by simpa using hds⟩, rfl⟩) hdo
    rw [ha]; exact hp

/-! ## The interpolants -/

theorem interpolants_extra (S : Setting κ) (a : Arr κ (AnyAxis ℝ) ℝ) (p : List (κ × Assumption)) (m : Assumption)
    (hr : Dict.get? a.axes S.radius = none) : ∀ (keys : List κ) (st : Cache ℝ),
    axisInterpolants S a (p ++ [(S.radius, m)]) st keys = axisInterpolants S a p st keys
  | [], _ => rfl
  | k :: keys, st => by
    have ih := interpolants_extra S a p m hr keys
    by_cases hk : k = S.radius
    · subst hk
      simp only [axisInterpolants, hr, ih]
      cases Dict.get? (p ++ [(S.radius, m)]) S.radius <;> cases Dict.get? p S.radius <;> rfl
    · have : Dict.get? (p ++ [(S.radius, m)]) k = Dict.get? p k := by
        clear ih hr
        induction p with
        | nil => rw [List.nil_append, Dict.get?_cons, if_neg (fun h => hk h.symm)]
        | cons q p ih => rw [List.cons_append, Dict.get?_cons, Dict.get?_cons, ih]
      simp only [axisInterpolants, this, ih]

theorem get?_axes_none (G : Grid κ (AnyAxis ℝ)) {d : κ} : ∀ {dims : List κ}, d ∉ dims → Dict.get? (G.axes dims) d = none
  | [], _ => rfl
  | e :: dims, hd => by
    simp only [List.mem_cons, not_or] at hd
    show Dict.get? ((e, G.axis e) :: G.axes dims) d = _
    rw [Dict.get?_cons, if_neg (fun h => hd.1 h.symm)]
    exact get?_axes_none G hd.2

theorem OnGrid.local {G : Grid κ (AnyAxis ℝ)} {dims : List κ} {u : List Term} {g : (κ → Nat) → ℝ} {a : Operand κ (AnyAxis ℝ) ℝ}
    (ha : OnGrid G dims u g a) {p q : κ → Nat} (hp : G.Inside dims p) (hpq : ∀ d ∈ dims, q d = p d) : g q = g p := by
  obtain ⟨_, c, _, _, hd, _, _, _, hg⟩ := ha
  have hq : G.Inside dims q := fun d hd => by rw [hpq d hd]; exact hp d hd
  rw [← hg p hp, ← hg q hq]
  have hd : c.arr.data.dims = dims := hd
  unfold Named.at
  rw [hd, List.map_congr_left hpq]

/-- The interpolant of the radius. -/
theorem grid_radius {G : Grid κ (AnyAxis ℝ)} {dims : List κ} {u ur : List Term} {g R : (κ → Nat) → ℝ}
    {a : Arr κ (AnyAxis ℝ) ℝ} (h : OnGrid G dims u g (.array a)) (hw : ∀ d ∈ dims, WholeAxis (G.axis d))
    (hf : G.Fits dims) {S : Setting κ} (ht : S.time ∈ dims) (hs : S.shell ∈ dims) (hts : S.time ≠ S.shell)
    (hr : OnGrid G [S.time, S.shell] ur R (.array S.grid)) (st st' : Cache ℝ) (parsed : List (κ × Assumption)) (m : Assumption)
    (hp : Dict.get? parsed S.radius = some m) (ρ : List ℝ) (hm : inSystem S.conv st S.system m = (st', .ok ρ)) :
    ∃ ref : Arr κ (AnyAxis ℝ) ℝ, OnGrid G [S.time, S.shell] ur R (.array ⟨ref.arr, G.axes [S.time, S.shell]⟩) ∧
      ((∀ t ∈ ρ, (∃ pos, G.Inside [S.time, S.shell] pos ∧ R pos < t) ∧ ∃ pos, G.Inside [S.time, S.shell] pos ∧ t < R pos) →
        gridInterpolant S st a parsed = (st', .ok [⟨S.radius, ref, ρ⟩])) ∧
      ((¬ ∀ t ∈ ρ, (∃ pos, G.Inside [S.time, S.shell] pos ∧ R pos < t) ∧ ∃ pos, G.Inside [S.time, S.shell] pos ∧ t < R pos) →
        gridInterpolant S st a parsed = (st', .error (.look .value))) := by
  classical
  have hf2 : G.Fits [S.time, S.shell] := fun d hd => by
    rcases List.mem_cons.1 hd with rfl | hd
    · exact hf _ ht
    · rw [List.mem_singleton.1 hd]; exact hf _ hs
  obtain ⟨r, H, k1, k2, k3⟩ := subscript_all hr hf2 (by simp)
  have hR : OnGrid G [S.time, S.shell] ur R (.array ⟨r.arr, G.axes [S.time, S.shell]⟩) := by
    refine (OnGrid.reaxis (H := G) k3 (fun d hd => (k2 d hd).symm)).congr_inside (fun pos hpos => ?_)
    exact hr.local hpos (fun d hd => whole_range hpos hd)
  refine ⟨r, hR, ?_⟩
  obtain ⟨hn, c, hc, hpl, hd, hsh, haxs, hu, hg⟩ := h
  cases hc
  have hget : ∀ d ∈ dims, Dict.get? a.axes d = some (G.axis d) := fun d hd => by
    rw [haxs]; exact get?_axes G hd
  unfold gridInterpolant
  rw [hget _ ht, hget _ hs]
  simp only [(hw _ ht).indices, (hw _ hs).indices, hf _ ht, hf _ hs]
  simp only [List.map_cons, List.map_nil, allIndices] at k1
  simp only [k1, hp, hm]
  have hD := hasDims_grid hR
  have hmem : ∀ v, v ∈ Axis.seqList r.arr.data.data ↔ ∃ pos, G.Inside [S.time, S.shell] pos ∧ R pos = v := fun v => by
    show v ∈ elements r.arr.data.data ↔ _
    rw [mem_elements_two hD.shape]
    constructor
    · rintro ⟨i, hi, j, hj, e⟩
      have hin : G.Inside [S.time, S.shell] (Function.update (fun _ => i) S.shell j) := fun d hd => by
        rcases List.mem_cons.1 hd with rfl | hd
        · rw [Function.update_of_ne hts]; exact hi
        · rw [List.mem_singleton.1 hd, Function.update_self]; exact hj
      refine ⟨_, hin, ?_⟩
      rw [← hD.get _ hin]
      simpa [Function.update_of_ne hts] using e
    · rintro ⟨pos, hpos, e⟩
      refine ⟨pos S.time, hpos _ (by simp), pos S.shell, hpos _ (by simp), ?_⟩
      rw [← e, ← hD.get pos hpos]
      rfl
  have : ρ.all (strictlyInside (Axis.seqList r.arr.data.data)) = true ↔ ∀ t ∈ ρ,
      (∃ pos, G.Inside [S.time, S.shell] pos ∧ R pos < t) ∧ ∃ pos, G.Inside [S.time, S.shell] pos ∧ t < R pos := by
    simp only [List.all_eq_true, strictlyInside, Bool.and_eq_true, List.any_eq_true, decide_eq_true_eq, hmem]
    constructor
    · intro h t ht
      obtain ⟨⟨x, ⟨p, p1, p2⟩, p3⟩, y, ⟨q, q1, q2⟩, q3⟩ := h t ht
      exact ⟨⟨p, p1, p2 ▸ p3⟩, q, q1, q2 ▸ q3⟩
    · intro h t ht
      obtain ⟨⟨p, p1, p2⟩, q, q1, q2⟩ := h t ht
      exact ⟨⟨_, ⟨p, p1, rfl⟩, p2⟩, _, ⟨q, q1, rfl⟩, q2⟩
  exact ⟨fun hc => by rw [if_pos (this.2 hc)], fun hc => by rw [if_neg (fun h => hc (this.1 h))]⟩

/-! ## The result -/

theorem get?_append (p : List (κ × Assumption)) (q : List (κ × Assumption)) (k : κ) :
    Dict.get? (p ++ q) k = match Dict.get? p k with | some m => some m | none => Dict.get? q k := by
  induction p with
  | nil => rfl
  | cons r p ih =>
    rw [List.cons_append, Dict.get?_cons, Dict.get?_cons, ih]
    split <;> rfl

theorem values_between {axis : AnyAxis ℝ} {m : Nat} (hl : axis.length = m) {factor : List Term → List Term → ℝ → Prop}
    {ts : List ℝ} {v : UserArg} (hno : NotOn factor axis ts v) (hs : (axisData axis).Pairwise (· < ·))
    (hin : ∀ t ∈ ts, InsideOf (axisData axis) t) :
    Increasing m (axisValue axis) ∧ ts ≠ [] ∧ ∀ t ∈ ts, axisValue axis 0 ≤ t ∧ t ≤ axisValue axis (m - 1) := by
  obtain ⟨vs, v, x, ux, fc, _, rfl, _, _, t, ht, _⟩ := hno
  have hs : x.data.Pairwise (· < ·) := hs
  have hin : ∀ t ∈ ts, InsideOf x.data t := hin
  have hl : x.data.length = m := hl
  have hval : ∀ i (hi : i < x.data.length), axisValue (.coordinates x ux) i = x.data[i] := fun i hi => by
    simp [axisValue, axisData, List.getD_eq_getElem?_getD, hi]
  refine ⟨fun i j hij hj => ?_, List.ne_nil_of_mem ht, fun t ht => ?_⟩
  · rw [hval i (by omega), hval j (by omega)]
    exact List.pairwise_iff_getElem.1 hs i j (by omega) (by omega) hij
  · obtain ⟨⟨lo, hlo, q1⟩, hi, hhi, q2⟩ := inside_sorted hs hin t ht
    have hpos : 0 < x.data.length := by
      obtain ⟨⟨a, ha, _⟩, _⟩ := hin t ht
      exact List.length_pos_of_mem ha
    rw [hval 0 (by omega), hval (m - 1) (by omega)]
    rw [List.head?_eq_getElem?, List.getElem?_eq_getElem (by omega)] at hlo
    rw [List.getLast?_eq_getElem?, List.getElem?_eq_getElem (by omega)] at hhi
    simp only [Option.mem_some_iff] at hlo hhi
    refine ⟨hlo ▸ q1, ?_⟩
    simp only [← hl]
    exact hhi ▸ q2

theorem length_symbols (s : System) : IsSymbolOf (lengthUnit s) (lengthUnit s) := by
  cases s <;> exact isSymbolOf_of (by decide +kernel)

/-- What is done after the interpolation. -/
noncomputable def finishWith (st : Cache ℝ) (finished : List κ) (idx : κ → Option Arg) :
    Except PErr (Operand κ (AnyAxis ℝ) ℝ) → Cache ℝ × Except PErr (Operand κ (AnyAxis ℝ) ℝ)
  | .error e => (st, .error e)
  | .ok (.array base) => (st, finishInterpolated finished idx base)
  | .ok _ => (st, .error .type)

/-- The positions with a smaller and a larger radius. -/
def InsideRadii (G : Grid κ (AnyAxis ℝ)) (time shell : κ) (R : (κ → Nat) → ℝ) (t : ℝ) : Prop :=
  (∃ pos, G.Inside [time, shell] pos ∧ R pos < t) ∧ ∃ pos, G.Inside [time, shell] pos ∧ t < R pos

theorem radius_setup {G : Grid κ (AnyAxis ℝ)} {dims : List κ} {u : List Term} {g R : (κ → Nat) → ℝ}
    {a : Arr κ (AnyAxis ℝ) ℝ} (h : OnGrid G dims u g (.array a)) (hf : G.Fits dims)
    (hw : ∀ d ∈ dims, WholeAxis (G.axis d)) (nodes : List Name) (systems : List System) (φ : Name → ℚ) (hφ : TableSizes φ)
    (S : Setting κ) (hc : S.conv = realConv nodes systems) (ha : ∀ d ∈ dims, S.axes d = G.axis d)
    (rs : List (Name × Name)) (args : κ → UserArg) (off : List κ)
    (hS : GridArrays S G dims off [⟨1, lengthUnit S.system, 1⟩] R)
    (ts : κ → List ℝ) (ls : κ → List Nat)
    (ho : ∀ d ∈ off, d ∈ dims ∧ d ≠ S.shell ∧ NotOn (UnitFactor nodes φ) (G.axis d) (ts d) (args d) ∧ ls d = List.range (ts d).length)
    (hi : ∀ d ∈ off, (axisData (G.axis d)).Pairwise (· < ·) ∧ ∀ t ∈ ts d, InsideOf (axisData (G.axis d)) t)
    (h1 : ∀ d ∈ dims, d ≠ S.shell → d ∉ off → Chooses S.toInt nodes φ (G.axis d) (ls d) (args d))
    (hs : S.shell ∈ dims) (hts : S.time ≠ S.shell)
    {vs : List ℝ} {n : Name} (hv : vs ≠ []) (hsym : IsSymbolOf n n) (hq : quantityOf n = some c! "length")
    (hcm : S.system = .mks → n ≠ c! "cm") (hcv : Convertible nodes n (lengthUnit S.system))
    (harg : args S.shell = .measured vs [⟨1, n, 1⟩]) (ρ : List ℝ)
    (hρ : ρ = vs.map (fun v => v * ((φ n : ℝ) / φ (lengthUnit S.system)))) :
    ∃ (rs₃ : List (Name × Name)) (idx : κ → Option Arg) (finished : List κ) (b rr : Arr κ (AnyAxis ℝ) ℝ) (T : Grid κ (AnyAxis ℝ))
      (f₀ : (κ → Nat) → ℝ), idx S.radius = none ∧
      (∀ d ∈ dims, d ≠ S.shell → d ∉ off → ObservedPositions (S.axes d).length (idx d) (ls d)) ∧
      (∀ d, d ≠ S.shell → (d ∈ finished ↔ d ∈ off)) ∧
      OnGrid T dims u f₀ (.array b) ∧ (∀ d, d ∉ off → T.size d = G.size d ∧ T.axis d = G.axis d) ∧
      (∀ e ∈ off, T.size e = (ts e).length ∧ T.axis e = newCoordinates (ts e) (axisUnit (G.axis e))) ∧
      Polygons (fun d => axisValue (G.axis d)) ts dims (S.keys.filter (fun d => d ∈ off)) G.size g f₀ ∧
      OnGrid G [S.time, S.shell] [⟨1, lengthUnit S.system, 1⟩] R (.array ⟨rr.arr, G.axes [S.time, S.shell]⟩) ∧
      ((∀ t ∈ ρ, InsideRadii G S.time S.shell R t) →
        observeStored S (afterRequests S.conv [] rs) a (argsOf dims args) = finishWith (afterRequests S.conv [] rs₃) finished idx
          (interpolate [S.radius] S.shell S.radius newCoordinates b [⟨S.radius, rr, ρ⟩])) ∧
      ((¬ ∀ t ∈ ρ, InsideRadii G S.time S.shell R t) →
        observeStored S (afterRequests S.conv [] rs) a (argsOf dims args) = (afterRequests S.conv [] rs₃, .error (.look .value))) := by
  have htd := hS.time hs
  have hdata : ∀ d ∈ off, axisData (G.axis d) ≠ [] := fun d hd => by
    obtain ⟨_, _, ⟨vs, v, x, ux, fc, _, _, _, _, t, ht, _⟩, _⟩ := ho d hd
    obtain ⟨⟨lo, hlo, _⟩, _⟩ := (hi d hd).2 t ht
    exact List.ne_nil_of_mem hlo
  have hfac : UnitFactor nodes φ [⟨1, lengthUnit S.system, 1⟩] [⟨1, n, 1⟩] ((φ n : ℝ) / φ (lengthUnit S.system)) :=
    .inr ⟨_, _, rfl, length_symbols _, rfl, hsym, hcv, rfl⟩
  obtain ⟨rs₁, idx, e1, e0, e2⟩ := request_radius hc φ hφ rs dims h.nodup off args ts ls
    (fun d hd => ⟨(ho d hd).1, (ho d hd).2.1, fun h => hS.radius (h ▸ (ho d hd).1), by
      rw [ha d (ho d hd).1]
      exact ⟨(ho d hd).2.2.1, hdata d hd⟩⟩)
    (fun d hd hs hdo => by
      rw [ha d hd]
      exact fun rs => parse_chooses S.toInt nodes systems φ hφ rs (hw d hd) (h1 d hd hs hdo))
    (hS.radii hs) hs hS.radius hv hsym hq hfac harg
  have hfit : ∀ d ∈ dims, G.Fits [d] := fun d hd e he => by rw [List.mem_singleton.1 he]; exact hf d hd
  have href : ∀ e, ∃ r, e ∈ off →
      (S.refs e).getItem AnyAxis.getItem (.one (.seq .other (allIndices (G.size e)))) = .ok (.array r) ∧
      ∃ H : Grid κ (AnyAxis ℝ), H.size e = G.size e ∧
        OnGrid H [e] (axisUnit (G.axis e)) (fun pos => axisValue (G.axis e) (pos e)) (.array r) := fun e => by
    by_cases he : e ∈ off
    · obtain ⟨r, hr⟩ := reference_all (hS.refs e he).2 (hfit e (ho e he).1)
      exact ⟨r, fun _ => hr⟩
    · exact ⟨a, fun h => absurd h he⟩
  choose ref href using href
  obtain ⟨rs₂, e3⟩ := interpolants_between hc φ hφ (keys_grid h).1 hf hw ha off args ts
    (fun d hd => ⟨(ho d hd).1, (ho d hd).2.2.1, (hi d hd).2⟩) ref (fun e he => (href e he).1) S.keys rs₁
  rw [← interpolants_extra S a _ (vs, [⟨1, n, 1⟩]) (by rw [(keys_grid h).1]; exact get?_axes_none G hS.radius)] at e3
  have hmem : ∀ e, e ∈ S.keys.filter (fun d => d ∈ off) ↔ e ∈ off := fun e => by
    rw [List.mem_filter]
    constructor
    · rintro ⟨_, h⟩; simpa using h
    · intro h; exact ⟨(hS.refs e h).1, by simpa using h⟩
  obtain ⟨b, T, f₀, k1, k2, k3, k4, k5⟩ := interpolate_axes_then [S.radius] S.shell S.radius
    (fun d => axisValue (G.axis d)) ts (fun d => axisUnit (G.axis d)) ref (S.keys.filter (fun d => d ∈ off))
    (hS.keys.filter _) (fun e he => by
      have he := (hmem e).1 he
      exact ⟨(ho e he).1, by
        rw [List.mem_singleton]
        exact fun h => hS.radius (h ▸ (ho e he).1)⟩) h
    (fun e he => by
      have he := (hmem e).1 he
      exact values_between (hf e (ho e he).1) (ho e he).2.2.1 (hi e he).1 (hi e he).2)
    (fun e he => (href e ((hmem e).1 he)).2)
  obtain ⟨rs₃, e4⟩ := inSystem_length (systems := systems) φ hφ S.system rs₂ vs hsym hq hcm hcv
  rw [← hc, ← hρ] at e4
  obtain ⟨rr, g1, g2, g3⟩ := grid_radius h hw hf htd hs hts (hS.radii hs) _ _
    ((dims.filter (fun d => d ∈ off)).map (fun d => (d, keptOf (args d))) ++ [(S.radius, (vs, [⟨1, n, 1⟩]))])
    (vs, [⟨1, n, 1⟩]) (by
      rw [get?_append, parsed_get, if_neg (fun h => hS.radius h.1)]
      simp [Dict.get?]) ρ e4
  let is := (S.keys.filter (fun d => d ∈ off)).map (fun e => (⟨e, ref e, ts e⟩ : Interpolant κ (AnyAxis ℝ))) ++
    [⟨S.radius, rr, ρ⟩]
  have hfin : ∀ d, d ≠ S.shell → (d ∈ is.map (fun i => if i.dimension = S.radius then S.shell else i.dimension) ↔ d ∈ off) := fun d hds => by
    rw [List.map_append, List.map_map, ← hmem d]
    have : (S.keys.filter (fun d => d ∈ off)).map ((fun i : Interpolant κ (AnyAxis ℝ) =>
        if i.dimension = S.radius then S.shell else i.dimension) ∘ (fun e => ⟨e, ref e, ts e⟩)) =
        (S.keys.filter (fun d => d ∈ off)).map id := List.map_congr_left (fun e he => by
      have : e ≠ S.radius := fun h => hS.radius (h ▸ (ho e ((hmem e).1 he)).1)
      simp [this])
    rw [this, List.map_id]
    simp [hds]
  have hpne : (dims.filter (fun d => d ∈ off)).map (fun d => (d, keptOf (args d))) ++ [(S.radius, (vs, [⟨1, n, 1⟩]))] ≠ [] := by
    simp
  refine ⟨rs₃, idx, is.map (fun i => if i.dimension = S.radius then S.shell else i.dimension), b, rr, T, f₀, e0, e2, hfin, k2,
    fun d hd => k3 d (fun h => hd ((hmem d).1 h)), fun d hd => k4 d ((hmem d).2 hd), k5, g1, fun hin => ?_, fun hin => ?_⟩
  · have hgrid : (if S.shell ∈ a.axes.keys then gridInterpolant S (afterRequests S.conv [] rs₂) a
        ((dims.filter (fun d => d ∈ off)).map (fun d => (d, keptOf (args d))) ++ [(S.radius, (vs, [⟨1, n, 1⟩]))])
        else (afterRequests S.conv [] rs₂, .ok [])) = (afterRequests S.conv [] rs₃, .ok [⟨S.radius, rr, ρ⟩]) := by
      rw [(keys_grid h).2, if_pos hs, g2 hin]
    simp only [observeStored, e1, observe, if_neg hpne, interpolateObserved, e3, hgrid, k1]
    cases interpolate [S.radius] S.shell S.radius newCoordinates b [⟨S.radius, rr, ρ⟩] with
    | error e => rfl
    | ok o => cases o <;> rfl
  · have hgrid : (if S.shell ∈ a.axes.keys then gridInterpolant S (afterRequests S.conv [] rs₂) a
        ((dims.filter (fun d => d ∈ off)).map (fun d => (d, keptOf (args d))) ++ [(S.radius, (vs, [⟨1, n, 1⟩]))])
        else (afterRequests S.conv [] rs₂, .ok [])) = (afterRequests S.conv [] rs₃, .error (.look .value)) := by
      rw [(keys_grid h).2, if_pos hs, g3 hin]
    simp only [observeStored, e1, observe, if_neg hpne, interpolateObserved, e3, hgrid]

/-- Axes beside the time, and a radius. -/
theorem observed_radius {G : Grid κ (AnyAxis ℝ)} {dims : List κ} {u : List Term} {g R : (κ → Nat) → ℝ}
    {a : Arr κ (AnyAxis ℝ) ℝ} (h : OnGrid G dims u g (.array a)) (hf : G.Fits dims)
    (hw : ∀ d ∈ dims, WholeAxis (G.axis d)) (nodes : List Name) (systems : List System) (φ : Name → ℚ) (hφ : TableSizes φ)
    (S : Setting κ) (hc : S.conv = realConv nodes systems) (ha : ∀ d ∈ dims, S.axes d = G.axis d)
    (rs : List (Name × Name)) (args : κ → UserArg) (off : List κ)
    (hS : GridArrays S G dims off [⟨1, lengthUnit S.system, 1⟩] R)
    (ts : κ → List ℝ) (ls : κ → List Nat)
    (ho : ∀ d ∈ off, d ∈ dims ∧ d ≠ S.shell ∧ NotOn (UnitFactor nodes φ) (G.axis d) (ts d) (args d) ∧ ls d = List.range (ts d).length)
    (hi : ∀ d ∈ off, (axisData (G.axis d)).Pairwise (· < ·) ∧ ∀ t ∈ ts d, InsideOf (axisData (G.axis d)) t)
    (h1 : ∀ d ∈ dims, d ≠ S.shell → d ∉ off → Chooses S.toInt nodes φ (G.axis d) (ls d) (args d))
    (hs : S.shell ∈ dims) (hts : S.time ≠ S.shell) (htime : S.time ∈ off → (ts S.time).length ≤ G.size S.time)
    {vs : List ℝ} {n : Name} (hv : vs ≠ []) (hsym : IsSymbolOf n n) (hq : quantityOf n = some c! "length")
    (hcm : S.system = .mks → n ≠ c! "cm") (hcv : Convertible nodes n (lengthUnit S.system))
    (harg : args S.shell = .measured vs [⟨1, n, 1⟩]) (ρ : List ℝ)
    (hρ : ρ = vs.map (fun v => v * ((φ n : ℝ) / φ (lengthUnit S.system)))) (hlr : ls S.radius = List.range ρ.length)
    (hinc : RadiiRise G S.time S.shell R) (hno' : ∀ t ∈ ρ, ¬ RadiusOfShell G S.time S.shell R t)
    (hin : ∀ t ∈ ρ, BetweenShells G S.time S.shell R t) :
    ∃ (rs' : List (Name × Name)) (r : Operand κ (AnyAxis ℝ) ℝ) (T H : Grid κ (AnyAxis ℝ)) (f₀ f : (κ → Nat) → ℝ),
      observeStored S (afterRequests S.conv [] rs) a (argsOf dims args) = (afterRequests S.conv [] rs', .ok r) ∧
      (∀ d, d ≠ S.radius → d ∉ off → T.size d = G.size d ∧ T.axis d = G.axis d) ∧
      (∀ d ∈ off, T.size d = (ts d).length ∧ T.axis d = .coordinates ⟨ts d, none⟩ (axisUnit (G.axis d))) ∧
      T.size S.radius = ρ.length ∧ T.axis S.radius = .coordinates ⟨ρ, none⟩ [⟨1, lengthUnit S.system, 1⟩] ∧
      Polygons (fun d => axisValue (G.axis d)) ts dims (S.keys.filter (fun d => d ∈ off)) G.size g f₀ ∧
      (∀ pos, T.Inside (renamed dims S.shell S.radius) pos → ∀ t, ρ[pos S.radius]? = some t →
        OnPolygon (G.size S.shell) (fun i => R (Function.update pos S.shell i)) (fun i => f₀ (Function.update pos S.shell i)) t (f pos)) ∧
      T.Part (renamed dims S.shell S.radius) ls H ∧ H.Fits (renamed dims S.shell S.radius) ∧
      OnGrid H (renamed dims S.shell S.radius) u (fun pos => f (whole ls pos)) r := by
  have hno : ∀ t ∈ ρ, ∀ pos, G.Inside [S.time, S.shell] pos → R pos ≠ t := fun t ht pos hp e => hno' t ht ⟨pos, hp, e⟩
  have hsr : S.radius ≠ S.shell := fun h => hS.radius (h ▸ hs)
  have htd := hS.time hs
  have h0 : dims ≠ [] := List.ne_nil_of_mem hs
  have hρ0 : 0 < ρ.length := by rw [hρ, List.length_map]; exact List.length_pos_of_ne_nil hv
  obtain ⟨rs₃, idx, finished, b, rr, T, f₀, e0, e2, hfin, k2, k3, k4, k5, g1, g2, _⟩ := radius_setup h hf hw nodes systems φ hφ S hc ha rs
    args off hS ts ls ho hi h1 hs hts hv hsym hq hcm hcv harg ρ hρ
  have hTs : T.size S.shell = G.size S.shell := (k3 _ (fun h => (ho _ h).2.1 rfl)).1
  have hTt : T.size S.time ≤ G.size S.time := by
    by_cases hto : S.time ∈ off
    · rw [(k4 _ hto).1]; exact htime hto
    · rw [(k3 _ hto).1]
  have hpt : (fun _ : κ => 0) S.time < G.size S.time := G.pos _
  have g2 := g2 (fun t ht => by
    obtain ⟨q1, q2⟩ := hin t ht (fun _ => 0) hpt
    have hins : ∀ i < G.size S.shell, G.Inside [S.time, S.shell] (Function.update (fun _ => 0) S.shell i) := fun i hi d hd => by
      rcases List.mem_cons.1 hd with rfl | hd
      · rw [Function.update_of_ne hts]; exact hpt
      · rw [List.mem_singleton.1 hd, Function.update_self]; exact hi
    have hp := G.pos S.shell
    exact ⟨⟨_, hins 0 hp, q1⟩, _, hins _ (by omega), q2⟩)
  have hn2 : 2 ≤ T.size S.shell := by
    rw [hTs]
    obtain ⟨t, ht⟩ := List.exists_mem_of_length_pos hρ0
    obtain ⟨q1, q2⟩ := hin t ht (fun _ => 0) hpt
    have hp := G.pos S.shell
    by_contra hlt
    have : G.size S.shell - 1 = 0 := by omega
    rw [this] at q2
    linarith
  obtain ⟨r₁, f, m1, m2, m3⟩ := radius_rows (G := T) (G' := G) [S.radius] S.time S.shell S.radius S.radius newCoordinates htd hs hts
    hS.radius (by simp) hn2 hTt hTs.symm k2 g1 (fun pos i j hp hij hj => hinc pos i j hp hij (hTs ▸ hj)) ρ hρ0 hno
    (fun t ht pos hp => by
      obtain ⟨q1, q2⟩ := hin t ht pos (lt_of_lt_of_le hp hTt)
      rw [hTs]
      exact ⟨q1.le, q2.le⟩)
  have m1 := (interpolate_reference (r := rr) (r' := ⟨rr.arr, G.axes [S.time, S.shell]⟩) rfl).trans m1
  obtain ⟨y, rfl⟩ : ∃ z, r₁ = .array z := by obtain ⟨_, c, hc, _⟩ := m2; exact ⟨c, hc⟩
  set T' := regrid T S.radius ρ.length hρ0 (newCoordinates ρ [⟨1, lengthUnit S.system, 1⟩]) with hT'
  have hT1 : ∀ d, d ≠ S.radius → T'.size d = T.size d ∧ T'.axis d = T.axis d := fun d hd =>
    ⟨Function.update_of_ne hd _ _, Function.update_of_ne hd _ _⟩
  have hT2 : T'.size S.radius = ρ.length ∧ T'.axis S.radius = newCoordinates ρ [⟨1, lengthUnit S.system, 1⟩] :=
    ⟨Function.update_self .., Function.update_self ..⟩
  have hren : ∀ d ∈ renamed dims S.shell S.radius, d = S.radius ∨ (d ∈ dims ∧ d ≠ S.shell ∧ d ≠ S.radius) := fun d hd => by
    obtain ⟨e, he, hed⟩ := List.mem_map.1 hd
    by_cases hes : e = S.shell
    · rw [if_pos hes] at hed; exact .inl hed.symm
    · rw [if_neg hes] at hed
      subst hed
      exact .inr ⟨he, hes, fun h => hS.radius (h ▸ he)⟩
  have hTf : T'.Fits (renamed dims S.shell S.radius) := fun d hd => by
    rcases hren d hd with rfl | ⟨hd, _, hdr⟩
    · rw [hT2.1, hT2.2]; rfl
    · rw [(hT1 d hdr).1, (hT1 d hdr).2]
      by_cases hdo : d ∈ off
      · obtain ⟨q1, q2⟩ := k4 d hdo
        rw [q1, q2]; rfl
      · obtain ⟨q1, q2⟩ := k3 d hdo
        rw [q1, q2]; exact hf d hd
  have hro : S.radius ∉ off := fun h => hS.radius (ho _ h).1
  obtain ⟨r, H, n1, n2, n3, n4⟩ := finish_grid m2 hTf (by simpa [renamed] using h0)
    finished idx ls
    (fun d hd hdf => by
      rcases hren d hd with rfl | ⟨hd, hds, hdr⟩
      · exact absurd ((hfin _ hsr).1 hdf) hro
      · have hdo := (hfin d hds).1 hdf
        rw [(hT1 d hdr).1, (k4 d hdo).1]
        exact (ho d hdo).2.2.2)
    (fun d hd hdf => by
      rcases hren d hd with rfl | ⟨hd, hds, hdr⟩
      · rw [hT2.1, e0]; exact hlr
      · have hdo : d ∉ off := fun h => hdf ((hfin d hds).2 h)
        have := e2 d hd hds hdo
        rw [ha d hd, hf d hd] at this
        rw [(hT1 d hdr).1, (k3 d hdo).1]
        exact this)
  refine ⟨rs₃, r, T', H, f₀, f, ?_, fun d hdr hd => ?_, fun d hd => ?_, hT2.1, hT2.2, k5, fun pos hp t ht => ?_, n2, n3, n4⟩
  · rw [g2, m1]
    exact congrArg (Prod.mk _) n1
  · rw [(hT1 d hdr).1, (hT1 d hdr).2]
    exact k3 d hd
  · have hdr : d ≠ S.radius := fun h => hro (h ▸ hd)
    rw [(hT1 d hdr).1, (hT1 d hdr).2]
    exact k4 d hd
  · have := m3 pos hp t ht
    rwa [hTs] at this

/-- **C95**: the subscription of a stored quantity by radii strictly between those of the first and the last shell at each of
the times — in any unit of length that can be converted to that of the metric system, in any order, and together with values
between those of any axes but that of the times — interpolates the quantity linearly along these axes, and then at each time
between the shells with the neighbouring radii at this time; and it selects the positions given for the other dimensions.  The
dimension of shells becomes one of radii, with the given values in the unit of length of the metric system.  What is missing:
the radius of a shell (`c95_not_shell`), a radius which is only between the shells at the requested times (`c95_not_outside`),
times between the stored times (`c95_not_time`), and centimetres in mks (`c95_not_cm`). -/
theorem c95_radius_partial {G : Grid κ (AnyAxis ℝ)} {dims : List κ} {u : List Term} {g R : (κ → Nat) → ℝ}
    {a : Arr κ (AnyAxis ℝ) ℝ} (h : OnGrid G dims u g (.array a)) (hf : G.Fits dims)
    (hw : ∀ d ∈ dims, WholeAxis (G.axis d)) (nodes : List Name) (systems : List System) (φ : Name → ℚ) (hφ : TableSizes φ)
    (S : Setting κ) (hc : S.conv = realConv nodes systems) (ha : ∀ d ∈ dims, S.axes d = G.axis d)
    (rs : List (Name × Name)) (args : κ → UserArg) (off : List κ)
    (hS : GridArrays S G dims off [⟨1, lengthUnit S.system, 1⟩] R)
    (ts : κ → List ℝ) (ls : κ → List Nat)
    (ho : ∀ d ∈ off, d ∈ dims ∧ d ≠ S.shell ∧ NotOn (UnitFactor nodes φ) (G.axis d) (ts d) (args d) ∧ ls d = List.range (ts d).length)
    (hi : ∀ d ∈ off, (axisData (G.axis d)).Pairwise (· < ·) ∧ ∀ t ∈ ts d, InsideOf (axisData (G.axis d)) t)
    (h1 : ∀ d ∈ dims, d ≠ S.shell → d ∉ off → Chooses S.toInt nodes φ (G.axis d) (ls d) (args d))
    (hs : S.shell ∈ dims) (hts : S.time ≠ S.shell) (htime : S.time ∉ off)
    {vs : List ℝ} {n : Name} (hv : vs ≠ []) (hsym : IsSymbolOf n n) (hq : quantityOf n = some c! "length")
    (hcm : S.system = .mks → n ≠ c! "cm") (hcv : Convertible nodes n (lengthUnit S.system))
    (harg : args S.shell = .measured vs [⟨1, n, 1⟩]) (ρ : List ℝ)
    (hρ : ρ = vs.map (fun v => v * ((φ n : ℝ) / φ (lengthUnit S.system)))) (hlr : ls S.radius = List.range ρ.length)
    (hinc : RadiiRise G S.time S.shell R) (hno : ∀ t ∈ ρ, ¬ RadiusOfShell G S.time S.shell R t)
    (hin : ∀ t ∈ ρ, BetweenShells G S.time S.shell R t) :
    ∃ (rs' : List (Name × Name)) (r : Operand κ (AnyAxis ℝ) ℝ) (T H : Grid κ (AnyAxis ℝ)) (f₀ f : (κ → Nat) → ℝ),
      observeStored S (afterRequests S.conv [] rs) a (argsOf dims args) = (afterRequests S.conv [] rs', .ok r) ∧
      (∀ d, d ≠ S.radius → d ∉ off → T.size d = G.size d ∧ T.axis d = G.axis d) ∧
      (∀ d ∈ off, T.size d = (ts d).length ∧ T.axis d = .coordinates ⟨ts d, none⟩ (axisUnit (G.axis d))) ∧
      T.size S.radius = ρ.length ∧ T.axis S.radius = .coordinates ⟨ρ, none⟩ [⟨1, lengthUnit S.system, 1⟩] ∧
      Polygons (fun d => axisValue (G.axis d)) ts dims (S.keys.filter (fun d => d ∈ off)) G.size g f₀ ∧
      (∀ pos, T.Inside (renamed dims S.shell S.radius) pos → ∀ t, ρ[pos S.radius]? = some t →
        OnPolygon (G.size S.shell) (fun i => R (Function.update pos S.shell i)) (fun i => f₀ (Function.update pos S.shell i)) t (f pos)) ∧
      T.Part (renamed dims S.shell S.radius) ls H ∧ H.Fits (renamed dims S.shell S.radius) ∧
      OnGrid H (renamed dims S.shell S.radius) u (fun pos => f (whole ls pos)) r :=
  observed_radius h hf hw nodes systems φ hφ S hc ha rs args off hS ts ls ho hi h1 hs hts (fun h => absurd h htime) hv hsym hq
    hcm hcv harg ρ hρ hlr hinc hno hin

/-- **C95 is violated** by times between the stored times: at the `j`-th of the requested times, the values are taken between
the shells by the radii at the `j`-th of the stored times, and not by those at the requested time. -/
theorem c95_not_time {G : Grid κ (AnyAxis ℝ)} {dims : List κ} {u : List Term} {g R : (κ → Nat) → ℝ}
    {a : Arr κ (AnyAxis ℝ) ℝ} (h : OnGrid G dims u g (.array a)) (hf : G.Fits dims)
    (hw : ∀ d ∈ dims, WholeAxis (G.axis d)) (nodes : List Name) (systems : List System) (φ : Name → ℚ) (hφ : TableSizes φ)
    (S : Setting κ) (hc : S.conv = realConv nodes systems) (ha : ∀ d ∈ dims, S.axes d = G.axis d)
    (rs : List (Name × Name)) (args : κ → UserArg) (off : List κ)
    (hS : GridArrays S G dims off [⟨1, lengthUnit S.system, 1⟩] R)
    (ts : κ → List ℝ) (ls : κ → List Nat)
    (ho : ∀ d ∈ off, d ∈ dims ∧ d ≠ S.shell ∧ NotOn (UnitFactor nodes φ) (G.axis d) (ts d) (args d) ∧ ls d = List.range (ts d).length)
    (hi : ∀ d ∈ off, (axisData (G.axis d)).Pairwise (· < ·) ∧ ∀ t ∈ ts d, InsideOf (axisData (G.axis d)) t)
    (h1 : ∀ d ∈ dims, d ≠ S.shell → d ∉ off → Chooses S.toInt nodes φ (G.axis d) (ls d) (args d))
    (hs : S.shell ∈ dims) (hts : S.time ≠ S.shell) (htime : S.time ∈ off) (hlen : (ts S.time).length ≤ G.size S.time)
    {vs : List ℝ} {n : Name} (hv : vs ≠ []) (hsym : IsSymbolOf n n) (hq : quantityOf n = some c! "length")
    (hcm : S.system = .mks → n ≠ c! "cm") (hcv : Convertible nodes n (lengthUnit S.system))
    (harg : args S.shell = .measured vs [⟨1, n, 1⟩]) (ρ : List ℝ)
    (hρ : ρ = vs.map (fun v => v * ((φ n : ℝ) / φ (lengthUnit S.system)))) (hlr : ls S.radius = List.range ρ.length)
    (hinc : RadiiRise G S.time S.shell R) (hno : ∀ t ∈ ρ, ¬ RadiusOfShell G S.time S.shell R t)
    (hin : ∀ t ∈ ρ, BetweenShells G S.time S.shell R t) :
    ∃ (rs' : List (Name × Name)) (r : Operand κ (AnyAxis ℝ) ℝ) (T H : Grid κ (AnyAxis ℝ)) (f₀ f : (κ → Nat) → ℝ),
      observeStored S (afterRequests S.conv [] rs) a (argsOf dims args) = (afterRequests S.conv [] rs', .ok r) ∧
      T.size S.time = (ts S.time).length ∧ T.size S.radius = ρ.length ∧
      Polygons (fun d => axisValue (G.axis d)) ts dims (S.keys.filter (fun d => d ∈ off)) G.size g f₀ ∧
      (∀ pos, T.Inside (renamed dims S.shell S.radius) pos → ∀ t, ρ[pos S.radius]? = some t →
        OnPolygon (G.size S.shell) (fun i => R (Function.update pos S.shell i)) (fun i => f₀ (Function.update pos S.shell i)) t (f pos)) ∧
      T.Part (renamed dims S.shell S.radius) ls H ∧
      OnGrid H (renamed dims S.shell S.radius) u (fun pos => f (whole ls pos)) r := by
  obtain ⟨rs', r, T, H, f₀, f, k1, _, k3, k4, _, k6, k7, k8, _, k10⟩ := observed_radius h hf hw nodes systems φ hφ S hc ha rs args off hS
    ts ls ho hi h1 hs hts (fun _ => hlen) hv hsym hq hcm hcv harg ρ hρ hlr hinc hno hin
  exact ⟨rs', r, T, H, f₀, f, k1, (k3 _ htime).1, k4, k6, k7, k8, k10⟩

/-- Errors of the interpolation between shells. -/
theorem radius_error {G : Grid κ (AnyAxis ℝ)} {dims : List κ} {u : List Term} {g R : (κ → Nat) → ℝ}
    {a : Arr κ (AnyAxis ℝ) ℝ} (h : OnGrid G dims u g (.array a)) (hf : G.Fits dims)
    (hw : ∀ d ∈ dims, WholeAxis (G.axis d)) (nodes : List Name) (systems : List System) (φ : Name → ℚ) (hφ : TableSizes φ)
    (S : Setting κ) (hc : S.conv = realConv nodes systems) (ha : ∀ d ∈ dims, S.axes d = G.axis d)
    (rs : List (Name × Name)) (args : κ → UserArg) (off : List κ)
    (hS : GridArrays S G dims off [⟨1, lengthUnit S.system, 1⟩] R)
    (ts : κ → List ℝ) (ls : κ → List Nat)
    (ho : ∀ d ∈ off, d ∈ dims ∧ d ≠ S.shell ∧ NotOn (UnitFactor nodes φ) (G.axis d) (ts d) (args d) ∧ ls d = List.range (ts d).length)
    (hi : ∀ d ∈ off, (axisData (G.axis d)).Pairwise (· < ·) ∧ ∀ t ∈ ts d, InsideOf (axisData (G.axis d)) t)
    (h1 : ∀ d ∈ dims, d ≠ S.shell → d ∉ off → Chooses S.toInt nodes φ (G.axis d) (ls d) (args d))
    (hs : S.shell ∈ dims) (hts : S.time ≠ S.shell) (htime : S.time ∉ off)
    {vs : List ℝ} {n : Name} (hv : vs ≠ []) (hsym : IsSymbolOf n n) (hq : quantityOf n = some c! "length")
    (hcm : S.system = .mks → n ≠ c! "cm") (hcv : Convertible nodes n (lengthUnit S.system))
    (harg : args S.shell = .measured vs [⟨1, n, 1⟩]) (ρ : List ℝ)
    (hρ : ρ = vs.map (fun v => v * ((φ n : ℝ) / φ (lengthUnit S.system))))
    (herr : ∀ (T : Grid κ (AnyAxis ℝ)) (b rr : Arr κ (AnyAxis ℝ) ℝ) (f₀ : (κ → Nat) → ℝ), T.size S.time = G.size S.time →
      T.size S.shell = G.size S.shell → OnGrid T dims u f₀ (.array b) →
      OnGrid T [S.time, S.shell] [⟨1, lengthUnit S.system, 1⟩] R (.array rr) →
      ∃ e, interpolate [S.radius] S.shell S.radius newCoordinates b [⟨S.radius, rr, ρ⟩] = .error e) :
    ∃ st e, observeStored S (afterRequests S.conv [] rs) a (argsOf dims args) = (st, .error e) := by
  obtain ⟨rs₃, idx, finished, b, rr, T, f₀, _, _, _, k2, k3, _, _, g1, g2, g3⟩ := radius_setup h hf hw nodes systems φ hφ S hc ha rs
    args off hS ts ls ho hi h1 hs hts hv hsym hq hcm hcv harg ρ hρ
  by_cases hin : ∀ t ∈ ρ, InsideRadii G S.time S.shell R t
  · have e1 : T.size S.time = G.size S.time := (k3 _ htime).1
    have e2 : T.size S.shell = G.size S.shell := (k3 _ (fun h => (ho _ h).2.1 rfl)).1
    obtain ⟨e, he⟩ := herr T b ⟨rr.arr, T.axes [S.time, S.shell]⟩ f₀ e1 e2 k2 (OnGrid.reaxis (H := T) (a := ⟨rr.arr, G.axes [S.time, S.shell]⟩) g1 (fun d hd => by
      rcases List.mem_cons.1 hd with rfl | hd
      · exact e1
      · rw [List.mem_singleton.1 hd]; exact e2))
    rw [← interpolate_reference (r := rr) (r' := ⟨rr.arr, T.axes [S.time, S.shell]⟩) rfl] at he
    refine ⟨afterRequests S.conv [] rs₃, e, ?_⟩
    rw [g2 hin, he]
    rfl
  · exact ⟨_, _, g3 hin⟩

/-- **C95 is violated** by the radius of a shell: if one of the radii is that of a shell at one of the stored times, also
at a time that is not requested, an exception is raised. -/
theorem c95_not_shell {G : Grid κ (AnyAxis ℝ)} {dims : List κ} {u : List Term} {g R : (κ → Nat) → ℝ}
    {a : Arr κ (AnyAxis ℝ) ℝ} (h : OnGrid G dims u g (.array a)) (hf : G.Fits dims)
    (hw : ∀ d ∈ dims, WholeAxis (G.axis d)) (nodes : List Name) (systems : List System) (φ : Name → ℚ) (hφ : TableSizes φ)
    (S : Setting κ) (hc : S.conv = realConv nodes systems) (ha : ∀ d ∈ dims, S.axes d = G.axis d)
    (rs : List (Name × Name)) (args : κ → UserArg) (off : List κ)
    (hS : GridArrays S G dims off [⟨1, lengthUnit S.system, 1⟩] R)
    (ts : κ → List ℝ) (ls : κ → List Nat)
    (ho : ∀ d ∈ off, d ∈ dims ∧ d ≠ S.shell ∧ NotOn (UnitFactor nodes φ) (G.axis d) (ts d) (args d) ∧ ls d = List.range (ts d).length)
    (hi : ∀ d ∈ off, (axisData (G.axis d)).Pairwise (· < ·) ∧ ∀ t ∈ ts d, InsideOf (axisData (G.axis d)) t)
    (h1 : ∀ d ∈ dims, d ≠ S.shell → d ∉ off → Chooses S.toInt nodes φ (G.axis d) (ls d) (args d))
    (hs : S.shell ∈ dims) (hts : S.time ≠ S.shell) (htime : S.time ∉ off)
    {vs : List ℝ} {n : Name} (hv : vs ≠ []) (hsym : IsSymbolOf n n) (hq : quantityOf n = some c! "length")
    (hcm : S.system = .mks → n ≠ c! "cm") (hcv : Convertible nodes n (lengthUnit S.system))
    (harg : args S.shell = .measured vs [⟨1, n, 1⟩]) (ρ : List ℝ)
    (hρ : ρ = vs.map (fun v => v * ((φ n : ℝ) / φ (lengthUnit S.system))))
    (t : ℝ) (ht : t ∈ ρ) (hon : RadiusOfShell G S.time S.shell R t) :
    ∃ st e, observeStored S (afterRequests S.conv [] rs) a (argsOf dims args) = (st, .error e) := by
  obtain ⟨pos, hp, hon⟩ := hon
  refine radius_error h hf hw nodes systems φ hφ S hc ha rs args off hS ts ls ho hi h1 hs hts htime hv hsym hq hcm hcv harg ρ hρ
    (fun T b rr f₀ e1 e2 hb hrr => c57_not_radius [S.radius] S.time S.shell S.radius S.radius newCoordinates (hS.time hs) hs hts
      hS.radius (by simp) hb hrr ρ t ht pos (fun d hd => ?_) hon)
  have hpd := hp d hd
  rcases List.mem_cons.1 hd with rfl | hd
  · rw [e1]; exact hpd
  · rw [List.mem_singleton.1 hd] at hpd ⊢
    rw [e2]; exact hpd

/-- A radius that is beyond all the shells at one of the stored times is refused: also at a time that is not requested, in
which case **C95 is violated**. -/
theorem c95_not_outside {G : Grid κ (AnyAxis ℝ)} {dims : List κ} {u : List Term} {g R : (κ → Nat) → ℝ}
    {a : Arr κ (AnyAxis ℝ) ℝ} (h : OnGrid G dims u g (.array a)) (hf : G.Fits dims)
    (hw : ∀ d ∈ dims, WholeAxis (G.axis d)) (nodes : List Name) (systems : List System) (φ : Name → ℚ) (hφ : TableSizes φ)
    (S : Setting κ) (hc : S.conv = realConv nodes systems) (ha : ∀ d ∈ dims, S.axes d = G.axis d)
    (rs : List (Name × Name)) (args : κ → UserArg) (off : List κ)
    (hS : GridArrays S G dims off [⟨1, lengthUnit S.system, 1⟩] R)
    (ts : κ → List ℝ) (ls : κ → List Nat)
    (ho : ∀ d ∈ off, d ∈ dims ∧ d ≠ S.shell ∧ NotOn (UnitFactor nodes φ) (G.axis d) (ts d) (args d) ∧ ls d = List.range (ts d).length)
    (hi : ∀ d ∈ off, (axisData (G.axis d)).Pairwise (· < ·) ∧ ∀ t ∈ ts d, InsideOf (axisData (G.axis d)) t)
    (h1 : ∀ d ∈ dims, d ≠ S.shell → d ∉ off → Chooses S.toInt nodes φ (G.axis d) (ls d) (args d))
    (hs : S.shell ∈ dims) (hts : S.time ≠ S.shell) (htime : S.time ∉ off)
    {vs : List ℝ} {n : Name} (hv : vs ≠ []) (hsym : IsSymbolOf n n) (hq : quantityOf n = some c! "length")
    (hcm : S.system = .mks → n ≠ c! "cm") (hcv : Convertible nodes n (lengthUnit S.system))
    (harg : args S.shell = .measured vs [⟨1, n, 1⟩]) (ρ : List ℝ)
    (hρ : ρ = vs.map (fun v => v * ((φ n : ℝ) / φ (lengthUnit S.system))))
    (t : ℝ) (ht : t ∈ ρ) (hout : BeyondShells G S.time S.shell R t) :
    ∃ st e, observeStored S (afterRequests S.conv [] rs) a (argsOf dims args) = (st, .error e) := by
  obtain ⟨pos, hp, hout⟩ := hout
  refine radius_error h hf hw nodes systems φ hφ S hc ha rs args off hS ts ls ho hi h1 hs hts htime hv hsym hq hcm hcv harg ρ hρ
    (fun T b rr f₀ e1 e2 hb hrr => c57_radius_outside [S.radius] S.time S.shell S.radius S.radius newCoordinates (hS.time hs) hs hts
      hS.radius (by simp) hb hrr ρ t ht pos (by rw [e1]; exact hp) (by rw [e2]; exact hout))

theorem grid_radius_error {G : Grid κ (AnyAxis ℝ)} {dims : List κ} {u ur : List Term} {g R : (κ → Nat) → ℝ}
    {a : Arr κ (AnyAxis ℝ) ℝ} (h : OnGrid G dims u g (.array a)) (hw : ∀ d ∈ dims, WholeAxis (G.axis d))
    (hf : G.Fits dims) {S : Setting κ} (ht : S.time ∈ dims) (hs : S.shell ∈ dims)
    (hr : OnGrid G [S.time, S.shell] ur R (.array S.grid)) (st st' : Cache ℝ) (parsed : List (κ × Assumption)) (m : Assumption)
    (hp : Dict.get? parsed S.radius = some m) (e : PErr) (hm : inSystem S.conv st S.system m = (st', .error e)) :
    gridInterpolant S st a parsed = (st', .error e) := by
  have hf2 : G.Fits [S.time, S.shell] := fun d hd => by
    rcases List.mem_cons.1 hd with rfl | hd
    · exact hf _ ht
    · rw [List.mem_singleton.1 hd]; exact hf _ hs
  obtain ⟨r, H, k1, k2, k3⟩ := subscript_all hr hf2 (by simp)
  obtain ⟨hn, c, hc, hpl, hd, hsh, haxs, hu, hg⟩ := h
  cases hc
  have hget : ∀ d ∈ dims, Dict.get? a.axes d = some (G.axis d) := fun d hd => by
    rw [haxs]; exact get?_axes G hd
  unfold gridInterpolant
  rw [hget _ ht, hget _ hs]
  simp only [(hw _ ht).indices, (hw _ hs).indices, hf _ ht, hf _ hs]
  simp only [List.map_cons, List.map_nil, allIndices] at k1
  simp only [k1, hp, hm]

/-- **C95 is violated** by centimetres in mks: the radius is refused with an error of conversion, although it could be
converted to metres. -/
theorem c95_not_cm {G : Grid κ (AnyAxis ℝ)} {dims : List κ} {u : List Term} {g R : (κ → Nat) → ℝ}
    {a : Arr κ (AnyAxis ℝ) ℝ} (h : OnGrid G dims u g (.array a)) (hf : G.Fits dims)
    (hw : ∀ d ∈ dims, WholeAxis (G.axis d)) (nodes : List Name) (systems : List System) (φ : Name → ℚ) (hφ : TableSizes φ)
    (S : Setting κ) (hc : S.conv = realConv nodes systems) (ha : ∀ d ∈ dims, S.axes d = G.axis d)
    (rs : List (Name × Name)) (args : κ → UserArg)
    (hS : GridArrays S G dims [] [⟨1, c! "m", 1⟩] R) (ls : κ → List Nat)
    (h1 : ∀ d ∈ dims, d ≠ S.shell → Chooses S.toInt nodes φ (G.axis d) (ls d) (args d))
    (hs : S.shell ∈ dims) (hmks : S.system = .mks)
    {vs : List ℝ} (hv : vs ≠ []) (hcv : Convertible nodes c! "cm" c! "m")
    (harg : args S.shell = .measured vs [⟨1, c! "cm", 1⟩]) :
    ∃ st, observeStored S (afterRequests S.conv [] rs) a (argsOf dims args) = (st, .error (.metric .conversion)) := by
  have hfac : UnitFactor nodes φ [⟨1, c! "m", 1⟩] [⟨1, c! "cm", 1⟩] ((φ c! "cm" : ℝ) / φ c! "m") :=
    .inr ⟨_, _, rfl, isSymbolOf_of (by decide +kernel), rfl, isSymbolOf_of (by decide +kernel), hcv, rfl⟩
  obtain ⟨rs₁, idx, e1, e0, e2⟩ := request_radius hc φ hφ rs dims h.nodup [] args (fun _ => []) ls
    (fun d hd => absurd hd List.not_mem_nil)
    (fun d hd hs hdo => by
      rw [ha d hd]
      exact fun rs => parse_chooses S.toInt nodes systems φ hφ rs (hw d hd) (h1 d hd hs))
    (hS.radii hs) hs hS.radius hv (isSymbolOf_of (by decide +kernel)) (by decide +kernel) hfac harg
  have e3 : axisInterpolants S a ([] ++ [(S.radius, (vs, [⟨1, c! "cm", 1⟩]))]) (afterRequests S.conv [] rs₁) S.keys =
      (afterRequests S.conv [] rs₁, .ok []) := by
    rw [interpolants_extra S a [] _ (by rw [(keys_grid h).1]; exact get?_axes_none G hS.radius)]
    generalize S.keys = keys
    induction keys with
    | nil => rfl
    | cons k keys ih => simp only [axisInterpolants, Dict.get?, ih]
  have e4 : inSystem S.conv (afterRequests S.conv [] rs₁) S.system (vs, [⟨1, c! "cm", 1⟩]) =
      (afterRequests S.conv [] rs₁, .error (.metric .conversion)) := by
    have hsh : showExpr [⟨1, c! "cm", 1⟩] = c! "cm" := by decide +kernel
    have ht := c83_not_shared.2.1
    rw [hmks]
    simp only [inSystem, hsh, convertSystem, ht]
  have hg := grid_radius_error h hw hf (hS.time hs) hs (hS.radii hs) (afterRequests S.conv [] rs₁) _
    ([] ++ [(S.radius, (vs, [⟨1, c! "cm", 1⟩]))]) _ (by simp [Dict.get?]) _ e4
  have hfilt : (dims.filter (fun d => decide (d ∈ ([] : List κ)))).map (fun d => (d, keptOf (args d))) = [] := by simp
  rw [hfilt] at e1
  refine ⟨afterRequests S.conv [] rs₁, ?_⟩
  simp only [observeStored, e1, observe, if_neg (show [] ++ [(S.radius, (vs, [(⟨1, c! "cm", 1⟩ : Term)]))] ≠ [] by simp),
    interpolateObserved, e3, (keys_grid h).2, if_pos hs, hg]

/-! ## Cases -/

/-- the radii of the sample dataset: time number plus shell number, in metres -/
noncomputable def sampleRadii (p : String → Nat) : ℝ := ((["time", "shell"].map p).sum : ℝ)

theorem sampleRadii_eq (p : String → Nat) : sampleRadii p = p "time" + p "shell" := by simp [sampleRadii]

theorem sample_radii (systems : List System) (off : List String) (hoff : ∀ d ∈ off, d = "time") : ∃ T R : Arr String (AnyAxis ℝ) ℝ,
    OnGrid sampleGrid ["time", "shell"] [⟨1, c! "m", 1⟩] sampleRadii (.array R) ∧
    GridArrays (sampleSetting T R systems) sampleGrid ["time", "shell"] off [⟨1, c! "m", 1⟩] sampleRadii := by
  obtain ⟨a, ha⟩ := sample_array [⟨1, c! "m", 1⟩]
  obtain ⟨t, ht⟩ := onGrid_ofFn sampleGrid ["time"] (by decide) [⟨1, c! "s", 1⟩]
    (fun l => axisValue (sampleGrid.axis "time") (l.getD 0 0))
  obtain ⟨T, rfl⟩ : ∃ z, t = .array z := by obtain ⟨_, c, hc, _⟩ := ht; exact ⟨c, hc⟩
  refine ⟨T, a, ha, ⟨?_, ?_, ?_, ?_, ?_⟩⟩
  · exact List.nodup_singleton _
  · show "radius" ∉ ["time", "shell"]
    decide
  · intro d hd
    cases hoff d hd
    exact ⟨List.mem_singleton.2 rfl, ht⟩
  · intro _
    show "time" ∈ ["time", "shell"]
    decide
  · intro _
    exact ha

theorem sample_rise : RadiiRise sampleGrid "time" "shell" sampleRadii := by
  intro pos i j _ hij _
  simp only [sampleRadii_eq, Function.update_self]
  rw [Function.update_of_ne (by decide), Function.update_of_ne (by decide)]
  have : (i : ℝ) < j := by exact_mod_cast hij
  linarith

theorem sample_between : BetweenShells sampleGrid "time" "shell" sampleRadii (5 / 2) := by
  intro pos hp
  have hp : pos "time" < 3 := hp
  simp only [sampleRadii_eq, Function.update_self]
  rw [Function.update_of_ne (by decide), Function.update_of_ne (by decide)]
  have h3 : sampleGrid.size "shell" - 1 = 3 := rfl
  rw [h3]
  generalize pos "time" = k at hp
  interval_cases k <;> norm_num

theorem sample_between_shells : ¬ RadiusOfShell sampleGrid "time" "shell" sampleRadii (5 / 2) := by
  rintro ⟨pos, hp, h⟩
  have h1 : pos "time" < 3 := hp "time" (by simp)
  have h2 : pos "shell" < 4 := hp "shell" (by simp)
  rw [sampleRadii_eq] at h
  generalize pos "time" = k at h1 h
  generalize pos "shell" = l at h2 h
  interval_cases k <;> interval_cases l <;> norm_num at h

theorem sample_metre : IsSymbolOf c! "m" c! "m" ∧ quantityOf c! "m" = some c! "length" ∧ Convertible tableNodes c! "m" c! "m" :=
  ⟨isSymbolOf_of (by decide +kernel), by decide +kernel, convertible_of (by decide +kernel)⟩

theorem sample_kilometre : IsSymbolOf c! "km" c! "km" ∧ quantityOf c! "km" = some c! "length" ∧ Convertible tableNodes c! "km" c! "m" ∧
    size c! "km" / size c! "m" = 1000 :=
  ⟨isSymbolOf_of (by decide +kernel), by decide +kernel, convertible_of (by decide +kernel), by decide +kernel⟩

/-- the hypotheses of `c95_radius_partial` for `a[1, 1/400 km]`; those of the dataset are met by `sample_radii` -/
example : Chooses (fun _ => none) tableNodes size (sampleGrid.axis "time") [1] (.index 1) ∧ RadiiRise sampleGrid "time" "shell" sampleRadii ∧
    BetweenShells sampleGrid "time" "shell" sampleRadii (1 / 400 * 1000) ∧
    ¬ RadiusOfShell sampleGrid "time" "shell" sampleRadii (1 / 400 * 1000) ∧ "time" ∉ ([] : List String) := by
  have : (1 : ℝ) / 400 * 1000 = 5 / 2 := by norm_num
  rw [this]
  exact ⟨⟨1, rfl, by decide, .inl rfl⟩, sample_rise, sample_between, sample_between_shells, by simp⟩

/-- the radius 2 m, which is that of a shell at each of the times; and 1/2 m, which is between the shells at the first time
only, and -1 m and 9 m, which are beyond all the shells: `c95_not_shell` and `c95_not_outside` apply -/
example : RadiusOfShell sampleGrid "time" "shell" sampleRadii 2 ∧ BeyondShells sampleGrid "time" "shell" sampleRadii (1 / 2) ∧
    BeyondShells sampleGrid "time" "shell" sampleRadii (-1) ∧ BeyondShells sampleGrid "time" "shell" sampleRadii 9 := by
  have hu : ∀ (k i : Nat), sampleRadii (Function.update (fun _ => k) "shell" i) = k + i := fun k i => by
    rw [sampleRadii_eq, Function.update_self, Function.update_of_ne (by decide)]
  refine ⟨⟨fun _ => 1, fun d hd => ?_, ?_⟩, ⟨fun _ => 1, by show 1 < 3; decide, .inl fun i _ => ?_⟩,
    ⟨fun _ => 1, by show 1 < 3; decide, .inl fun i _ => ?_⟩, ⟨fun _ => 1, by show 1 < 3; decide, .inr fun i hi => ?_⟩⟩
  · fin_cases hd <;> decide
  · rw [sampleRadii_eq]; norm_num
  · rw [hu]
    have : (0 : ℝ) ≤ i := Nat.cast_nonneg i
    push_cast
    linarith
  · rw [hu]
    have : (0 : ℝ) ≤ i := Nat.cast_nonneg i
    push_cast
    linarith
  · rw [hu]
    have hi : i < 4 := hi
    have : (i : ℝ) < 4 := by exact_mod_cast hi
    push_cast
    linarith

/-- `c95_not_cm` applies: centimetres could be converted to metres -/
example : Convertible tableNodes c! "cm" c! "m" := convertible_of (by decide +kernel)

/-- **C95 is violated** in the sample dataset: at the time 3/2 s, between the first two, the radius itself at 5/2 m is 3 m. -/
theorem c95_not_time_sample (systems : List System) (rs : List (Name × Name)) : ∃ (T R : Arr String (AnyAxis ℝ) ℝ)
    (st : Cache ℝ) (r : Operand String (AnyAxis ℝ) ℝ) (H : Grid String (AnyAxis ℝ)) (f : (String → Nat) → ℝ),
    OnGrid sampleGrid ["time", "shell"] [⟨1, c! "m", 1⟩] sampleRadii (.array R) ∧
    observeStored (sampleSetting T R systems) (afterRequests (sampleSetting T R systems).conv [] rs) R
      [("time", .measured [3 / 2] [⟨1, c! "s", 1⟩]), ("shell", .measured [5 / 2] [⟨1, c! "m", 1⟩])] = (st, .ok r) ∧
    H.size "time" = 1 ∧ H.size "radius" = 1 ∧ OnGrid H ["time", "radius"] [⟨1, c! "m", 1⟩] f r ∧ f (fun _ => 0) = 3 := by
  obtain ⟨T, R, hR, hS⟩ := sample_radii systems ["time"] (fun d hd => List.mem_singleton.1 hd)
  obtain ⟨hsym, hq, hcv⟩ := sample_metre
  have hsec : UnitFactor tableNodes size [⟨1, c! "s", 1⟩] [⟨1, c! "s", 1⟩] 1 :=
    .inr ⟨_, _, rfl, isSymbolOf_of (by decide +kernel), rfl, isSymbolOf_of (by decide +kernel), convertible_of (by decide +kernel), by
      have : size c! "s" ≠ 0 := by decide +kernel
      rw [div_self]
      exact_mod_cast this⟩
  have hm1 : ((size c! "m" : ℚ) : ℝ) ≠ 0 := by
    have : size c! "m" ≠ 0 := by decide +kernel
    exact_mod_cast this
  obtain ⟨rs', r, T', H, f₀, f, k1, k2, k3, k4, k5, k6, k7⟩ := c95_not_time hR sample_fits sample_whole tableNodes systems size
    (real_sizes []) (sampleSetting T R systems) rfl (fun _ _ => rfl) rs
    (fun d => if d = "time" then .measured [3 / 2] [⟨1, c! "s", 1⟩] else .measured [5 / 2] [⟨1, c! "m", 1⟩]) ["time"] hS
    (fun _ => [3 / 2]) (fun _ => [0])
    (fun d hd => by
      cases List.mem_singleton.1 hd
      refine ⟨by simp, by show "time" ≠ "shell"; decide, ⟨_, _, ⟨[1, 2, 5], none⟩, [⟨1, c! "s", 1⟩], 1, rfl, rfl, hsec, by norm_num, 3 / 2,
        by simp, .inl ?_⟩, rfl⟩
      intro d hd
      fin_cases hd <;> norm_num [abs_lt, lt_abs])
    (fun d hd => by
      cases List.mem_singleton.1 hd
      refine ⟨?_, ?_⟩
      · show List.Pairwise (· < ·) [(1 : ℝ), 2, 5]
        norm_num
      · intro t ht
        rw [List.mem_singleton.1 ht]
        exact ⟨⟨1, by show (1 : ℝ) ∈ [(1 : ℝ), 2, 5]; simp, by norm_num⟩, 2, by show (2 : ℝ) ∈ [(1 : ℝ), 2, 5]; simp, by norm_num⟩)
    (fun d hd hs ht => by
      fin_cases hd
      · exact absurd (List.mem_singleton.2 rfl) ht
      · exact absurd rfl hs)
    (by show "shell" ∈ ["time", "shell"]; simp) (by show "time" ≠ "shell"; decide) (by show "time" ∈ ["time"]; simp)
    (by show 1 ≤ 3; decide) (vs := [5 / 2]) (n := c! "m") (by simp) hsym hq (fun _ => by decide) hcv rfl [5 / 2]
    (by
      show [(5 : ℝ) / 2] = [5 / 2 * ((size c! "m" : ℝ) / (size c! "m" : ℝ))]
      rw [div_self hm1, mul_one]) rfl sample_rise
    (fun t ht => by rw [List.mem_singleton.1 ht]; exact sample_between_shells)
    (fun t ht => by rw [List.mem_singleton.1 ht]; exact sample_between)
  have hren : renamed ["time", "shell"] "shell" "radius" = ["time", "radius"] := by decide
  have k2 : T'.size "time" = 1 := k2
  have k3 : T'.size "radius" = 1 := k3
  have k6 : T'.Part (renamed ["time", "shell"] "shell" "radius") (fun _ => [0]) H := k6
  have k7 : OnGrid H (renamed ["time", "shell"] "shell" "radius") [⟨1, c! "m", 1⟩] (fun pos => f (whole (fun _ => [0]) pos)) r := k7
  have k5 : ∀ pos, T'.Inside (renamed ["time", "shell"] "shell" "radius") pos → ∀ t, [(5 : ℝ) / 2][pos "radius"]? = some t →
      OnPolygon 4 (fun i => sampleRadii (Function.update pos "shell" i)) (fun i => f₀ (Function.update pos "shell" i)) t (f pos) := k5
  have k4 : ∃ m : (String → Nat) → ℝ, (∀ pos, (∀ d ∈ ["time", "shell"], pos d < Function.update sampleGrid.size "time" 1 d) →
      ∀ t, [(3 : ℝ) / 2][pos "time"]? = some t →
        OnPolygon 3 (axisValue (sampleGrid.axis "time")) (fun i => sampleRadii (Function.update pos "time" i)) t (m pos)) ∧
      ∀ pos, (∀ d ∈ ["time", "shell"], pos d < Function.update sampleGrid.size "time" 1 d) → f₀ pos = m pos := k4
  rw [hren] at k5 k6 k7
  refine ⟨T, R, _, r, H, _, hR, k1, ?_, ?_, k7, ?_⟩
  · exact (k6.size "time" (by simp)).trans rfl
  · exact (k6.size "radius" (by simp)).trans rfl
  · have hw0 : ∀ d ∈ ["time", "radius"], whole (fun _ => [0]) (fun _ => 0) d = 0 := fun d hd => rfl
    obtain ⟨m, m1, m2⟩ := k4
    have hf0 : ∀ i < 4, f₀ (Function.update (fun _ => 0) "shell" i) = i + 1 / 2 := fun i hi => by
      have hin : ∀ d ∈ ["time", "shell"], Function.update (fun _ => 0) "shell" i d < Function.update sampleGrid.size "time" 1 d := by
        intro d hd
        fin_cases hd
        · simp [Function.update]
        · simp only [Function.update_self]
          rw [Function.update_of_ne (by decide)]
          exact hi
      rw [m2 _ hin]
      have := (m1 _ hin (3 / 2) (by simp [Function.update])).2 0 (by decide)
        (by show (1 : ℝ) ≤ 3 / 2; norm_num) (by show (3 : ℝ) / 2 ≤ 2; norm_num)
      rw [this]
      simp only [sampleRadii_eq]
      have e0 : axisValue (sampleGrid.axis "time") 0 = 1 := rfl
      have e1 : axisValue (sampleGrid.axis "time") (0 + 1) = 2 := rfl
      rw [e0, e1]
      simp [Function.update]
      norm_num
    have hin : T'.Inside ["time", "radius"] (whole (fun _ => [0]) (fun _ => 0)) := by
      intro d hd
      fin_cases hd
      · show 0 < T'.size "time"; rw [k2]; decide
      · show 0 < T'.size "radius"; rw [k3]; decide
    have := (k5 _ hin (5 / 2) rfl).2 2 (by decide)
    have hwhole : whole (fun _ : String => [0]) (fun _ => 0) = fun _ => 0 := rfl
    rw [hwhole] at this
    simp only [hf0 2 (by decide), hf0 (2 + 1) (by decide)] at this
    show f (whole (fun _ => [0]) (fun _ => 0)) = 3
    rw [hwhole]
    have h2 : sampleRadii (Function.update (fun _ => 0) "shell" 2) = 2 := by rw [sampleRadii_eq]; simp [Function.update]
    have h3 : sampleRadii (Function.update (fun _ => 0) "shell" (2 + 1)) = 3 := by rw [sampleRadii_eq]; simp [Function.update]
    rw [h2, h3] at this
    rw [this (by norm_num) (by norm_num)]
    norm_num

end Eprem.Observable
