import Verif.Spec.Measured
import Verif.Props.MetricCache
import Verif.Lemmas.UnitProducts
import Verif.Props.Transpose

/-!
# C34, C35, C72: unit conversion of measured objects

`realConv nodes systems` are the conversions of the package; a *history* `rs` is any list of conversions requested
before, and `afterRequests _ [] rs` is what is cached then.  The vocabulary is in `Spec/Measured.lean`.
-/

namespace Eprem.Measured

open Eprem Eprem.Symbolic Eprem.Metric Eprem.Numeric

theorem afterRequests_append {K : Type} [Field K] [DecidableEq K] (c : Conv K) : ∀ (rs : List (Name × Name)) (st : Cache K)
    (u v : Name), afterRequests c st (rs ++ [(u, v)]) = (conversionFactory c (afterRequests c st rs) u v).1
  | [], _, _, _ => rfl
  | (a, b) :: rs, st, u, v => afterRequests_append c rs (conversionFactory c st a b).1 u v

theorem conversion_ok {K : Type} [Field K] [DecidableEq K] (c : Conv K) (rs : List (Name × Name)) (u : List Term)
    (v : Name) (old w : List Term) (f : K) (h1 : convert c (showExpr u) v = .ok f)
    (h2 : convert c v (showExpr u) = .ok (1 / f)) (ho : freshUnit (showExpr u) = .ok old) (hw : freshUnit v = .ok w) :
    conversion c (afterRequests c [] rs) u v = (afterRequests c [] (rs ++ [(showExpr u, v)]), .ok ⟨f, old, w⟩) := by
  have h := c23_transparent c (showExpr u) v f h1 h2 rs
  unfold conversion
  rw [afterRequests_append]
  generalize conversionFactory c (afterRequests c [] rs) (showExpr u) v = r at h
  obtain ⟨st, r⟩ := r
  simp only at h
  subst h
  simp only [ho, hw]

theorem withunit_ok {K : Type} [Field K] [DecidableEq K] (c : Conv K) (rs : List (Name × Name)) (x : Obj K)
    (v : Name) (old w : List Term) (f : K) (h1 : convert c (showExpr x.unit) v = .ok f)
    (h2 : convert c v (showExpr x.unit) = .ok (1 / f)) (ho : freshUnit (showExpr x.unit) = .ok old)
    (hw : freshUnit v = .ok w) :
    withunit c (afterRequests c [] rs) x v =
      (afterRequests c [] (rs ++ [(showExpr x.unit, v)]), .ok (apply ⟨f, old, w⟩ x)) := by
  unfold withunit
  rw [conversion_ok c rs x.unit v old w f h1 h2 ho hw]

theorem show_symbol (s : Name) : showExpr [⟨1, s, 1⟩] = s := by
  unfold showExpr formatTerm formatCoefficient
  by_cases h : s = one
  · subst h; decide +kernel
  · simp [h]

theorem value_symbol (ρ : Name → ℝ) {s : Name} (h : s ≠ one) : value ρ [⟨1, s, 1⟩] = ρ s := by simp [value, Term.val, h]

theorem exprEq_symbols {s t : Name} : exprEq [⟨1, s, 1⟩] [⟨1, t, 1⟩] = true ↔ s = t := by
  simp [exprEq, sortBy, insertBy, termEq]

theorem symbol_size {φ : Name → ℚ} (hφ : TableSizes φ) {v t : Name} (h : IsSymbolOf v t) : φ t = φ v := by
  obtain ⟨_, _, e, he, rfl⟩ := h
  exact hφ.symbol v e he

theorem convert_strings {nodes : List Name} {systems : List System} {u v : Name} {f : ℚ}
    (h : convertAsStrings (realEnv nodes) u v = some f) : convert (realConv nodes systems) u v = .ok (f : ℝ) := by
  have : convertAsStrings (realConv nodes systems).env u v = some f := h
  unfold convert
  rw [this]
  simp [realConv]

theorem convertible_factor {nodes : List Name} {systems : List System} {φ : Name → ℚ} (hφ : TableSizes φ) {s v : Name}
    (h : Convertible nodes s v) : ∃ f : ℚ, convert (realConv nodes systems) s v = .ok (f : ℝ) ∧
      convert (realConv nodes systems) v s = .ok (1 / (f : ℝ)) ∧ f = φ s / φ v := by
  obtain ⟨⟨f, hf⟩, ⟨g, hg⟩⟩ := h
  have h1 := strings_sound (E := realEnv nodes) hφ conversions_nodup hf
  have h2 := strings_sound (E := realEnv nodes) hφ conversions_nodup hg
  refine ⟨f, convert_strings hf, ?_, h1⟩
  rw [convert_strings hg, h1, h2]
  push_cast
  rw [one_div_div]

/-! ## C34 -/

/-- **C34**, one conversion by name.  Let an object have a named unit that converts by name to and from another one.
After any history of conversions the conversion succeeds, the new object has the symbol of the requested unit as its
unit, and the amounts are the same, for all sizes that agree with the tables. -/
theorem c34_named (nodes : List Name) (systems : List System) (φ : Name → ℚ) (hφ : TableSizes φ)
    (rs : List (Name × Name)) (x : Obj ℝ) (s v t : Name) (hx : x.unit = [⟨1, s, 1⟩]) (hs : IsSymbolOf s s)
    (hv : IsSymbolOf v t) (hc : Convertible nodes s v) :
    ∃ y, withunit (realConv nodes systems) (afterRequests (realConv nodes systems) [] rs) x v =
        (afterRequests (realConv nodes systems) [] (rs ++ [(s, v)]), .ok y) ∧
      y.unit = [⟨1, t, 1⟩] ∧ SameAmounts (fun n => φ n) x y := by
  obtain ⟨f, h1, h2, hf⟩ := convertible_factor (systems := systems) hφ hc
  have hsh : showExpr x.unit = s := by rw [hx, show_symbol]
  have h := withunit_ok (realConv nodes systems) rs x v [⟨1, s, 1⟩] [⟨1, t, 1⟩] f (by rw [hsh]; exact h1)
    (by rw [hsh]; exact h2) (by rw [hsh]; exact hs.2.1) hv.2.1
  rw [hsh] at h
  refine ⟨_, h, ?_, ?_⟩
  · unfold apply
    split
    next he => rw [exprEq_symbols] at he; rw [hx, he]
    next => rfl
  · unfold apply
    split
    next => exact ⟨rfl, fun _ => rfl⟩
    next =>
      refine ⟨rfl, fun p => ?_⟩
      have hpos : (0 : ℝ) < φ v := by exact_mod_cast hφ.pos v
      simp only [Obj.amount, hx, value_symbol _ hs.1, value_symbol _ hv.1, ND.get, ND.map, symbol_size hφ hv, hf]
      push_cast
      field_simp

/-- **C34**, the data.  The new data are the old data times the quotient of the sizes of the units. -/
theorem c34_data (nodes : List Name) (systems : List System) (φ : Name → ℚ) (hφ : TableSizes φ)
    (rs : List (Name × Name)) (x : Obj ℝ) (s v t : Name) (hx : x.unit = [⟨1, s, 1⟩]) (hs : IsSymbolOf s s)
    (hv : IsSymbolOf v t) (hc : Convertible nodes s v) :
    ∃ y, (withunit (realConv nodes systems) (afterRequests (realConv nodes systems) [] rs) x v).2 = .ok y ∧
      ∀ p, y.data.get p = x.data.get p * ((φ s : ℝ) / φ v) := by
  obtain ⟨y, hy, hu, hsa⟩ := c34_named nodes systems φ hφ rs x s v t hx hs hv hc
  refine ⟨y, by rw [hy], fun p => ?_⟩
  have := hsa.amount p
  simp only [Obj.amount, hu, hx, value_symbol _ hs.1, value_symbol _ hv.1, symbol_size hφ hv] at this
  have hpos : (0 : ℝ) < φ v := by exact_mod_cast hφ.pos v
  field_simp
  linarith

/-- The names requested one after the other, with their symbols; each unit converts by name to and from the next. -/
def Chain (nodes : List Name) : Name → List (Name × Name) → Prop
  | _, [] => True
  | s, (v, t) :: vs => IsSymbolOf v t ∧ IsSymbolOf t t ∧ Convertible nodes s v ∧ Chain nodes t vs

/-- **C34**, chains.  A chain of conversions of any length, after any history, gives the last unit and the same amounts. -/
theorem c34_chain (nodes : List Name) (systems : List System) (φ : Name → ℚ) (hφ : TableSizes φ) :
    ∀ (vs : List (Name × Name)) (rs : List (Name × Name)) (x : Obj ℝ) (s : Name), x.unit = [⟨1, s, 1⟩] →
      IsSymbolOf s s → Chain nodes s vs →
    ∃ y, (withunits (realConv nodes systems) (afterRequests (realConv nodes systems) [] rs) x (vs.map Prod.fst)).2 = .ok y ∧
      y.unit = [⟨1, ((vs.map Prod.snd).getLast?).getD s, 1⟩] ∧ SameAmounts (fun n => φ n) x y
  | [], rs, x, s, hx, _, _ => ⟨x, rfl, by simpa using hx, rfl, fun _ => rfl⟩
  | (v, t) :: vs, rs, x, s, hx, hs, hch => by
    obtain ⟨h1, h2, h3, h4⟩ := hch
    obtain ⟨y, hy, hu, hsa⟩ := c34_named nodes systems φ hφ rs x s v t hx hs h1 h3
    obtain ⟨z, hz, hzu, hsz⟩ := c34_chain nodes systems φ hφ vs (rs ++ [(s, v)]) y t hu h2 h4
    refine ⟨z, ?_, ?_, hsz.shape.trans hsa.shape, fun p => (hsz.amount p).trans (hsa.amount p)⟩
    · simp only [List.map_cons, withunits, hy]
      exact hz
    · rw [hzu]
      cases vs with
      | nil => rfl
      | cons w ws => simp [List.getLast?_cons_cons, List.getLast?_cons]

/-- **C34**, a chain is the direct conversion.  If the first unit also converts directly to the last one, the chain and
the direct conversion give the same data, whatever the histories. -/
theorem c34_chain_direct (nodes : List Name) (systems : List System) (vs : List (Name × Name)) (v t : Name)
    (rs rs' : List (Name × Name)) (x : Obj ℝ) (s : Name) (hx : x.unit = [⟨1, s, 1⟩]) (hs : IsSymbolOf s s)
    (hch : Chain nodes s (vs ++ [(v, t)])) (hc : Convertible nodes s v) :
    ∃ y z, (withunits (realConv nodes systems) (afterRequests (realConv nodes systems) [] rs) x
        ((vs ++ [(v, t)]).map Prod.fst)).2 = .ok y ∧
      (withunit (realConv nodes systems) (afterRequests (realConv nodes systems) [] rs') x v).2 = .ok z ∧
      y.unit = z.unit ∧ y.data.shape = z.data.shape ∧ ∀ p, y.data.get p = z.data.get p := by
  have hv : IsSymbolOf v t := by
    clear hx hs hc
    induction vs generalizing s with
    | nil => exact hch.1
    | cons w ws ih => exact ih _ hch.2.2.2
  have hφ : TableSizes size := real_sizes nodes
  obtain ⟨y, hy, hyu, hya⟩ := c34_chain nodes systems size hφ (vs ++ [(v, t)]) rs x s hx hs hch
  obtain ⟨z, hz, hzu, hza⟩ := c34_named nodes systems size hφ rs' x s v t hx hs hv hc
  have hl : y.unit = [⟨1, t, 1⟩] := by rw [hyu]; simp
  refine ⟨y, z, hy, by rw [hz], by rw [hl, hzu], hya.shape.trans hza.shape.symm, fun p => ?_⟩
  have h := (hya.amount p).trans (hza.amount p).symm
  simp only [Obj.amount, hl, hzu, value_symbol _ hv.1] at h
  have hpos : (0 : ℝ) < size t := by exact_mod_cast size_pos t
  exact mul_right_cancel₀ hpos.ne' h

/-- **C34**, there and back.  Converting to another unit and back restores the data and the unit. -/
theorem c34_round_trip (nodes : List Name) (systems : List System) (rs : List (Name × Name)) (x : Obj ℝ) (s v t : Name)
    (hx : x.unit = [⟨1, s, 1⟩]) (hs : IsSymbolOf s s) (hv : IsSymbolOf v t) (ht : IsSymbolOf t t)
    (hc : Convertible nodes s v) (hc' : Convertible nodes t s) :
    ∃ y, (withunits (realConv nodes systems) (afterRequests (realConv nodes systems) [] rs) x [v, s]).2 = .ok y ∧
      y.unit = x.unit ∧ y.data.shape = x.data.shape ∧ ∀ p, y.data.get p = x.data.get p := by
  have hφ : TableSizes size := real_sizes nodes
  obtain ⟨y, hy, hyu, hya⟩ := c34_chain nodes systems size hφ [(v, t), (s, s)] rs x s hx hs ⟨hv, ht, hc, hs, hs, hc', trivial⟩
  have hl : y.unit = x.unit := by rw [hyu, hx]; rfl
  refine ⟨y, hy, hl, hya.shape, fun p => ?_⟩
  have h := hya.amount p
  simp only [Obj.amount, hl] at h
  have hpos : (0 : ℝ) < size s := by exact_mod_cast size_pos s
  rw [hx, value_symbol _ hs.1] at h
  exact mul_right_cancel₀ hpos.ne' h

/-! ### Compound units -/

/-- Replacing units by other ones in the opposite direction. -/
def back (s : Swap) : Swap := ⟨s.new, s.old, s.power⟩

/-- Conditions under which two compound units differ by replacing units that convert by name (as in `c24_matching`): each
replaced unit has a dimension, converts to and from its replacement, and is not mistaken for another one. -/
structure Replaced (nodes : List Name) (swaps : List Swap) (kept : List Term) : Prop where
  nonempty : swaps ≠ []
  nodup : ((swaps.map Swap.oldTerm ++ swaps.map Swap.newTerm ++ kept).map Term.base).Nodup
  symbol : ∀ s ∈ swaps, s.old ∉ unity ∧ s.new ∉ unity
  dimension : ∀ s ∈ swaps, dimensionless s.old = .ok false ∧ dimensionless s.new = .ok false
  convertible : ∀ s ∈ swaps, Convertible nodes s.old s.new
  distinct : ∀ s ∈ swaps, ∀ s' ∈ swaps, s ≠ s' →
    (s.power = s'.power → convertAsStrings (realEnv nodes) s.old s'.new = none ∧
      convertAsStrings (realEnv nodes) s.new s'.old = none) ∧
    (s.power = -s'.power → convertAsStrings (realEnv nodes) s.old s'.old = none ∧
      convertAsStrings (realEnv nodes) s.new s'.new = none)

theorem Replaced.back {nodes : List Name} {swaps : List Swap} {kept : List Term} (h : Replaced nodes swaps kept) :
    Replaced nodes (swaps.map Measured.back) kept := by
  refine ⟨by simpa using h.nonempty, ?_, ?_, ?_, ?_, ?_⟩
  · have := h.nodup
    have hp : ((swaps.map Measured.back).map Swap.oldTerm ++ (swaps.map Measured.back).map Swap.newTerm ++ kept).Perm
        (swaps.map Swap.oldTerm ++ swaps.map Swap.newTerm ++ kept) := by
      refine List.Perm.append_right _ ?_
      simp only [List.map_map]
      have h1 : (Swap.oldTerm ∘ Measured.back) = Swap.newTerm := rfl
      have h2 : (Swap.newTerm ∘ Measured.back) = Swap.oldTerm := rfl
      rw [h1, h2]
      exact List.perm_append_comm
    exact (hp.map Term.base).nodup_iff.2 this
  · intro s hs
    obtain ⟨t, ht, rfl⟩ := List.mem_map.1 hs
    exact (h.symbol t ht).symm
  · intro s hs
    obtain ⟨t, ht, rfl⟩ := List.mem_map.1 hs
    exact (h.dimension t ht).symm
  · intro s hs
    obtain ⟨t, ht, rfl⟩ := List.mem_map.1 hs
    exact (h.convertible t ht).symm
  · intro s hs s' hs' hne
    obtain ⟨t, ht, rfl⟩ := List.mem_map.1 hs
    obtain ⟨t', ht', rfl⟩ := List.mem_map.1 hs'
    have := h.distinct t ht t' ht' (fun he => hne (by rw [he]))
    exact ⟨fun hp => (this.1 hp).symm, fun hp => (this.2 hp).symm⟩

/-- the factor between compound units -/
theorem replaced_factor {nodes : List Name} {systems : List System} {φ : Name → ℚ} (hφ : TableSizes φ)
    {swaps : List Swap} {kept : List Term} (h : Replaced nodes swaps kept) {u v : Name} {a b : List Term}
    (hu : exprOfString false u = .ok a) (hv : exprOfString false v = .ok b) (na : NamesOnly a) (nb : NamesOnly b)
    (ha : a.Perm (swaps.map Swap.oldTerm ++ kept)) (hb : b.Perm (swaps.map Swap.newTerm ++ kept))
    (hstr : convertAsStrings (realEnv nodes) u v = none) :
    convert (realConv nodes systems) u v = .ok (value (fun n => (φ n : ℝ)) a / value (fun n => (φ n : ℝ)) b) := by
  have hpos : Positive (fun n => (φ n : ℝ)) := fun n => by
    show (0 : ℝ) < (φ n : ℝ)
    exact_mod_cast hφ.pos n
  have hf : ∀ s ∈ swaps, convertAsStrings (realEnv nodes) s.old s.new = some (φ s.old / φ s.new) := by
    intro s hs
    obtain ⟨⟨f, hf⟩, _⟩ := h.convertible s hs
    rw [hf, strings_sound (E := realEnv nodes) hφ conversions_nodup hf]
  rw [c24_matching nodes systems swaps kept (fun s => φ s.old / φ s.new) u v a b hu hv na nb ha hb h.nodup h.symbol
    h.dimension (fun s hs => ⟨hf s hs, by obtain ⟨_, g, hg⟩ := h.convertible s hs; rw [hg]; rfl⟩) h.distinct hstr]
  congr 1
  have ha' : value (fun n => (φ n : ℝ)) a = ((swaps.map Swap.oldTerm ++ kept).map (Term.val (fun n => (φ n : ℝ)))).prod :=
    (ha.map _).prod_eq
  have hb' : value (fun n => (φ n : ℝ)) b = ((swaps.map Swap.newTerm ++ kept).map (Term.val (fun n => (φ n : ℝ)))).prod :=
    (hb.map _).prod_eq
  have hk : (kept.map (Term.val (fun n => (φ n : ℝ)))).prod ≠ 0 := by
    refine (value_pos hpos (ts := kept) ?_).ne'
    intro t ht
    exact na.coeff t (ha.mem_iff.2 (by simp [ht]))
  rw [ha', hb', List.map_append, List.map_append, List.prod_append, List.prod_append, mul_div_mul_right _ _ hk]
  clear ha hb ha' hb'
  have hsym := h.symbol
  clear h hf
  induction swaps with
  | nil => simp
  | cons s swaps ih =>
    have ih := ih (fun s hs => hsym s (by simp [hs]))
    obtain ⟨h1, h2⟩ := hsym s (by simp)
    have o1 : s.old ≠ one := fun e => h1 (e ▸ (by decide +kernel))
    have o2 : s.new ≠ one := fun e => h2 (e ▸ (by decide +kernel))
    simp only [List.map_cons, List.prod_cons]
    rw [ih, mul_div_mul_comm]
    congr 1
    simp only [Swap.oldTerm, Swap.newTerm, Term.val, o1, o2, if_false]
    push_cast
    rw [one_mul, one_mul, Real.rpow_intCast, Real.rpow_intCast, div_zpow]

theorem NamesOnly.perm {a b : List Term} (h : NamesOnly a) (hp : b.Perm a) : NamesOnly b :=
  ⟨fun h0 => h.nonempty (by rw [h0] at hp; exact hp.symm.eq_nil), fun t ht => h.coeff t (hp.mem_iff.1 ht),
    fun t ht => h.exp t (hp.mem_iff.1 ht), fun t ht => h.base t (hp.mem_iff.1 ht)⟩

/-- **C34**, compound units.  Let the unit of an object and the requested unit (written with symbols) differ by units that
convert by name, raised to the same powers.  After any history the conversion succeeds, with the requested unit and the
same amounts. -/
theorem c34_compound (nodes : List Name) (systems : List System) (φ : Name → ℚ) (hφ : TableSizes φ)
    (rs : List (Name × Name)) (x : Obj ℝ) (v : Name) (w : List Term) (swaps : List Swap) (kept : List Term)
    (hr : Replaced nodes swaps kept) (hx : Plain x.unit) (hxs : ∀ t ∈ x.unit, asSymbol t = .ok t)
    (hv : exprOfString false v = .ok w) (hvf : freshUnit v = .ok w) (nw : NamesOnly w)
    (hxp : x.unit.Perm (swaps.map Swap.oldTerm ++ kept)) (hwp : w.Perm (swaps.map Swap.newTerm ++ kept))
    (hstr : convertAsStrings (realEnv nodes) (showExpr x.unit) v = none)
    (hstr' : convertAsStrings (realEnv nodes) v (showExpr x.unit) = none) :
    ∃ y, withunit (realConv nodes systems) (afterRequests (realConv nodes systems) [] rs) x v =
        (afterRequests (realConv nodes systems) [] (rs ++ [(showExpr x.unit, v)]), .ok y) ∧
      y.unit = w ∧ SameAmounts (fun n => φ n) x y := by
  have hpos : Positive (fun n => (φ n : ℝ)) := fun n => by
    show (0 : ℝ) < (φ n : ℝ)
    exact_mod_cast hφ.pos n
  obtain ⟨r, hrd, hrp⟩ := hx.reduce
  have hu : exprOfString false (showExpr x.unit) = .ok r := by
    rw [showExpr_round_trip x.unit hx.names.nonempty hx.row, hrd]
  obtain ⟨r', hr', _⟩ := fresh_of_name hx hxs
  have hrr : r' = r := by
    unfold freshUnit at hr'
    rw [hu] at hr'
    simp only [ofSym, bind, Except.bind] at hr'
    rw [mapE_fixed (fun t ht => hxs t (hrp.mem_iff.1 ht))] at hr'
    cases hr'; rfl
  subst hrr
  have nr : NamesOnly r' := NamesOnly.perm hx.names hrp
  have hval : value (fun n => (φ n : ℝ)) r' = value (fun n => (φ n : ℝ)) x.unit := (hrp.map _).prod_eq
  have h1 := replaced_factor (systems := systems) hφ hr hu hv nr nw (hrp.trans hxp) hwp hstr
  have h2 := replaced_factor (systems := systems) hφ hr.back hv hu nw nr
    (by rw [List.map_map]; exact hwp) (by rw [List.map_map]; exact hrp.trans hxp) hstr'
  rw [← one_div_div] at h2
  have hno : exprEq r' w = false := by
    by_contra h
    have h : exprEq r' w = true := by simpa using h
    obtain ⟨s, hs⟩ := List.exists_mem_of_ne_nil _ hr.nonempty
    obtain ⟨t, ht, he⟩ := exprEq_mem h (t := s.oldTerm) ((hrp.trans hxp).mem_iff.2 (by simp; exact Or.inl ⟨s, hs, rfl⟩))
    obtain ⟨n1, n2, n3, n4, n5⟩ := swap_nodup hr.nodup
    have hnd := hr.nodup
    simp only [List.map_append, List.map_map, List.append_assoc] at hnd
    rw [List.nodup_append] at hnd
    refine hnd.2.2 s.old (List.mem_map.2 ⟨s, hs, rfl⟩) t.base ?_ (by simpa [Swap.oldTerm] using he.symm)
    rw [← List.map_map, ← List.map_append]
    exact List.mem_map_of_mem (hwp.mem_iff.1 ht)
  have h := withunit_ok (realConv nodes systems) rs x v r' w _ h1 h2 hr' hvf
  refine ⟨_, h, ?_, ?_⟩
  · unfold apply; simp [hno]
  · unfold apply
    simp only [hno, Bool.false_eq_true, if_false]
    refine ⟨rfl, fun p => ?_⟩
    have hw : (0 : ℝ) < value (fun n => (φ n : ℝ)) w := value_pos hpos nw.coeff
    simp only [Obj.amount, ND.get, ND.map, hval]
    field_simp

/-! ### The hypotheses can be met -/

theorem isSymbolOf_of {n s : Name} (h : s ≠ one ∧ freshUnit n = .ok [⟨1, s, 1⟩] ∧ (named n).map Entry.symbol = some s) :
    IsSymbolOf n s := by
  refine ⟨h.1, h.2.1, ?_⟩
  cases hn : named n with
  | none => rw [hn] at h; cases h.2.2
  | some e => rw [hn] at h; exact ⟨e, rfl, by simpa using h.2.2⟩

theorem convertible_of {nodes : List Name} {s v : Name} (h : (convertAsStrings (realEnv nodes) s v).isSome = true ∧
    (convertAsStrings (realEnv nodes) v s).isSome = true) : Convertible nodes s v :=
  ⟨Option.isSome_iff_exists.1 h.1, Option.isSome_iff_exists.1 h.2⟩

/-- the sizes are not an assumption about nothing -/
example : TableSizes size := real_sizes []

/-- kilometers, astronomical units and solar radii, by symbol and by name -/
example : Chain tableNodes c! "km" [(c! "au", c! "au"), (c! "Rs", c! "Rs"), (c! "meter", c! "m")] :=
  ⟨isSymbolOf_of (by decide +kernel), isSymbolOf_of (by decide +kernel), convertible_of (by decide +kernel),
    isSymbolOf_of (by decide +kernel), isSymbolOf_of (by decide +kernel), convertible_of (by decide +kernel),
    isSymbolOf_of (by decide +kernel), isSymbolOf_of (by decide +kernel), convertible_of (by decide +kernel), trivial⟩

example : Convertible tableNodes c! "km" c! "meter" ∧ Convertible tableNodes c! "m" c! "km" :=
  ⟨convertible_of (by decide +kernel), convertible_of (by decide +kernel)⟩

/-- kilometers per second and meters per hour: all conditions of `c34_compound` hold, for every number -/
example (d : ℝ) : ∃ y, (withunit (realConv tableNodes []) [] ⟨⟨[], fun _ => d⟩, [⟨1, c! "km", 1⟩, ⟨1, c! "MeV", 1⟩, ⟨1, c! "s", -1⟩]⟩
    c! "m MeV / h").2 = .ok y ∧ y.unit = [⟨1, c! "MeV", 1⟩, ⟨1, c! "m", 1⟩, ⟨1, c! "h", -1⟩] := by
  have hr : Replaced tableNodes [⟨c! "km", c! "m", 1⟩, ⟨c! "s", c! "h", -1⟩] [⟨1, c! "MeV", 1⟩] := by
    refine ⟨by simp, by decide +kernel, by decide +kernel, by decide +kernel, ?_, by decide +kernel⟩
    intro s hs
    fin_cases hs
    · exact convertible_of (by decide +kernel)
    · exact convertible_of (by decide +kernel)
  obtain ⟨y, hy, hu, _⟩ := c34_compound tableNodes [] size (real_sizes []) []
    ⟨⟨[], fun _ => d⟩, [⟨1, c! "km", 1⟩, ⟨1, c! "MeV", 1⟩, ⟨1, c! "s", -1⟩]⟩ c! "m MeV / h"
    [⟨1, c! "MeV", 1⟩, ⟨1, c! "m", 1⟩, ⟨1, c! "h", -1⟩] _ _ hr
    ⟨namesOnly_of _ (by (try dsimp only); decide +kernel), by (try dsimp only); decide +kernel, fun h => absurd h (by (try dsimp only); decide +kernel)⟩
    (by (try dsimp only); decide +kernel) (by (try dsimp only); decide +kernel) (by (try dsimp only); decide +kernel) (namesOnly_of _ (by (try dsimp only); decide +kernel)) (by (try dsimp only); decide +kernel)
    (by (try dsimp only); decide +kernel) (by (try dsimp only); decide +kernel) (by (try dsimp only); decide +kernel)
  exact ⟨y, by rw [show ([] : Cache ℝ) = afterRequests (realConv tableNodes []) [] [] from rfl, hy], hu⟩

/-- what is seen of a conversion: the number and the unit -/
def seen {K : Type} (x : Except MErr (Obj K)) : Except MErr (K × List Term) := x.map (fun y => (y.data.get [], y.unit))

/-- a scalar -/
def scalar {K : Type} (x : K) (unit : List Term) : Obj K := ⟨⟨[], fun _ => x⟩, unit⟩

set_option maxHeartbeats 100000000 in
/-- **C34**, the restriction on compound units is necessary: a kilojoule becomes 10^7 `g cm^2 s^-2` directly, but 10^10 if
it is converted to joules first. -/
theorem c34_not_compound : ∀ c ∈ ratConvs,
    seen (withunit c [] (scalar 1 [⟨1, c! "kJ", 1⟩]) c! "g * cm^2 / s^2").2 =
      .ok (10 ^ 7, [⟨1, c! "cm", 2⟩, ⟨1, c! "g", 1⟩, ⟨1, c! "s", -2⟩]) ∧
    seen (withunits c [] (scalar 1 [⟨1, c! "kJ", 1⟩]) [c! "J", c! "g * cm^2 / s^2"]).2 =
      .ok (10 ^ 10, [⟨1, c! "cm", 2⟩, ⟨1, c! "g", 1⟩, ⟨1, c! "s", -2⟩]) := by decide +kernel

set_option maxHeartbeats 100000000 in
/-- **C34**, the restriction to units with a dimension is necessary: one degree per second becomes one radian per
second. -/
theorem c34_not_dimensionless : ∀ c ∈ ratConvs,
    seen (withunit c [] (scalar 1 [⟨1, c! "deg", 1⟩, ⟨1, c! "s", -1⟩]) c! "rad / s").2 =
      .ok (1, [⟨1, c! "rad", 1⟩, ⟨1, c! "s", -1⟩]) := by decide +kernel

/-! ## C35 -/

section arrays
variable {κ : Type} [DecidableEq κ]

theorem parr_withunit_ok (nodes : List Name) (systems : List System) {φ : Name → ℚ} (hφ : TableSizes φ)
    (rs : List (Name × Name)) (x : PArr κ ℝ) (s v t : Name) (hx : x.unit = [⟨1, s, 1⟩]) (hs : IsSymbolOf s s)
    (hv : IsSymbolOf v t) (hc : Convertible nodes s v) (hst : s ≠ t) :
    x.withunit (realConv nodes systems) (afterRequests (realConv nodes systems) [] rs) v =
      (afterRequests (realConv nodes systems) [] (rs ++ [(s, v)]), .ok ⟨x.raw, (φ s : ℝ) / φ v, [⟨1, t, 1⟩]⟩) := by
  obtain ⟨f, h1, h2, hf⟩ := convertible_factor (systems := systems) hφ hc
  have hsh : showExpr x.unit = s := by rw [hx, show_symbol]
  have h := conversion_ok (realConv nodes systems) rs x.unit v [⟨1, s, 1⟩] [⟨1, t, 1⟩] f (by rw [hsh]; exact h1)
    (by rw [hsh]; exact h2) (by rw [hsh]; exact hs.2.1) hv.2.1
  rw [hsh] at h
  unfold PArr.withunit
  rw [h]
  have hne : exprEq [⟨1, s, 1⟩] [⟨1, t, 1⟩] = false := by
    rw [← Bool.not_eq_true, exprEq_symbols]; exact hst
  simp only [converter, hne, Bool.false_eq_true, if_false, PArr.new, hf]
  push_cast
  rfl

/-- **C35**, the first conversion.  Converting an array that was not converted before (its scale is 1) keeps the amounts. -/
theorem c35_once_partial (nodes : List Name) (systems : List System) (φ : Name → ℚ) (hφ : TableSizes φ)
    (rs : List (Name × Name)) (x : PArr κ ℝ) (h1 : x.scale = 1) (s v t : Name) (hx : x.unit = [⟨1, s, 1⟩])
    (hs : IsSymbolOf s s) (hv : IsSymbolOf v t) (hc : Convertible nodes s v) (hst : s ≠ t) :
    ∃ y, (x.withunit (realConv nodes systems) (afterRequests (realConv nodes systems) [] rs) v).2 = .ok y ∧
      y.unit = [⟨1, t, 1⟩] ∧ y.data.dims = x.data.dims ∧ y.data.data.shape = x.data.data.shape ∧
      ∀ p, y.amount (fun n => φ n) p = x.amount (fun n => φ n) p := by
  refine ⟨⟨x.raw, (φ s : ℝ) / φ v, [⟨1, t, 1⟩]⟩,
    by rw [parr_withunit_ok nodes systems hφ rs x s v t hx hs hv hc hst], rfl, rfl, rfl, fun p => ?_⟩
  have hpos : (0 : ℝ) < φ v := by exact_mod_cast hφ.pos v
  simp only [PArr.amount, PArr.data, ND.get, ND.map, hx, h1, value_symbol _ hs.1, value_symbol _ hv.1, symbol_size hφ hv]
  field_simp

/-- **C35** is false: two conversions to different units give the data of one direct conversion exactly where the stored
number is zero, or if the first two units have the same size. -/
theorem c35_not_chain (nodes : List Name) (systems : List System) (φ : Name → ℚ) (hφ : TableSizes φ)
    (rs rs' : List (Name × Name)) (x : PArr κ ℝ) (s v t v' t' : Name) (hx : x.unit = [⟨1, s, 1⟩])
    (hs : IsSymbolOf s s) (hv : IsSymbolOf v t) (ht : IsSymbolOf t t) (hv' : IsSymbolOf v' t')
    (hc : Convertible nodes s v) (hc' : Convertible nodes t v') (hc'' : Convertible nodes s v')
    (hst : s ≠ t) (htt : t ≠ t') (hst' : s ≠ t') :
    ∃ y z, (x.withunits (realConv nodes systems) (afterRequests (realConv nodes systems) [] rs) [v, v']).2 = .ok y ∧
      (x.withunit (realConv nodes systems) (afterRequests (realConv nodes systems) [] rs') v').2 = .ok z ∧
      y.unit = z.unit ∧ ∀ p, y.data.data.get p = z.data.data.get p ↔ x.raw.data.get p = 0 ∨ φ s = φ v := by
  have h1 := parr_withunit_ok nodes systems hφ rs x s v t hx hs hv hc hst
  have h2 := parr_withunit_ok nodes systems hφ (rs ++ [(s, v)]) (⟨x.raw, (φ s : ℝ) / φ v, [⟨1, t, 1⟩]⟩ : PArr κ ℝ) t v' t' rfl
    ht hv' hc' htt
  have h3 := parr_withunit_ok nodes systems hφ rs' x s v' t' hx hs hv' hc'' hst'
  refine ⟨⟨x.raw, (φ t : ℝ) / φ v', [⟨1, t', 1⟩]⟩, ⟨x.raw, (φ s : ℝ) / φ v', [⟨1, t', 1⟩]⟩, ?_, by rw [h3], rfl, fun p => ?_⟩
  · simp only [PArr.withunits, h1, h2]
  · have hp1 : (0 : ℝ) < φ v' := by exact_mod_cast hφ.pos v'
    simp only [PArr.data, ND.get, ND.map]
    rw [mul_eq_mul_right_iff, div_left_inj' hp1.ne', symbol_size hφ hv]
    constructor
    · rintro (h | h)
      · exact Or.inr (by exact_mod_cast h.symm)
      · exact Or.inl h
    · rintro (h | h)
      · exact Or.inr h
      · exact Or.inl (by exact_mod_cast h.symm)

set_option maxHeartbeats 100000000 in
/-- **C35** is false: one kilometer converted to meters and back is a thousandth of a kilometer. -/
theorem c35_not_back : ∀ c ∈ ratConvs,
    ((PArr.withunits c [] (PArr.new (⟨⟨[1], fun _ => 1⟩, ["x"], false⟩ : Named String ℚ) [⟨1, c! "km", 1⟩])
      [c! "m", c! "km"]).2.map (fun y => (y.data.data.get [0], y.unit))) = .ok (1 / 1000, [⟨1, c! "km", 1⟩]) := by
  decide +kernel

/-! ## C72 -/

/-- **C72**, arrays that were not converted.  Transposing an array with scale 1 keeps its unit, and the elements at the
same named positions. -/
theorem c72_unscaled_partial (x y : PArr κ ℝ) (names : List κ) (hw : WellNamed x.raw) (h1 : x.scale = 1)
    (h : x.transposeNames names = .ok y) : y.unit = x.unit ∧ SameByName x.data y.data := by
  unfold PArr.transposeNames at h
  split at h
  · cases h
  next d hd =>
    cases h
    obtain ⟨hsb, hdims⟩ := c32_names_partial x.raw d names false hw hd
    have e1 : x.data = x.raw := by simp [PArr.data, h1, ND.map]
    refine ⟨rfl, ?_⟩
    rw [e1]
    simp only [PArr.data, PArr.new, one_mul, ND.map]
    exact ⟨⟨hsb.named.nodup, hsb.named.length⟩, hsb.dims, hsb.size, hsb.element⟩

/-- **C72** is false for converted arrays: transposing divides the elements by the factor of the last conversion. -/
theorem c72_scaled (x y : PArr κ ℝ) (names : List κ) (hw : WellNamed x.raw) (h : x.transposeNames names = .ok y) :
    y.unit = x.unit ∧ ∀ ρ, x.data.Has ρ → x.data.at ρ = x.scale * y.data.at ρ := by
  unfold PArr.transposeNames at h
  split at h
  · cases h
  next d hd =>
    cases h
    obtain ⟨hsb, hdims⟩ := c32_names_partial x.raw d names false hw hd
    refine ⟨rfl, fun ρ hρ => ?_⟩
    have := hsb.element ρ hρ
    simp only [Named.at, ND.get] at this
    simp only [PArr.data, PArr.new, one_mul, ND.map, Named.at, ND.get, this]

set_option maxHeartbeats 100000000 in
/-- **C72** is false: a kilometer, converted to a thousand meters and transposed, is one meter. -/
theorem c72_not : ∀ c ∈ ratConvs,
    ((PArr.withunit c [] (PArr.new (⟨⟨[1, 1], fun _ => 1⟩, ["x", "y"], false⟩ : Named String ℚ) [⟨1, c! "km", 1⟩])
      c! "m").2.map (fun y => (y.data.data.get [0, 0], (y.transposeNames ["y", "x"]).map (fun z => (z.data.data.get [0, 0], z.unit)))))
      = .ok (1000, .ok (1, [⟨1, c! "m", 1⟩])) := by
  decide +kernel

end arrays

end Eprem.Measured
