import Verif.Spec.Create
import Verif.Lemmas.PyDict
import Verif.Lemmas.Print
import Verif.Lemmas.NamedArray

/-!
# C105: creating axes, and C106: creating physical objects
-/

namespace Eprem.Physical

open Eprem Eprem.Symbolic Eprem.Metric Eprem.Numeric Eprem.Measured

variable {K : Type}

/-! ## Names -/

theorem showNat_injective {i j : Nat} (h : showNat i = showNat j) : i = j := by
  rw [← showNat_val i, ← showNat_val j, h]

theorem defaultName_injective {i j : Nat} (h : defaultName i = defaultName j) : i = j :=
  showNat_injective (List.cons.inj h).2

theorem defaultNames_nodup (n : Nat) : (defaultNames n).Nodup :=
  List.Nodup.map (fun _ _ => defaultName_injective) List.nodup_range

theorem defaultNames_length (n : Nat) : (defaultNames n).length = n := by simp [defaultNames]

/-! ## Axes -/

theorem rangeAxis_range (n : ℤ) : IsRange n.toNat (rangeAxis (K := K) n) := by
  refine ⟨_, rfl, by simp, fun i hi => ?_⟩
  simp [hi]

theorem convertItems_ok : ∀ (names : List Name) (args : List (AxisArg K)) (h : ∀ x ∈ args, x ≠ .other),
    ∃ l, convertItems (names.zip args) = .ok (names.zip l) ∧ List.Forall₂ StandsFor (args.take names.length) (l.take names.length) ∧
      l.length = args.length
  | names, [], _ => ⟨[], by simp [convertItems], by simp, rfl⟩
  | [], x :: args, h => by
    obtain ⟨l, _, _, h3⟩ := convertItems_ok [] args (fun y hy => h y (by simp [hy]))
    refine ⟨.symbols ⟨[], none⟩ :: l, by simp [convertItems], by simp, by simp [h3]⟩
  | n :: names, x :: args, h => by
    obtain ⟨l, h1, h2, h3⟩ := convertItems_ok names args (fun y hy => h y (by simp [hy]))
    have hx : ∃ a, convertToAxis x = .ok a ∧ StandsFor x a := by
      cases x with
      | axis a => exact ⟨_, rfl, .axis a⟩
      | strings l => exact ⟨_, rfl, .strings l⟩
      | integers l => exact ⟨_, rfl, .integers l⟩
      | measurable l u => cases u with
        | none => exact ⟨_, rfl, .numbers l⟩
        | some u => exact ⟨_, rfl, .quantity l u⟩
      | other => exact absurd rfl (h _ (by simp))
    obtain ⟨a, ha, hs⟩ := hx
    refine ⟨a :: l, ?_, by simpa using ⟨hs, h2⟩, by simp [h3]⟩
    simp only [List.zip_cons_cons, convertItems, ha, h1]

/-- A dictionary with distinct names. -/
theorem axesFor_zip {α : Type} {names : List Name} {args : List α} {l : List (AnyAxis K)} {R : α → AnyAxis K → Prop}
    (hn : names.Nodup) (hl : l.length = names.length) (ha : args.length = names.length) (h : List.Forall₂ R args l) :
    AxesFor names args R (Dict.ofItems (names.zip l)) := by
  have hk : (names.zip l).map Prod.fst = names := List.map_fst_zip (by omega)
  have e : Dict.ofItems (names.zip l) = names.zip l := Dict.ofItems_nodup _ (by rw [hk]; exact hn)
  rw [e]
  refine ⟨hk, fun i n x h1 h2 => ?_⟩
  obtain ⟨hi, h1'⟩ := List.getElem?_eq_some_iff.1 h1
  obtain ⟨hi2, h2'⟩ := List.getElem?_eq_some_iff.1 h2
  have hi3 : i < l.length := by omega
  refine ⟨l[i], Dict.get?_of_mem (by unfold Dict.WF Dict.keys; rw [hk]; exact hn) ?_, ?_⟩
  · rw [← h1']
    have : (names.zip l)[i]'(by simp; omega) = (names[i], l[i]) := by simp
    rw [← this]
    exact List.getElem_mem _
  · have := h.get (i := i) hi2 hi3
    rw [← h2']
    exact this

theorem shape_axes {names : List Name} {shape : List ℤ} (hn : names.Nodup) (hl : shape.length = names.length) :
    AxesFor names shape (fun n a => IsRange n.toNat a) (axesFromShape (K := K) names shape) := by
  refine axesFor_zip hn (by simpa using hl) hl ?_
  rw [List.forall₂_map_right_iff]
  exact List.forall₂_same.2 (fun n _ => rangeAxis_range n)

theorem items_axes {names : List Name} {args : List (AxisArg K)} (hn : names.Nodup) (hl : args.length = names.length)
    (h : ∀ x ∈ args, x ≠ .other) : ∃ r, convertAxes (names.zip args) = .ok r ∧ AxesFor names args StandsFor r := by
  obtain ⟨l, h1, h2, h3⟩ := convertItems_ok names args h
  refine ⟨Dict.ofItems (names.zip l), by simp only [convertAxes, h1], axesFor_zip hn (by omega) hl ?_⟩
  rw [List.take_of_length_le (by omega), List.take_of_length_le (by omega)] at h2
  exact h2

theorem without_pairs {kw : AxesKeywords K} (h : kw.merged = []) : makeAxes [] kw = axesWithoutPairs kw := by
  show axesFromKeywords kw = _
  unfold axesFromKeywords
  rw [h]
  rfl

theorem with_pairs {kw : AxesKeywords K} {m : Dict Name (AxisArg K)} (h : kw.merged = m) (hm : m ≠ []) :
    makeAxes [] kw = convertAxes m := by
  show axesFromKeywords kw = _
  unfold axesFromKeywords
  rw [h, if_neg (by simpa using hm)]

theorem lengths_map (ns : List ℤ) : lengths (ns.map (Positional.length (K := K))) = some ns := by
  induction ns with
  | nil => rfl
  | cons n ns ih => simp only [List.map_cons, lengths, ih]

/-! ## C105 -/

/-- **C105**, lengths and shapes.  Two or more lengths, or a shape, give one axis for each of them, with the names `x0`, `x1`,
…, all different, or with the given names, and with the positions from zero. -/
theorem c105_lengths_partial (shape : List ℤ) (ds : List Name) (hd : ds.Nodup) (hl : ds.length = shape.length) :
    (2 ≤ shape.length → ∃ r, makeAxes (K := K) (shape.map .length) {} = .ok r ∧
      AxesFor ((List.range shape.length).map defaultName) shape (fun n a => IsRange n.toNat a) r) ∧
    (∃ r, makeAxes (K := K) [] {shape := some shape} = .ok r ∧
      AxesFor ((List.range shape.length).map defaultName) shape (fun n a => IsRange n.toNat a) r) ∧
    (∃ r, makeAxes (K := K) [] {shape := some shape, dimensions := some ds} = .ok r ∧
      AxesFor ds shape (fun n a => IsRange n.toNat a) r) ∧
    ∀ i j, defaultName i = defaultName j → i = j := by
  refine ⟨fun h2 => ⟨_, ?_, shape_axes (defaultNames_nodup shape.length) (by simp [defaultNames])⟩,
    ⟨_, rfl, shape_axes (defaultNames_nodup shape.length) (by simp [defaultNames])⟩, ⟨axesFromShape ds shape, ?_, shape_axes hd hl.symm⟩,
    fun _ _ => defaultName_injective⟩
  · match shape, h2 with
    | a :: b :: shape, _ =>
      have := lengths_map (K := K) (a :: b :: shape)
      simp only [List.map_cons] at this ⊢
      simp only [makeAxes, this]
      rfl
  · rw [without_pairs rfl]
    exact if_neg (by simp [hl])

/-- three lengths -/
example : [(c! "time"), c! "shell", c! "energy"].Nodup ∧ [(c! "time"), c! "shell", c! "energy"].length = [(5 : ℤ), 7, 3].length := by decide

/-- **C105** does not hold for one length, which raises a `TypeError`. -/
theorem c105_not_one (n : ℤ) (kw : AxesKeywords K) : makeAxes [.length n] kw = .error .type := rfl

/-- **C105**, values.  Values with or without names give one axis for each of them, in their order, with these values; and
pairs, a mapping given by position or by keyword give the axes of these names. -/
theorem c105_values (names : List Name) (args : List (AxisArg K)) (hn : names.Nodup) (hl : args.length = names.length)
    (h : ∀ x ∈ args, x ≠ .other) :
    (∃ r, makeAxes [] {axes := some args} = .ok r ∧ AxesFor ((List.range args.length).map defaultName) args StandsFor r) ∧
    (∃ r, makeAxes [] {axes := some args, dimensions := some names} = .ok r ∧ AxesFor names args StandsFor r) ∧
    (∃ r, makeAxes [.mapping (names.zip args)] {} = .ok r ∧ AxesFor names args StandsFor r) ∧
    (names ≠ [] → ∃ r, makeAxes [] {pairs := names.zip args} = .ok r ∧ makeAxes [] {mapping := some (names.zip args)} = .ok r ∧
      AxesFor names args StandsFor r) := by
  obtain ⟨r, h1, h2⟩ := items_axes hn hl h
  have hk : (names.zip args).map Prod.fst = names := List.map_fst_zip (by omega)
  obtain ⟨r', h1', h2'⟩ := items_axes (defaultNames_nodup args.length) (by simp [defaultNames]) h
  refine ⟨⟨r', h1', h2'⟩, ⟨r, ?_, h2⟩, ⟨r, h1, h2⟩, fun hne => ⟨r, ?_, ?_, h2⟩⟩
  · rw [without_pairs rfl]
    exact (if_neg (by simp [hl])).trans h1
  · rw [with_pairs rfl, ← h1]
    · rfl
    intro h0
    replace h0 : names.zip args = [] := h0
    rw [h0] at hk
    exact hne hk.symm
  · have e : (names.zip args).foldl (fun (d : Dict Name (AxisArg K)) p => d.set p.1 p.2) [] = names.zip args :=
      Dict.ofItems_nodup _ (by rw [hk]; exact hn)
    rw [with_pairs (m := names.zip args) (by rw [AxesKeywords.merged]; exact e), h1]
    intro h0
    rw [h0] at hk
    exact hne hk.symm

/-- names of species, and energies -/
example : [(c! "species"), c! "energy"].Nodup ∧ ∀ x ∈ [AxisArg.strings [c! "H+"], AxisArg.measurable [(1 : ℚ), 10] (some [⟨1, c! "MeV", 1⟩])],
    x ≠ .other := by simp

/-- **C105**, errors: a wrong number of names, names alone, nothing at all, or something that is no axis. -/
theorem c105_errors (kw : AxesKeywords K) (ds : List Name) (shape : List ℤ) (args : List (AxisArg K))
    (hm : kw.mapping.getD [] = []) (hp : kw.pairs = []) :
    (kw.axes = some args → kw.dimensions = some ds → args.length ≠ ds.length → makeAxes [] kw = .error .value) ∧
    (kw.axes = none → kw.shape = some shape → kw.dimensions = some ds → shape.length ≠ ds.length → makeAxes [] kw = .error .value) ∧
    (kw.axes = none → kw.shape = none → kw.dimensions = some ds → makeAxes [] kw = .error .type) ∧
    (kw.axes = none → kw.shape = none → kw.dimensions = none → makeAxes [] kw = .error .value) := by
  have e : kw.merged = [] := by rw [AxesKeywords.merged, hm, hp]; rfl
  rw [without_pairs e]
  refine ⟨fun h1 h2 h3 => ?_, fun h1 h2 h3 h4 => ?_, fun h1 h2 h3 => ?_, fun h1 h2 h3 => ?_⟩
  · simp only [axesWithoutPairs, h1, h2]; exact if_pos h3
  · simp only [axesWithoutPairs, h1, h2, h3]; exact if_pos h4
  · simp only [axesWithoutPairs, h1, h2, h3]
  · simp only [axesWithoutPairs, h1, h2, h3]

theorem c105_not_axis (names : List Name) (args : List (AxisArg K)) (hl : args.length = names.length) (h : .other ∈ args) :
    makeAxes [.mapping (names.zip args)] {} = .error .value := by
  have key : ∀ (names : List Name) (args : List (AxisArg K)), args.length = names.length → .other ∈ args →
      convertItems (names.zip args) = .error .value := by
    intro names args
    induction args generalizing names with
    | nil => intro _ h; cases h
    | cons x args ih =>
      intro hl h
      match names, hl with
      | n :: names, hl =>
        simp only [List.zip_cons_cons, convertItems]
        cases x with
        | other => rfl
        | axis a => simp only [convertToAxis, ih names (by simpa using hl) (by simpa using h)]
        | strings a => simp only [convertToAxis, ih names (by simpa using hl) (by simpa using h)]
        | integers a => simp only [convertToAxis, ih names (by simpa using hl) (by simpa using h)]
        | measurable a u => simp only [convertToAxis, ih names (by simpa using hl) (by simpa using h)]
  simp only [makeAxes, convertAxes, key names args hl h]

/-- a number is no axis -/
example : (AxisArg.other : AxisArg ℚ) ∈ [.integers [1, 2], .other] := by simp

/-- **C105** does not hold for the order of precedence of pairs over a mapping: for a name in both, the axis of the mapping is
taken. -/
theorem c105_not_precedence (n : Name) (x y : AxisArg K) (a : AnyAxis K) (h : StandsFor y a) :
    makeAxes [] {pairs := [(n, x)], mapping := some [(n, y)]} = .ok [(n, a)] := by
  have e : AxesKeywords.merged {pairs := [(n, x)], mapping := some [(n, y)]} = [(n, y)] := by
    simp [AxesKeywords.merged, Dict.set]
  rw [with_pairs e (by simp)]
  cases h <;> rfl

/-- **C105** does not hold for names that are given twice: there are fewer axes than values. -/
theorem c105_not_twice (n : Name) (x y : ℤ) :
    ∃ r, makeAxes (K := K) [] {shape := some [x, y], dimensions := some [n, n]} = .ok r ∧ r.keys = [n] := by
  refine ⟨_, rfl, ?_⟩
  simp [axesFromShape, Dict.ofItems, Dict.set, Dict.keys]

/-! ## C106 -/

variable [Field K]

theorem iff_with {P Q R : Prop} (h : P ↔ Q) (hr : R) : P ↔ Q ∧ R := ⟨fun x => ⟨h.1 x, hr⟩, fun x => h.2 x.1⟩

theorem scalarFrom_iff {d : ND K} {u : List Term} : (∃ o, scalarFrom d u = .ok o) ↔ d.shape = [1] := by
  unfold scalarFrom ND.ndim
  constructor
  · rintro ⟨o, h⟩
    by_cases h1 : d.size ≠ 1
    · rw [if_pos h1] at h; cases h
    · rw [if_neg h1] at h
      push Not at h1
      match hs : d.shape with
      | [] => rw [hs] at h; cases h
      | [n] =>
        have : d.size = n := by simp [ND.size, hs, Numeric.sizeOf]
        rw [← h1, this]
      | a :: b :: l => rw [hs] at h; cases h
  · intro h
    have : d.size = 1 := by simp [ND.size, h, Numeric.sizeOf]
    rw [if_neg (by simpa using this), h]
    exact ⟨_, rfl⟩

theorem scalarFrom_holds {d : ND K} {u : List Term} {o : Obj K} (h : scalarFrom d u = .ok o) : o.data.shape = [] ∧ Holds o d u := by
  have hs := scalarFrom_iff.1 ⟨o, h⟩
  have h1 : d.size = 1 := by simp [ND.size, hs, Numeric.sizeOf]
  unfold scalarFrom ND.ndim at h
  rw [if_neg (by simpa using h1), hs] at h
  cases h
  exact ⟨rfl, by rw [h1]; rfl, fun _ _ => rfl, rfl⟩

theorem vectorFrom_iff {d : ND K} {u : List Term} : (∃ o, vectorFrom d u = .ok o) ↔ d.ndim = 1 := by
  unfold vectorFrom
  by_cases h : d.ndim = 1 <;> simp [h]

theorem vectorFrom_holds {d : ND K} {u : List Term} {o : Obj K} (h : vectorFrom d u = .ok o) : o.data.shape = d.shape ∧ Holds o d u := by
  unfold vectorFrom at h
  split at h
  · cases h
  · cases h; exact ⟨rfl, rfl, fun _ _ => rfl, rfl⟩

theorem tensorFrom_iff {d : ND K} {u : List Term} : (∃ o, tensorFrom d u = .ok o) ↔ d.ndim ≠ 0 := by
  unfold tensorFrom
  by_cases h : d.ndim = 0 <;> simp [h]

theorem tensorFrom_holds {d : ND K} {u : List Term} {o : Obj K} (h : tensorFrom d u = .ok o) : o.data.shape = d.shape ∧ Holds o d u := by
  unfold tensorFrom at h
  split at h
  · cases h
  · cases h; exact ⟨rfl, rfl, fun _ _ => rfl, rfl⟩

theorem unrefused {x : Source K} {unit : Option (List Term)} (hu : unit = none ∨ x.Plain) : refused x [unit.isSome] = false := by
  rcases hu with rfl | hu
  · simp [refused]
  · cases x <;> first | rfl | exact hu.elim

theorem scalar_args {x : Source K} {unit : Option (List Term)} (hu : unit = none ∨ x.Plain) : scalar x unit = scalarArgs x unit := by
  unfold scalar; rw [unrefused hu]; rfl

theorem vector_args {x : Source K} {unit : Option (List Term)} (hu : unit = none ∨ x.Plain) : vector x unit = vectorArgs x unit := by
  unfold vector; rw [unrefused hu]; rfl

theorem tensor_args {x : Source K} {unit : Option (List Term)} (hu : unit = none ∨ x.Plain) : tensor x unit = tensorArgs x unit := by
  unfold tensor; rw [unrefused hu]; rfl

theorem array_args {x : Source K} {unit : Option (List Term)} {axes : AxesArg K} (hu : (unit = none ∧ axes = .none) ∨ x.Plain) :
    array x unit axes = arrayArgs x unit axes := by
  unfold array
  have : refused x [unit.isSome, axes.given] = false := by
    rcases hu with ⟨rfl, rfl⟩ | hu
    · simp [refused, AxesArg.given]
    · cases x <;> first | rfl | exact hu.elim
  rw [this]; rfl

/-- **C106**, scalars.  A scalar is made exactly from single values that are numbers, scalars or lists of one element, and it
has their value and unit.  Not for vectors, measurements and sequences (`c106_not_scalar`). -/
theorem c106_scalar_partial (x : Source K) (unit : Option (List Term)) (hu : unit = none ∨ x.Plain) (hp : x.Proper)
    (hx : ∀ k o, x = .object k o → k = .scalar ∨ k = .tensor) (hs : ∀ o, x ≠ .sequence o) :
    ((∃ o, scalar x unit = .ok o) ↔ (valuesOf x).shape = [1]) ∧
    ∀ o, scalar x unit = .ok o → o.data.shape = [] ∧ Holds o (valuesOf x) (unitFrom unit x) := by
  rw [scalar_args hu]
  cases x with
  | number r => exact ⟨⟨fun _ => rfl, fun _ => ⟨_, rfl⟩⟩, by rintro o ⟨⟩; exact ⟨rfl, rfl, fun _ _ => rfl, rfl⟩⟩
  | values d => exact ⟨scalarFrom_iff, fun o h => scalarFrom_holds h⟩
  | array a => exact ⟨scalarFrom_iff, fun o h => scalarFrom_holds h⟩
  | sequence o => exact absurd rfl (hs o)
  | object k o =>
    rcases hx k o rfl with rfl | rfl
    · refine ⟨⟨fun _ => rfl, fun _ => ⟨_, rfl⟩⟩, ?_⟩
      rintro o ⟨⟩
      have hp : o.data.shape = [] := hp
      exact ⟨hp, by simp [valuesOf, ND.size, hp, Numeric.sizeOf], fun _ _ => rfl, rfl⟩
    · exact ⟨scalarFrom_iff, fun o h => scalarFrom_holds h⟩

/-- a tensor of one element -/
example : (Source.object .tensor ⟨⟨[1], fun _ => (3 : ℚ)⟩, [⟨1, c! "m", 1⟩]⟩).Proper ∧
    (valuesOf (Source.object .tensor ⟨⟨[1], fun _ => (3 : ℚ)⟩, [⟨1, c! "m", 1⟩]⟩)).shape = [1] := ⟨(by decide : [1].length ≠ 0), rfl⟩

/-- **C106**, vectors.  A vector is made exactly from values with one dimension, and from scalars; it has their values and
unit.  Not for measured sequences that are no measurements (`c106_not_sequence`). -/
theorem c106_vector_partial (x : Source K) (unit : Option (List Term)) (hu : unit = none ∨ x.Plain) (hp : x.Proper) (hs : ∀ o, x ≠ .sequence o) :
    ((∃ o, vector x unit = .ok o) ↔ (valuesOf x).ndim = 1 ∧ ∀ r, x ≠ .number r) ∧
    ∀ o, vector x unit = .ok o → o.data.shape = (valuesOf x).shape ∧ Holds o (valuesOf x) (unitFrom unit x) := by
  rw [vector_args hu]
  cases x with
  | number r => exact ⟨⟨by rintro ⟨o, ⟨⟩⟩, fun h => absurd rfl (h.2 r)⟩, by rintro o ⟨⟩⟩
  | values d => exact ⟨iff_with (vectorFrom_iff) (by simp), fun o h => vectorFrom_holds h⟩
  | array a => exact ⟨iff_with (vectorFrom_iff) (by simp), fun o h => vectorFrom_holds h⟩
  | sequence o => exact absurd rfl (hs o)
  | object k o =>
    cases k with
    | scalar => exact ⟨iff_with (vectorFrom_iff (d := listed o.data)) (by simp), fun o h => vectorFrom_holds h⟩
    | measurement => exact ⟨iff_with (vectorFrom_iff) (by simp), fun o h => vectorFrom_holds h⟩
    | tensor => exact ⟨iff_with (vectorFrom_iff) (by simp), fun o h => vectorFrom_holds h⟩
    | vector => exact ⟨⟨fun _ => ⟨hp, by simp⟩, fun _ => ⟨_, rfl⟩⟩, by rintro o ⟨⟩; exact ⟨rfl, rfl, fun _ _ => rfl, rfl⟩⟩

/-- a tensor with one dimension -/
example : (Source.object .tensor ⟨⟨[4], fun i => (i : ℚ)⟩, [⟨1, c! "m", 1⟩]⟩).Proper ∧
    (valuesOf (Source.object .tensor ⟨⟨[4], fun i => (i : ℚ)⟩, [⟨1, c! "m", 1⟩]⟩)).ndim = 1 := ⟨(by decide : [4].length ≠ 0), rfl⟩

/-- **C106**, tensors.  A tensor is made exactly from values with at least one dimension, and from scalars; it has their
values and unit.  Not for vectors and measured sequences (`c106_not_tensor`). -/
theorem c106_tensor_partial (x : Source K) (unit : Option (List Term)) (hu : unit = none ∨ x.Plain) (hp : x.Proper) (hs : ∀ o, x ≠ .sequence o)
    (hv : ∀ o, x ≠ .object .vector o) (ha : ∀ a, x = .array a → a.arr.raw.data.ndim ≠ 0) :
    ((∃ o, tensor x unit = .ok o) ↔ (valuesOf x).ndim ≠ 0 ∧ ∀ r, x ≠ .number r) ∧
    ∀ o, tensor x unit = .ok o → o.data.shape = (valuesOf x).shape ∧ Holds o (valuesOf x) (unitFrom unit x) := by
  rw [tensor_args hu]
  cases x with
  | number r => exact ⟨⟨by rintro ⟨o, ⟨⟩⟩, fun h => absurd rfl (h.2 r)⟩, by rintro o ⟨⟩⟩
  | values d => exact ⟨iff_with (tensorFrom_iff) (by simp), fun o h => tensorFrom_holds h⟩
  | array a => exact ⟨⟨fun _ => ⟨ha a rfl, by simp⟩, fun _ => ⟨_, rfl⟩⟩, by rintro o ⟨⟩; exact ⟨rfl, rfl, fun _ _ => rfl, rfl⟩⟩
  | sequence o => exact absurd rfl (hs o)
  | object k o =>
    cases k with
    | scalar => exact ⟨iff_with (tensorFrom_iff (d := listed o.data)) (by simp), fun o h => tensorFrom_holds h⟩
    | measurement => exact ⟨iff_with (tensorFrom_iff) (by simp), fun o h => tensorFrom_holds h⟩
    | vector => exact absurd rfl (hv o)
    | tensor => exact ⟨⟨fun _ => ⟨hp, by simp⟩, fun _ => ⟨_, rfl⟩⟩, by rintro o ⟨⟩; exact ⟨rfl, rfl, fun _ _ => rfl, rfl⟩⟩

/-- measurements -/
example : (Source.object .measurement ⟨⟨[4], fun i => (i : ℚ)⟩, [⟨1, c! "m", 1⟩]⟩).Proper ∧
    (valuesOf (Source.object .measurement ⟨⟨[4], fun i => (i : ℚ)⟩, [⟨1, c! "m", 1⟩]⟩)).ndim ≠ 0 := ⟨rfl, by decide⟩

/-- **C106** does not hold for scalars made from vectors, measurements and sequences of one element: the unit is lost. -/
theorem c106_not_scalar (o : Obj K) (h : o.data.shape = [1]) (x : Source K)
    (hx : x = .object .vector o ∨ x = .object .measurement o ∨ x = .sequence o) :
    scalar x none = .ok ⟨⟨[], o.data.data⟩, [⟨1, c! "1", 1⟩]⟩ := by
  rw [scalar_args (Or.inl rfl)]
  have h1 : o.data.size = 1 := by simp [ND.size, h, Numeric.sizeOf]
  have key : scalarFrom o.data (givenUnit none) = .ok ⟨⟨[], o.data.data⟩, [⟨1, c! "1", 1⟩]⟩ := by
    unfold scalarFrom ND.ndim
    rw [if_neg (by simpa using h1), h]
    rfl
  rcases hx with rfl | rfl | rfl <;> exact key

/-- **C106** does not hold for tensors made from vectors and sequences, whose unit is lost, -/
theorem c106_not_tensor (o : Obj K) (h : o.data.ndim = 1) (x : Source K) (hx : x = .object .vector o ∨ x = .sequence o) :
    tensor x none = .ok ⟨o.data, [⟨1, c! "1", 1⟩]⟩ := by
  rw [tensor_args (Or.inl rfl)]
  have key : tensorFrom o.data (givenUnit none) = .ok ⟨o.data, [⟨1, c! "1", 1⟩]⟩ := by
    unfold tensorFrom
    rw [if_neg (by omega)]
    rfl
  rcases hx with rfl | rfl <;> exact key

/-- nor for vectors made from sequences. -/
theorem c106_not_sequence (o : Obj K) (h : o.data.ndim = 1) : vector (.sequence o) none = .ok ⟨o.data, [⟨1, c! "1", 1⟩]⟩ := by
  rw [vector_args (Or.inl rfl)]
  show vectorFrom o.data (givenUnit none) = _
  unfold vectorFrom
  rw [if_neg (by omega)]
  rfl

/-- three metres -/
example : (⟨⟨[1], fun _ => 3⟩, [⟨1, c! "m", 1⟩]⟩ : Obj ℚ).data.shape = [1] ∧ (⟨⟨[1], fun _ => 3⟩, [⟨1, c! "m", 1⟩]⟩ : Obj ℚ).data.ndim = 1 ∧
    (⟨⟨[1], fun _ => 3⟩, [⟨1, c! "m", 1⟩]⟩ : Obj ℚ).unit ≠ [⟨1, c! "1", 1⟩] := ⟨rfl, rfl, by decide⟩

/-- **C106**, a unit, or axes, given along with an object that has a unit: `ValueError`. -/
theorem c106_explicit (x : Source K) (hx : ¬x.Plain) (u : List Term) (unit : Option (List Term)) (axes : AxesArg K)
    (hg : unit ≠ none ∨ axes ≠ .none) :
    scalar x (some u) = .error (.look .value) ∧ vector x (some u) = .error (.look .value) ∧
    tensor x (some u) = .error (.look .value) ∧ array x unit axes = .error .value := by
  have h1 : x.isObject = true := by
    cases x with
    | number _ => exact absurd trivial hx
    | values _ => exact absurd trivial hx
    | _ => rfl
  have h2 : refused x [unit.isSome, axes.given] = true := by
    rcases hg with h | h
    · cases unit with
      | none => exact absurd rfl h
      | some u => simp [refused, h1]
    · cases axes with
      | none => exact absurd rfl h
      | _ => simp [refused, h1, AxesArg.given]
  refine ⟨?_, ?_, ?_, if_pos h2⟩ <;> exact if_pos (by simp [refused, h1])

/-- a vector of lengths -/
example : ¬(Source.object .vector ⟨⟨[1], fun _ => (3 : ℚ)⟩, [⟨1, c! "m", 1⟩]⟩).Plain := id

/-! ## Arrays -/

theorem array_other (x : Source K) (hx : ∀ a, x ≠ .array a) (unit : Option (List Term)) (axes : AxesArg K)
    (hu : (unit = none ∧ axes = .none) ∨ x.Plain) {d : Named Name K}
    {a : Dict Name (AnyAxis K)} (h1 : namedData (valuesOf x) axes.names' = .ok d) (h2 : arrayAxes d.data.shape axes = .ok a) :
    array x unit axes = .ok ⟨PArr.new d (unitFrom unit x), a⟩ := by
  rw [array_args hu]
  have e : sourceData x unit = (valuesOf x, unitFrom unit x) := by
    cases x with
    | object k o => cases k <;> rfl
    | _ => rfl
  cases x with
  | array a => exact absurd rfl (hx a)
  | _ => simp only [arrayArgs, e, h1, h2]

theorem named_ok {d : ND K} {names : List Name} (hn : names.Nodup) (hl : names.length = d.ndim) (hne : names ≠ []) :
    namedData d names = .ok ⟨d, names, false⟩ := by
  unfold namedData arrayFactory
  have : dimensions names = names := dimensions_nodup hn
  rw [if_neg hne, this, if_pos hl]

theorem range_axes (ns : List Name) (shape : List Nat) (r : Dict Name (AnyAxis K))
    (h : AxesFor ns (shape.map (fun n : Nat => (n : ℤ))) (fun n a => IsRange n.toNat a) r) : AxesFor ns shape IsRange r := by
  refine ⟨h.keys, fun i n m h1 h2 => ?_⟩
  obtain ⟨a, h3, h4⟩ := h.axis i n m h1 (by simp [h2])
  exact ⟨a, h3, by simpa using h4⟩

/-- **C106**, arrays.  Without axes, an array has the values and the unit of the source, and one axis for each dimension, with
the names `x0`, `x1`, … and the positions from zero. -/
theorem c106_array (x : Source K) (hx : ∀ a, x ≠ .array a) (unit : Option (List Term)) (hu : unit = none ∨ x.Plain) :
    ∃ a, array x unit .none = .ok a ∧ a.arr.raw.data = valuesOf x ∧ a.arr.scale = 1 ∧ a.arr.unit = unitFrom unit x ∧
      AxesFor ((List.range (valuesOf x).ndim).map defaultName) (valuesOf x).shape IsRange a.axes := by
  refine ⟨_, array_other x hx unit .none (hu.imp (fun h => ⟨h, rfl⟩) id)
    (d := ⟨valuesOf x, defaultNames (valuesOf x).ndim, true⟩) rfl rfl, rfl, rfl, rfl, range_axes _ _ _ ?_⟩
  have := shape_axes (K := K) (shape := (valuesOf x).shape.map (fun n : Nat => (n : ℤ))) (defaultNames_nodup (valuesOf x).ndim)
    (by simp [defaultNames, ND.ndim])
  simpa [ND.ndim, defaultNames] using this

/-- **C106**, arrays with names of the axes: as without, but with these names. -/
theorem c106_named (x : Source K) (hx : x.Plain) (unit : Option (List Term)) (names : List Name) (hn : names.Nodup)
    (hl : names.length = (valuesOf x).ndim) (hne : names ≠ []) :
    ∃ a, array x unit (.names names) = .ok a ∧ a.arr.raw.data = valuesOf x ∧ a.arr.scale = 1 ∧ a.arr.unit = unitFrom unit x ∧
      a.arr.raw.dims = names ∧ AxesFor names (valuesOf x).shape IsRange a.axes := by
  refine ⟨_, array_other x (by rintro a rfl; exact hx) unit (.names names) (Or.inr hx) (named_ok hn hl hne)
    (a := axesFromShape names ((valuesOf x).shape.map (fun n : Nat => (n : ℤ)))) ?_, rfl, rfl, rfl, rfl,
    range_axes _ _ _ (shape_axes hn (by simpa [ND.ndim] using hl.symm))⟩
  have hs : (valuesOf x).shape.length = names.length := hl.symm
  have : axesFromKeywords (K := K) {shape := some ((valuesOf x).shape.map (fun n : Nat => (n : ℤ))), dimensions := some names} =
      .ok (axesFromShape names ((valuesOf x).shape.map (fun n : Nat => (n : ℤ)))) := by
    show (if ((valuesOf x).shape.map (fun n : Nat => (n : ℤ))).length ≠ names.length then _ else _) = _
    exact if_neg (by simpa using hs)
  simp only [arrayAxes, this]

/-- a table of six numbers -/
example : [(c! "time"), c! "shell"].Nodup ∧ [(c! "time"), c! "shell"].length = (valuesOf (.values ⟨[3, 2], fun i => (i : ℚ)⟩)).ndim := by decide

/-- **C106**, arrays with a mapping of axes: it has the values and the unit of the source, and these axes.  Only the number of
axes is compared with the data (`c106_not_lengths`). -/
theorem c106_mapping_partial (x : Source K) (hx : x.Plain) (unit : Option (List Term)) (names : List Name) (hn : names.Nodup)
    (args : List (AxisArg K)) (hl : names.length = (valuesOf x).ndim) (hne : names ≠ []) (ha : args.length = names.length)
    (h : ∀ y ∈ args, y ≠ .other) :
    ∃ a, array x unit (.mapping (names.zip args)) = .ok a ∧ a.arr.raw.data = valuesOf x ∧ a.arr.scale = 1 ∧
      a.arr.unit = unitFrom unit x ∧ a.arr.raw.dims = names ∧ AxesFor names args StandsFor a.axes := by
  obtain ⟨r, h1, h2⟩ := items_axes hn ha h
  have hk : (AxesArg.mapping (names.zip args)).names' = names := List.map_fst_zip (by omega)
  exact ⟨_, array_other x (by rintro a rfl; exact hx) unit _ (Or.inr hx) (by rw [hk]; exact named_ok hn hl hne) h1, rfl, rfl, rfl, rfl, h2⟩

/-- **C106**, a wrong number of names or axes is an error. -/
theorem c106_number (x : Source K) (hx : ∀ a, x ≠ .array a) (unit : Option (List Term)) (names : List Name)
    (m : Dict Name (AxisArg K)) (hm : m.keys = names) (hn : names.Nodup) (hl : names.length ≠ (valuesOf x).ndim) (hne : names ≠ []) :
    array x unit (.names names) = .error .value ∧ array x unit (.mapping m) = .error .value := by
  have e : sourceData x unit = (valuesOf x, unitFrom unit x) := by
    cases x with
    | object k o => cases k <;> rfl
    | _ => rfl
  have key : namedData (valuesOf x) names = .error .value := by
    unfold namedData arrayFactory
    have : dimensions names = names := dimensions_nodup hn
    rw [if_neg hne, this, if_neg hl]
  have hk : (AxesArg.mapping m).names' = names := hm
  have hk' : (AxesArg.names names : AxesArg K).names' = names := rfl
  have h1 : arrayArgs x unit (.names names) = .error .value := by
    cases x with
    | array a => exact absurd rfl (hx a)
    | _ => simp only [arrayArgs, e, hk', key]
  have h2 : arrayArgs x unit (.mapping m) = .error .value := by
    cases x with
    | array a => exact absurd rfl (hx a)
    | _ => simp only [arrayArgs, e, hk, key]
  unfold array
  rw [h1, h2, ite_self, ite_self]
  exact ⟨rfl, rfl⟩

/-- **C106** does not hold for the lengths of axes: for any data with one dimension, an axis of any other length is accepted. -/
theorem c106_not_lengths (d : ND K) (hd : d.ndim = 1) (n : Name) (l : List ℤ) :
    ∃ a, array (.values d) none (.mapping [(n, .integers l)]) = .ok a ∧ a.arr.raw.data = d ∧
      a.axes = [(n, .points ⟨l, none⟩)] := by
  refine ⟨_, array_other (.values d) (by simp) none _ (Or.inr trivial) (named_ok (names := [n]) (by simp) (hd.symm : [n].length = d.ndim) (by simp)) rfl, rfl, ?_⟩
  rfl

/-- **C106** does not hold for an empty mapping: the array has no axes, whatever its data. -/
theorem c106_not_empty (d : ND K) : ∃ a, array (.values d) none (.mapping []) = .ok a ∧ a.arr.raw.data = d ∧ a.axes = [] :=
  ⟨_, array_other (.values d) (by simp) none _ (Or.inr trivial) rfl rfl, rfl, rfl⟩

/-- **C106**, copies: an array made from an array has its current values, its unit and its axes, also after conversions. -/
theorem c106_copy (a : Arr Name (AnyAxis K) K) :
    ∃ b, array (.array a) none .none = .ok b ∧ b.arr.data.data.shape = a.arr.data.data.shape ∧
      (∀ i, b.arr.data.data.data i = a.arr.data.data.data i) ∧ b.arr.unit = a.arr.unit ∧ b.axes = a.axes := by
  refine ⟨_, rfl, rfl, fun i => ?_, rfl, rfl⟩
  show (1 : K) * _ = _
  rw [one_mul]
  rfl

/-- **C106**, round trip: the tensor of an array that was made from a tensor has the same values and unit. -/
theorem c106_round_trip (o : Obj K) :
    ∃ a o', array (.object .tensor o) none .none = .ok a ∧ tensor (.array a) none = .ok o' ∧
      o'.data.shape = o.data.shape ∧ Holds o' o.data o.unit := by
  refine ⟨_, _, array_other (.object .tensor o) (by simp) none .none (Or.inl ⟨rfl, rfl⟩) (d := ⟨o.data, defaultNames o.data.ndim, true⟩) rfl rfl, rfl, rfl,
    rfl, fun i _ => ?_, rfl⟩
  show (1 : K) * _ = _
  rw [one_mul]
  rfl

end Eprem.Physical
