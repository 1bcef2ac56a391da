import Verif.Spec.Subscript
import Verif.Props.NumericIndex
import Verif.Props.Axis
import Verif.Props.Observable
import Verif.Spec.ObservableAlgebra
import Mathlib.Data.List.GetD

/-!
# Subscription of physical arrays (C87)
-/

namespace Eprem.Numeric

variable {α : Type}

theorem Positions.lt {n : Nat} {a : Arg} {l : List Nat} (h : Positions n a l) : ∀ j ∈ l, j < n := by
  cases a with
  | int i => obtain ⟨j, rfl, hj, _⟩ := h; simpa using hj
  | slice a b s => exact slicePositions_lt h
  | ellipsis => exact h.elim
  | seq k is =>
    intro j hj
    have h' : List.Forall₂ (fun i j => (j : Nat) < n ∧ ((j : ℤ) = i ∨ (j : ℤ) = i + n)) is l := h
    clear h
    induction h' with
    | nil => cases hj
    | cons hab _ ih =>
      rcases List.mem_cons.1 hj with rfl | hj
      · exact hab.1
      · exact ih hj

theorem slice_single (a : ND α) (b e s : Option ℤ) (ls : List (List Nat)) (hp : AllPositions a.shape [.slice b e s] ls) :
    ∃ r, getItem a (.one (.slice b e s)) = .ok r ∧ Selects a ls r := by
  obtain ⟨ps, hps, hpl, hpk⟩ := picksOf_of hp
  have hkeep := hpk (by simp)
  have hr : resolve a.shape (unwrapArgs (.one (.slice b e s))) = .ok (.itself (.slice b e s)) := rfl
  have hload : npIndex a (.itself (.slice b e s)) = .ok (a.select ps) := by
    simp only [npIndex, hps]; rfl
  refine ⟨a.select ps, ?_, hpl ▸ select_keeps a hkeep⟩
  unfold getItem getItemWith
  rw [hr]
  simp only [Resolved.isNull, Bool.false_eq_true, if_false, hload]
  have hnd : (a.select ps).ndim = a.shape.length := by
    show (pickShape ps).length = _
    rw [pickShape_length_keep hkeep, picksOf_length hps]
  rw [if_neg (by simp [hnd]), atLeast_self _ _ (by omega)]

/-- Tuples of supported indices select the product of their positions. -/
theorem getItem_supported (a : ND α) (args : List Arg) (ls : List (List Nat)) (hl : args.length = a.shape.length)
    (h0 : args ≠ []) (hne : ∀ l ∈ ls, l ≠ []) (hs : Supported a.shape args) (hp : AllPositions a.shape args ls) :
    ∃ r, getItem a (.tuple args) = .ok r ∧ Selects a ls r := by
  obtain ⟨hk, h⟩ := hs
  match args, h0 with
  | x :: y :: r, _ =>
    rcases h with ⟨h1, h2⟩ | h | h
    · exact c27_product_partial a _ ls (by simp) h1 hp h2
    · exact c67_slices a _ ls (by simp) h hp
    · exact c67_basic_partial a _ ls (by simp) h hp
  | [x], _ =>
    show ∃ r, getItem a (.one x) = .ok r ∧ Selects a ls r
    cases x with
    | int i => exact c67_integer a i ls hp
    | slice b e s => exact slice_single a b e s ls hp
    | ellipsis => exact absurd (List.mem_singleton.2 rfl) hp.no_ellipsis
    | seq k is =>
      have hk' := hk k is (by simp)
      simp only [List.length_singleton, Nat.not_ofNat_le_one, and_false, or_false] at hk'
      subst hk'
      refine c27_single a .other (by decide) is ?_ ls hp
      rintro rfl
      cases hs : a.shape with
      | nil => rw [hs] at hl; cases hl
      | cons n s =>
        rw [hs] at hp
        cases ls with
        | nil => exact hp.elim
        | cons l ls =>
          have h1 : List.Forall₂ (fun i j => (j : Nat) < n ∧ ((j : ℤ) = i ∨ (j : ℤ) = i + n)) [] l := hp.1
          cases h1
          exact hne [] (by simp) rfl

theorem allPositions_map {κ : Type} (dims : List κ) (size : κ → Nat) (args : κ → Arg) (ls : κ → List Nat)
    (h : ∀ d ∈ dims, Positions (size d) (args d) (ls d)) : AllPositions (dims.map size) (dims.map args) (dims.map ls) := by
  induction dims with
  | nil => trivial
  | cons d dims ih => exact ⟨h d (by simp), ih (fun e he => h e (by simp [he]))⟩

end Eprem.Numeric

namespace Eprem.Physical

open Eprem Eprem.Numeric Eprem.Axis

variable {κ K : Type} [DecidableEq κ]

theorem filterMap_positions {α : Type} {m : List α} {l : List Nat} (h : ∀ j ∈ l, j < m.length) :
    List.Forall₂ (fun j v => m[j]? = some v) l (l.filterMap (fun j => m[j]?)) := by
  induction l with
  | nil => exact .nil
  | cons j l ih =>
    have hj := List.getElem?_eq_getElem (h j (by simp))
    rw [List.filterMap_cons, hj]
    exact .cons hj (ih (fun i hi => h i (by simp [hi])))

theorem collect_axisIndex {n : Nat} {is : List ℤ} {l : List Nat}
    (h : List.Forall₂ (fun i j => (j : Nat) < n ∧ ((j : ℤ) = i ∨ (j : ℤ) = i + n)) is l) :
    collect (axisIndex n) is = .ok l := by
  induction h with
  | nil => rfl
  | cons hab _ ih => simp only [collect, axisIndex_ok.2 hab, ih]

theorem pick_positions {α : Type} {m : List α} {a : Arg} {l : List Nat} (h : Positions m.length a l) :
    ∃ d, pick m a = .ok d ∧ List.Forall₂ (fun j v => m[j]? = some v) l d := by
  have hlt := h.lt
  cases a with
  | int i =>
    obtain ⟨j, rfl, hj⟩ := h
    have := axisIndex_ok.2 hj
    have hj := List.getElem?_eq_getElem hj.1
    refine ⟨[m[j]], by simp only [pick, this, hj]; rfl, ?_⟩
    exact .cons hj .nil
  | slice a b s =>
    refine ⟨_, ?_, filterMap_positions hlt⟩
    simp only [pick]
    rw [show slicePositions m.length a b s = .ok l from h]
  | ellipsis => exact h.elim
  | seq k is =>
    refine ⟨_, ?_, filterMap_positions hlt⟩
    simp only [pick]
    rw [collect_axisIndex h]

theorem recorded_ok (n : Nat) (a : Arg) : ∃ r, recorded n a = .ok r := by
  cases a with
  | int i => exact ⟨_, rfl⟩
  | ellipsis => exact ⟨_, rfl⟩
  | seq k is => exact ⟨_, rfl⟩
  | slice a b s => cases a <;> cases b <;> cases s <;> exact ⟨_, rfl⟩

theorem getItem_axis {α : Type} {x : Axis.Axis α} {a : Arg} {l : List Nat} (h : Positions x.data.length a l) :
    ∃ y, x.getItem a = .ok y ∧ List.Forall₂ (fun j v => x.data[j]? = some v) l y.data := by
  obtain ⟨d, hd, hf⟩ := pick_positions h
  obtain ⟨r, hr⟩ := recorded_ok x.data.length a
  exact ⟨⟨d, r⟩, by simp only [Axis.Axis.getItem, hd, hr], hf⟩

theorem getItemSymbols_axis {α : Type} {x : Axis.Axis α} {a : Arg} {l : List Nat} (h : Positions x.data.length a l) :
    ∃ y, x.getItemSymbols a = .ok y ∧ List.Forall₂ (fun j v => x.data[j]? = some v) l y.data := by
  cases a with
  | seq k is =>
    obtain ⟨d, hd, hf⟩ := pick_positions h
    exact ⟨⟨d, none⟩, by simp only [Axis.Axis.getItemSymbols, hd], hf⟩
  | int i => exact getItem_axis h
  | slice a b s => exact getItem_axis h
  | ellipsis => exact getItem_axis h

/-- An axis subscripted by an index has the values at the positions of the index. -/
theorem anyAxis_selects {x : AnyAxis K} {a : Arg} {l : List Nat} (h : Positions x.length a l) :
    ∃ y, x.getItem a = .ok y ∧ x.Selects l y := by
  cases x with
  | points x => obtain ⟨y, hy, hf⟩ := getItem_axis h; exact ⟨.points y, by simp only [AnyAxis.getItem, hy], hf⟩
  | symbols x => obtain ⟨y, hy, hf⟩ := getItemSymbols_axis h; exact ⟨.symbols y, by simp only [AnyAxis.getItem, hy], hf⟩
  | coordinates x u =>
    obtain ⟨y, hy, hf⟩ := getItem_axis h; exact ⟨.coordinates y u, by simp only [AnyAxis.getItem, hy], rfl, hf⟩

theorem AnyAxis.Selects.length_eq {x y : AnyAxis K} {l : List Nat} (h : x.Selects l y) : y.length = l.length := by
  cases x <;> cases y <;> first | exact h.elim | exact (List.Forall₂.length_eq h).symm | exact (List.Forall₂.length_eq h.2).symm

theorem collect_map {α β γ ε : Type} {f : β → Except ε γ} {g : α → β} {k : α → γ} {l : List α}
    (h : ∀ x ∈ l, f (g x) = .ok (k x)) : collect f (l.map g) = .ok (l.map k) := by
  induction l with
  | nil => rfl
  | cons x l ih =>
    simp only [List.map_cons, collect, h x (by simp), ih (fun y hy => h y (by simp [hy]))]

end Eprem.Physical

namespace Eprem.Observable

open Eprem Eprem.Symbolic Eprem.Metric Eprem.Numeric Eprem.Measured Eprem.Physical

variable {κ : Type} [DecidableEq κ]

/-- The part of a grid that a choice of indices selects. -/
theorem exists_part {G : Grid κ (AnyAxis ℝ)} {dims : List κ} (hf : G.Fits dims) (args : κ → Arg) (ls : κ → List Nat)
    (hp : ∀ d ∈ dims, Positions (G.size d) (args d) (ls d)) (hne : ∀ d ∈ dims, ls d ≠ []) :
    ∃ H : Grid κ (AnyAxis ℝ), G.Part dims ls H ∧ ∀ d ∈ dims, (G.axis d).getItem (args d) = .ok (H.axis d) := by
  have hy : ∀ d, ∃ y, d ∈ dims → (G.axis d).getItem (args d) = .ok y ∧ (G.axis d).Selects (ls d) y := by
    intro d
    by_cases h : d ∈ dims
    · obtain ⟨y, h1, h2⟩ := anyAxis_selects (x := G.axis d) (a := args d) (l := ls d) (by rw [hf d h]; exact hp d h)
      exact ⟨y, fun _ => ⟨h1, h2⟩⟩
    · exact ⟨G.axis d, fun h' => absurd h' h⟩
  choose f hfy using hy
  refine ⟨⟨fun d => if d ∈ dims then (ls d).length else 1, f, fun d => ?_⟩, ⟨fun d h => if_pos h, fun d h => (hfy d h).2⟩,
    fun d h => (hfy d h).1⟩
  split
  · rename_i h; exact List.length_pos_iff.2 (hne d h)
  · exact Nat.one_pos

theorem zip_whole (dims : List κ) (ls : κ → List Nat) (pos : κ → Nat) :
    List.zipWith (fun l i => l.getD i 0) (dims.map ls) (dims.map pos) = dims.map (whole ls pos) := by
  induction dims with
  | nil => rfl
  | cons d dims ih => simp only [List.map_cons, List.zipWith_cons_cons, ih]; rfl

theorem whole_inside {G H : Grid κ (AnyAxis ℝ)} {dims : List κ} {args : κ → Arg} {ls : κ → List Nat}
    (hp : ∀ d ∈ dims, Positions (G.size d) (args d) (ls d)) (hH : G.Part dims ls H) {pos : κ → Nat}
    (h : H.Inside dims pos) : G.Inside dims (whole ls pos) := by
  intro d hd
  have h1 := h d hd
  rw [hH.size d hd] at h1
  unfold whole
  rw [List.getD_eq_getElem _ _ h1]
  exact (hp d hd).lt _ (List.getElem_mem h1)

/-- Subscription on a grid, given the part of the grid that is selected. -/
theorem subscript_grid {G H : Grid κ (AnyAxis ℝ)} {dims : List κ} {u : List Term} {g : (κ → Nat) → ℝ}
    {a : Arr κ (AnyAxis ℝ) ℝ} (h : OnGrid G dims u g (.array a)) (h0 : dims ≠ []) (args : κ → Arg) (ls : κ → List Nat)
    (hp : ∀ d ∈ dims, Positions (G.size d) (args d) (ls d)) (hne : ∀ d ∈ dims, ls d ≠ [])
    (hs : Supported (dims.map G.size) (dims.map args)) (hH : G.Part dims ls H)
    (hax : ∀ d ∈ dims, (G.axis d).getItem (args d) = .ok (H.axis d)) :
    ∃ r, a.getItem AnyAxis.getItem (.tuple (dims.map args)) = .ok r ∧ Unscaled r ∧
      OnGrid H dims u (fun pos => g (whole ls pos)) r := by
  obtain ⟨hn, c, hc, hpl, hd, hsh, haxs, hu, hg⟩ := h
  cases hc
  have hpos : AllPositions (dims.map G.size) (dims.map args) (dims.map ls) := allPositions_map dims _ _ _ hp
  have hpos' : AllPositions a.arr.data.data.shape (dims.map args) (dims.map ls) := by
    show AllPositions a.arr.raw.data.shape _ _
    rw [hsh]; exact hpos
  obtain ⟨r, hr, hsel⟩ := getItem_supported a.arr.data.data (dims.map args) (dims.map ls)
    (by show _ = a.arr.raw.data.shape.length; rw [hsh]; simp) (by simpa using h0)
    (by simpa using hne) (by show Supported a.arr.raw.data.shape _; rw [hsh]; exact hs) hpos'
  have hexp : expand a.arr.raw.data.ndim (subscriptArgs (.tuple (dims.map args))) = .ok (dims.map args) :=
    c26_no_ellipsis _ _ hpos.no_ellipsis (by rw [ND.ndim, hsh]; simp)
  have hrs : r.shape = dims.map H.size := by
    rw [hsel.1, List.map_map]
    exact List.map_congr_left (fun d hd => (hH.size d hd).symm)
  have hfac : arrayFactory r a.arr.raw.dims = .ok ⟨r, dims, false⟩ := by
    unfold arrayFactory
    rw [hd, dimensions_nodup hn, if_pos (by rw [ND.ndim, hrs, List.length_map])]
  have hzip : (dims.map args).zip (G.axes dims) = dims.map (fun d => (args d, (d, G.axis d))) := by
    unfold Grid.axes
    rw [List.zip_map']
  have hsub : subscriptAxes AnyAxis.getItem (dims.map args) a.axes = .ok (H.axes dims) := by
    have h1 := collect_map (f := subscriptAxis (AnyAxis.getItem (K := ℝ))) (g := fun d => (args d, (d, G.axis d))) (k := fun d => (d, H.axis d)) (l := dims)
      (fun d hd => by simp only [subscriptAxis, hax d hd])
    unfold subscriptAxes
    rw [haxs, hzip, h1]
    show Except.ok (Dict.ofItems (H.axes dims)) = _
    rw [Dict.ofItems_nodup]
    rw [show (H.axes dims).map Prod.fst = dims from keys_axes dims]
    exact hn
  obtain ⟨z, hz, hgz⟩ := newArray_grid (G := H) hn hrs (u := u) (g := fun pos => g (whole ls pos)) (fun pos hin => by
    rw [hsel.2 (dims.map pos) (by rw [hrs]; exact grid_valid.2 hin), zip_whole, ← hg _ (whole_inside hp hH hin)]
    unfold Named.at
    have e : a.arr.data.dims = dims := hd
    rw [e])
  refine ⟨z, ?_, ?_, hgz⟩
  · unfold Arr.getItem
    rw [hexp]
    simp only [hr, hfac, hsub]
    rw [hu]
    exact hz
  · intro b hb
    subst hb
    unfold newArray at hz
    split at hz
    · cases hz
    · cases hz; rfl

/-- **C87**, supported tuples of indices.  Subscription of an array selects, along each dimension, the same positions of the
data and of the axis: the result has the same dimensions and the same unit, its axes are those of the array at the positions
selected by the index of their dimension, and its number at each named position is the number of the array at the
corresponding positions. -/
theorem c87_subscript_partial {G : Grid κ (AnyAxis ℝ)} {dims : List κ} {u : List Term} {g : (κ → Nat) → ℝ}
    {a : Arr κ (AnyAxis ℝ) ℝ} (h : OnGrid G dims u g (.array a)) (hf : G.Fits dims) (h0 : dims ≠ []) (args : κ → Arg)
    (ls : κ → List Nat) (hp : ∀ d ∈ dims, Positions (G.size d) (args d) (ls d)) (hne : ∀ d ∈ dims, ls d ≠ [])
    (hs : Supported (dims.map G.size) (dims.map args)) :
    ∃ r H, a.getItem AnyAxis.getItem (.tuple (dims.map args)) = .ok r ∧ G.Part dims ls H ∧ H.Fits dims ∧
      OnGrid H dims u (fun pos => g (whole ls pos)) r := by
  obtain ⟨H, hH, hax⟩ := exists_part hf args ls hp hne
  obtain ⟨r, h1, _, h2⟩ := subscript_grid h h0 args ls hp hne hs hH hax
  refine ⟨r, H, h1, hH, fun d hd => ?_, h2⟩
  rw [hH.size d hd]
  exact (hH.axis d hd).length_eq


/-! ## Observers' indices -/

/-- The index that is used for a dimension, given whether all indices are values. -/
def usedArg (all : Bool) (i : Option Arg) : Arg := if all then indexOrFull i else asSequence (indexOrFull i)

theorem used_cases {n : Nat} {all : Bool} {i : Option Arg} {l : List Nat} (h : ObservedPositions n i l)
    (ha : all = true → isValue (indexOrFull i) = true) :
    Positions n (usedArg all i) l ∧
      ((all = true ∧ ∃ j, usedArg all i = .int j) ∨
        (all = false ∧ (usedArg all i = .full ∨ ∃ is, usedArg all i = .seq .other is))) := by
  unfold usedArg
  cases i with
  | none =>
    cases all with
    | true => cases ha rfl
    | false => exact ⟨h ▸ slicePositions_full n, .inr ⟨rfl, .inl rfl⟩⟩
  | some i => cases i with
    | int j =>
      cases all with
      | true => exact ⟨h, .inl ⟨rfl, j, rfl⟩⟩
      | false =>
        obtain ⟨k, rfl, hk⟩ := h
        exact ⟨.cons hk .nil, .inr ⟨rfl, .inr ⟨[j], rfl⟩⟩⟩
    | slice a b s => exact h.elim
    | ellipsis => exact h.elim
    | seq k is => cases is with
      | nil =>
        cases all with
        | true => cases ha rfl
        | false => exact ⟨h ▸ slicePositions_full n, .inr ⟨rfl, .inl rfl⟩⟩
      | cons j is =>
        cases k with
        | list => exact h.elim
        | array => exact h.elim
        | other =>
          cases all with
          | true => cases ha rfl
          | false => exact ⟨h, .inr ⟨rfl, .inr ⟨_, rfl⟩⟩⟩

theorem observed_ne {n : Nat} {i : Option Arg} {l : List Nat} (hn : 0 < n) (h : ObservedPositions n i l) : l ≠ [] := by
  have hr : List.range n ≠ [] := by simp; omega
  cases i with
  | none => rw [show l = List.range n from h]; exact hr
  | some i => cases i with
    | int j => obtain ⟨k, rfl, _⟩ := h; simp
    | slice a b s => exact h.elim
    | ellipsis => exact h.elim
    | seq k is => cases is with
      | nil => rw [show l = List.range n from h]; exact hr
      | cons j is =>
        cases k with
        | list => exact h.elim
        | array => exact h.elim
        | other =>
          have h : List.Forall₂ (fun i j => (j : Nat) < n ∧ ((j : ℤ) = i ∨ (j : ℤ) = i + n)) (j :: is) l := h
          cases h
          simp

theorem normalize_map (dims : List κ) (indices : κ → Option Arg) :
    normalizeIndices (dims.map (fun d => indexOrFull (indices d))) =
      dims.map (fun d => usedArg ((dims.map (fun d => indexOrFull (indices d))).all isValue) (indices d)) := by
  unfold normalizeIndices usedArg
  split
  · rename_i h; simp only [h, if_true]
  · rename_i h
    simp only [Bool.not_eq_true] at h
    simp only [h, Bool.false_eq_true, if_false, List.map_map]
    rfl

theorem plain_ints (dims : List κ) (size : κ → Nat) (args : κ → Arg) (h : ∀ d ∈ dims, ∃ j, args d = .int j) :
    PlainArgs (dims.map size) (dims.map args) := by
  induction dims with
  | nil => trivial
  | cons d dims ih =>
    obtain ⟨j, hj⟩ := h d (by simp)
    simp only [List.map_cons, hj]
    exact ih (fun e he => h e (by simp [he]))

theorem covers_full (dims : List κ) (size : κ → Nat) (args : κ → Arg)
    (h : ∀ d ∈ dims, args d = .full ∨ ∃ is, args d = .seq .other is) : CoversSlices (dims.map size) (dims.map args) := by
  induction dims with
  | nil => trivial
  | cons d dims ih =>
    have := ih (fun e he => h e (by simp [he]))
    rcases h d (by simp) with h | ⟨is, h⟩
    · simp only [List.map_cons, h]; exact ⟨slicePositions_full _, this⟩
    · simp only [List.map_cons, h]; exact this

theorem observed_supported {G : Grid κ (AnyAxis ℝ)} {dims : List κ} (indices : κ → Option Arg) (ls : κ → List Nat)
    (ho : ∀ d ∈ dims, ObservedPositions (G.size d) (indices d) (ls d)) :
    (∀ d ∈ dims, Positions (G.size d)
      (usedArg ((dims.map (fun d => indexOrFull (indices d))).all isValue) (indices d)) (ls d)) ∧
    Supported (dims.map G.size)
      (dims.map (fun d => usedArg ((dims.map (fun d => indexOrFull (indices d))).all isValue) (indices d))) := by
  generalize hb : (dims.map (fun d => indexOrFull (indices d))).all isValue = b
  have hu : ∀ d ∈ dims, _ := fun d hd => used_cases (all := b) (ho d hd) (fun h => by
    rw [h, List.all_eq_true] at hb
    exact hb _ (List.mem_map.2 ⟨d, hd, rfl⟩))
  refine ⟨fun d hd => (hu d hd).1, ?_, ?_⟩
  · intro k l hm
    obtain ⟨d, hd, he⟩ := List.mem_map.1 hm
    rcases (hu d hd).2 with ⟨_, j, h⟩ | ⟨_, h | ⟨is, h⟩⟩ <;> rw [h] at he
    · cases he
    · cases he
    · cases he; exact .inl rfl
  · cases b with
    | true =>
      refine .inr (.inr (plain_ints dims G.size _ (fun d hd => ?_)))
      rcases (hu d hd).2 with ⟨_, h⟩ | ⟨h, _⟩
      · exact h
      · cases h
    | false =>
      have hf : ∀ d ∈ dims, usedArg false (indices d) = .full ∨ ∃ is, usedArg false (indices d) = .seq .other is := by
        intro d hd
        rcases (hu d hd).2 with ⟨h, _⟩ | ⟨_, h⟩
        · cases h
        · exact h
      by_cases hex : ∃ k l, Arg.seq k l ∈ dims.map (fun d => usedArg false (indices d))
      · exact .inl ⟨hex, covers_full dims _ _ hf⟩
      · refine .inr (.inl (fun x hx => ?_))
        obtain ⟨d, hd, rfl⟩ := List.mem_map.1 hx
        rcases hf d hd with h | ⟨is, h⟩
        · exact ⟨none, none, none, h⟩
        · exact absurd ⟨.other, is, List.mem_map.2 ⟨d, hd, h⟩⟩ hex

/-- The part of the grid that an observer's indices select. -/
theorem observed_grid {G H : Grid κ (AnyAxis ℝ)} {dims : List κ} {u : List Term} {g : (κ → Nat) → ℝ}
    {a : Arr κ (AnyAxis ℝ) ℝ} (h : OnGrid G dims u g (.array a)) (h0 : dims ≠ [])
    (indices : κ → Option Arg) (ls : κ → List Nat)
    (ho : ∀ d ∈ dims, ObservedPositions (G.size d) (indices d) (ls d)) (hH : G.Part dims ls H)
    (hax : ∀ d ∈ dims, (G.axis d).getItem
      (usedArg ((dims.map (fun d => indexOrFull (indices d))).all isValue) (indices d)) = .ok (H.axis d)) :
    ∃ r, subscriptObserved AnyAxis.getItem a indices = .ok r ∧ Unscaled r ∧
      OnGrid H dims u (fun pos => g (whole ls pos)) r := by
  obtain ⟨h1, h2⟩ := observed_supported indices ls ho
  obtain ⟨r, e1, e2, e3⟩ := subscript_grid h h0 _ ls h1 (fun d hd => observed_ne (G.pos d) (ho d hd)) h2 hH hax
  refine ⟨r, ?_, e2, e3⟩
  obtain ⟨hn, c, hc, hpl, hd, hsh, haxs, hu, hg⟩ := h
  cases hc
  unfold subscriptObserved
  rw [haxs, keys_axes, normalize_map]
  exact e1

/-- **C87**, observers.  Whatever indices the user gives for some of the dimensions of an observed array — one position, or a
non-empty sequence of positions, of either sign, in any order and with repetitions — the observed array has the same
dimensions and unit, and its data and axes are those at these positions; all positions are kept along the dimensions for which
no index was given. -/
theorem c87_observed {G : Grid κ (AnyAxis ℝ)} {dims : List κ} {u : List Term} {g : (κ → Nat) → ℝ}
    {a : Arr κ (AnyAxis ℝ) ℝ} (h : OnGrid G dims u g (.array a)) (hf : G.Fits dims) (h0 : dims ≠ [])
    (indices : κ → Option Arg) (ls : κ → List Nat)
    (ho : ∀ d ∈ dims, ObservedPositions (G.size d) (indices d) (ls d)) :
    ∃ r H, subscriptObserved AnyAxis.getItem a indices = .ok r ∧ G.Part dims ls H ∧ H.Fits dims ∧
      OnGrid H dims u (fun pos => g (whole ls pos)) r := by
  obtain ⟨h1, h2⟩ := observed_supported indices ls ho
  obtain ⟨H, hH, hax⟩ := exists_part hf _ ls h1 (fun d hd => observed_ne (G.pos d) (ho d hd))
  obtain ⟨r, e1, _, e3⟩ := observed_grid h h0 indices ls ho hH hax
  refine ⟨r, H, e1, hH, fun d hd => ?_, e3⟩
  rw [hH.size d hd]
  exact (hH.axis d hd).length_eq

/-! ## Subscription and conversion -/

theorem converter_grid {ν : Type} {G : Grid κ ν} {dims : List κ} {u : List Term} {g : (κ → Nat) → ℝ}
    {a : Arr κ ν ℝ} (h : OnGrid G dims u g (.array a)) (h1 : a.arr.scale = 1) (v : Conversion ℝ) :
    OnGrid G dims (if exprEq v.old v.new then u else v.new) (fun p => (if exprEq v.old v.new then 1 else v.factor) * g p)
      (.array ⟨converter v a.arr, a.axes⟩) := by
  obtain ⟨hn, c, hc, hpl, hd, hsh, haxs, hu, hg⟩ := h
  cases hc
  unfold converter
  split
  · rename_i hv
    exact ⟨hn, _, rfl, hpl, hd, hsh, haxs, hu, fun pos hp => by rw [hg pos hp, one_mul]⟩
  · rename_i hv
    refine ⟨hn, _, rfl, hpl, hd, hsh, haxs, rfl, fun pos hp => ?_⟩
    rw [← hg pos hp]
    unfold Named.at PArr.data
    show v.factor * a.arr.raw.data.get _ = v.factor * (a.arr.scale * a.arr.raw.data.get _)
    rw [h1, one_mul]
    rfl

/-- **C87**, conversion.  It does not matter whether an array is subscripted before or after it is converted to another unit
(which the package can convert to: `hv`): both orders succeed, and give the same numbers, unit and axes. -/
theorem c87_conversion_partial {G : Grid κ (AnyAxis ℝ)} {dims : List κ} {u : List Term} {g : (κ → Nat) → ℝ}
    {a : Arr κ (AnyAxis ℝ) ℝ} (h : OnGrid G dims u g (.array a)) (h1 : a.arr.scale = 1) (hf : G.Fits dims) (h0 : dims ≠ [])
    (args : κ → Arg) (ls : κ → List Nat) (hp : ∀ d ∈ dims, Positions (G.size d) (args d) (ls d))
    (hne : ∀ d ∈ dims, ls d ≠ []) (hs : Supported (dims.map G.size) (dims.map args)) (c : Conv ℝ) (st st' : Cache ℝ)
    (new : Name) (v : Conversion ℝ) (hv : conversion c st u new = (st', .ok v)) :
    ∃ (b : PArr κ ℝ) (r : Arr κ (AnyAxis ℝ) ℝ) (x : PArr κ ℝ) (y : Operand κ (AnyAxis ℝ) ℝ) (H : Grid κ (AnyAxis ℝ))
      (w : List Term) (f : (κ → Nat) → ℝ),
      a.arr.withunit c st new = (st', .ok b) ∧
      Arr.getItem AnyAxis.getItem ⟨b, a.axes⟩ (.tuple (dims.map args)) = .ok y ∧
      a.getItem AnyAxis.getItem (.tuple (dims.map args)) = .ok (.array r) ∧ r.arr.withunit c st new = (st', .ok x) ∧
      G.Part dims ls H ∧ OnGrid H dims w f y ∧ OnGrid H dims w f (.array ⟨x, r.axes⟩) := by
  obtain ⟨H, hH, hax⟩ := exists_part hf args ls hp hne
  obtain ⟨r, e1, e2, e3⟩ := subscript_grid h h0 args ls hp hne hs hH hax
  obtain ⟨z, hz⟩ : ∃ z, r = .array z := by obtain ⟨_, c, hc, _⟩ := e3; exact ⟨c, hc⟩
  subst hz
  have hau : a.arr.unit = u := by obtain ⟨_, c, hc, _, _, _, _, hu, _⟩ := h; cases hc; exact hu
  have hzu : z.arr.unit = u := by obtain ⟨_, c, hc, _, _, _, _, hu, _⟩ := e3; cases hc; exact hu
  obtain ⟨y, e4, _, e5⟩ := subscript_grid (converter_grid h h1 v) h0 args ls hp hne hs hH hax
  refine ⟨converter v a.arr, z, converter v z.arr, y, H, _, _, ?_, e4, e1, ?_, hH, e5, converter_grid e3 (e2 z rfl) v⟩
  · simp only [PArr.withunit, hau, hv]
  · simp only [PArr.withunit, hzu, hv]

/-! ## Subscription and arithmetic -/

theorem OnGrid.reaxis {ν : Type} {G H : Grid κ ν} {dims : List κ} {u : List Term} {g : (κ → Nat) → ℝ} {a : Arr κ ν ℝ}
    (h : OnGrid G dims u g (.array a)) (hs : ∀ d ∈ dims, H.size d = G.size d) :
    OnGrid H dims u g (.array ⟨a.arr, H.axes dims⟩) := by
  obtain ⟨hn, c, hc, hpl, hd, hsh, haxs, hu, hg⟩ := h
  cases hc
  refine ⟨hn, _, rfl, hpl, hd, ?_, rfl, hu, fun pos hp => hg pos (fun d hd => by rw [← hs d hd]; exact hp d hd)⟩
  show a.arr.raw.data.shape = _
  rw [hsh]
  exact List.map_congr_left (fun d hd => (hs d hd).symm)

theorem axes_congr {ν : Type} {G H : Grid κ ν} {dims : List κ} (h : ∀ d ∈ dims, G.axis d = H.axis d) :
    G.axes dims = H.axes dims := List.map_congr_left (fun d hd => by rw [h d hd])

theorem collect_congr {α β ε : Type} {f g : α → Except ε β} : ∀ {l : List α}, (∀ x ∈ l, f x = g x) →
    Axis.collect f l = Axis.collect g l
  | [], _ => rfl
  | x :: l, h => by
    have ih := collect_congr (f := f) (g := g) (l := l) (fun y hy => h y (List.mem_cons_of_mem _ hy))
    simp only [Axis.collect, h x (by simp), ih]

/-- In a product, the axes of the second operand are preferred. -/
theorem mul_axes {ν : Type} (order : List System) (tm : Bool) (f : ℝ → ℝ → ℝ) {A B H : Grid κ ν} {d1 d2 : List κ}
    (a b : PArr κ ℝ) (h : ∀ d ∈ d1, d ∉ d2 → A.axis d = H.axis d) :
    Physical.multiplicative order tm f (.array ⟨a, A.axes d1⟩) (.array ⟨b, B.axes d2⟩) =
      Physical.multiplicative order tm f (.array ⟨a, H.axes d1⟩) (.array ⟨b, B.axes d2⟩) := by
  have hm : Axes.merge (A.axes d1) (B.axes d2) = Axes.merge (H.axes d1) (B.axes d2) := by
    unfold Axes.merge
    simp only [keys_axes]
    cases Container.merge d1 d2 with
    | error e => rfl
    | ok keys =>
      dsimp only
      rw [collect_congr]
      intro k _
      cases hb : (B.axes d2).get? k with
      | some v => rfl
      | none =>
        dsimp only
        have h2 : k ∉ d2 := by rw [Dict.get?_eq_none, keys_axes] at hb; exact hb
        by_cases h1 : k ∈ d1
        · rw [get_axes h1, get_axes h1, h k h1 h2]
        · rw [Dict.get?_eq_none.2 (by rw [keys_axes]; exact h1), Dict.get?_eq_none.2 (by rw [keys_axes]; exact h1)]
  simp only [Physical.multiplicative, Operand.unit, multiplyMeasured, hm]

theorem array_axes {ν : Type} {G : Grid κ ν} {dims : List κ} {u : List Term} {g : (κ → Nat) → ℝ} {a : Arr κ ν ℝ}
    (h : OnGrid G dims u g (.array a)) : a = ⟨a.arr, G.axes dims⟩ := by
  obtain ⟨_, c, hc, _, _, _, haxs, _⟩ := h
  cases hc
  rw [← haxs]

/-- **C87**, products and quotients.  It does not matter whether two arrays are subscripted before or after they are
multiplied or divided, for observers' indices: both orders succeed, and give arrays with the same dimensions, unit and numbers
on the part of the grid that the indices select. -/
theorem c87_product (order : List System) (tm : Bool) (f : ℝ → ℝ → ℝ) {G : Grid κ (AnyAxis ℝ)} {d1 d2 d3 : List κ}
    {u v w : List Term} {g h : (κ → Nat) → ℝ} {a b : Arr κ (AnyAxis ℝ) ℝ} (ha : OnGrid G d1 u g (.array a))
    (hb : OnGrid G d2 v h (.array b)) (hm : Container.merge d1 d2 = .ok d3) (hu : combineUnits order tm u v = .ok w)
    (hf : G.Fits d3) (h1 : d1 ≠ []) (h2 : d2 ≠ []) (indices : κ → Option Arg) (ls : κ → List Nat)
    (ho : ∀ d ∈ d3, ObservedPositions (G.size d) (indices d) (ls d)) :
    ∃ (p : Arr κ (AnyAxis ℝ) ℝ) (x y r s : Operand κ (AnyAxis ℝ) ℝ) (H H' : Grid κ (AnyAxis ℝ)) (q : (κ → Nat) → ℝ),
      Physical.multiplicative order tm f (.array a) (.array b) = .ok (.array p) ∧
      subscriptObserved AnyAxis.getItem p indices = .ok r ∧
      subscriptObserved AnyAxis.getItem a indices = .ok x ∧ subscriptObserved AnyAxis.getItem b indices = .ok y ∧
      Physical.multiplicative order tm f x y = .ok s ∧
      G.Part d3 ls H ∧ G.Part d3 ls H' ∧ OnGrid H d3 w q r ∧ OnGrid H' d3 w q s := by
  obtain ⟨p, e1, e2⟩ := mul_grid order tm f ha hb hm hu
  obtain ⟨p, rfl⟩ : ∃ z, p = .array z := by obtain ⟨_, c, hc, _⟩ := e2; exact ⟨c, hc⟩
  have hM := Container.c09_merge_ok d1 d2 d3 ha.nodup hb.nodup hm
  have s1 : ∀ d ∈ d1, d ∈ d3 := fun d hd => (hM.mem d).2 (.inl hd)
  have s2 : ∀ d ∈ d2, d ∈ d3 := fun d hd => (hM.mem d).2 (.inr hd)
  have h3 : d3 ≠ [] := by
    intro h; subst h
    cases d1 with
    | nil => exact h1 rfl
    | cons d d1 => cases s1 d (by simp)
  obtain ⟨r, H, e3, e4, _, e5⟩ := c87_observed e2 hf h3 indices ls ho
  obtain ⟨x, A, e6, e7, _, e8⟩ := c87_observed ha (fun d hd => hf d (s1 d hd)) h1 indices ls (fun d hd => ho d (s1 d hd))
  obtain ⟨y, B, e9, e10, _, e11⟩ := c87_observed hb (fun d hd => hf d (s2 d hd)) h2 indices ls (fun d hd => ho d (s2 d hd))
  obtain ⟨x, rfl⟩ : ∃ z, x = .array z := by obtain ⟨_, c, hc, _⟩ := e8; exact ⟨c, hc⟩
  obtain ⟨y, rfl⟩ : ∃ z, y = .array z := by obtain ⟨_, c, hc, _⟩ := e11; exact ⟨c, hc⟩
  have hpos : ∀ d, 0 < (if d ∈ d3 then (ls d).length else 1) := fun d => by
    split
    · rename_i hd; exact List.length_pos_iff.2 (observed_ne (G.pos d) (ho d hd))
    · exact Nat.one_pos
  let C : Grid κ (AnyAxis ℝ) := ⟨fun d => if d ∈ d3 then (ls d).length else 1, fun d => if d ∈ d2 then B.axis d else A.axis d, hpos⟩
  have c1 : OnGrid C d1 u _ (.array ⟨x.arr, C.axes d1⟩) := OnGrid.reaxis e8 (fun d hd => by
    rw [e7.size d hd]; exact if_pos (s1 d hd))
  have c2 : OnGrid C d2 v _ (.array ⟨y.arr, C.axes d2⟩) := OnGrid.reaxis e11 (fun d hd => by
    rw [e10.size d hd]; exact if_pos (s2 d hd))
  obtain ⟨s, e12, e13⟩ := mul_grid order tm f c1 c2 hm hu
  have hBC : B.axes d2 = C.axes d2 := axes_congr (fun d hd => (if_pos hd).symm)
  refine ⟨p, _, _, r, s, H, C, _, e1, e3, e6, e9, ?_, e4, ⟨fun d hd => if_pos hd, fun d hd => ?_⟩, e5, e13⟩
  · rw [array_axes e8, array_axes e11, mul_axes order tm f x.arr y.arr (H := C) (fun d _ h2 => (if_neg h2).symm), hBC]
    exact e12
  · show (G.axis d).Selects (ls d) (if d ∈ d2 then B.axis d else A.axis d)
    split
    · rename_i h; exact e10.axis d h
    · rename_i h; exact e7.axis d (((hM.mem d).1 hd).resolve_right h)

/-- **C87**, sums and differences: the same for arrays with the same dimensions and equal units. -/
theorem c87_sum {same inside : AnyAxis ℝ → AnyAxis ℝ → Bool} (hr : ∀ x, same x x = true) (f : ℝ → ℝ → ℝ)
    {G : Grid κ (AnyAxis ℝ)} {dims : List κ} {u v : List Term} {g h : (κ → Nat) → ℝ} {a b : Arr κ (AnyAxis ℝ) ℝ}
    (ha : OnGrid G dims u g (.array a)) (hb : OnGrid G dims v h (.array b)) (hu : exprEq u v = true)
    (hf : G.Fits dims) (h0 : dims ≠ []) (indices : κ → Option Arg) (ls : κ → List Nat)
    (ho : ∀ d ∈ dims, ObservedPositions (G.size d) (indices d) (ls d)) :
    ∃ (p : Arr κ (AnyAxis ℝ) ℝ) (x y r s : Operand κ (AnyAxis ℝ) ℝ) (H : Grid κ (AnyAxis ℝ)) (q : (κ → Nat) → ℝ),
      Physical.additive same inside f (.array a) (.array b) = .ok (.array p) ∧
      subscriptObserved AnyAxis.getItem p indices = .ok r ∧
      subscriptObserved AnyAxis.getItem a indices = .ok x ∧ subscriptObserved AnyAxis.getItem b indices = .ok y ∧
      Physical.additive same inside f x y = .ok s ∧
      G.Part dims ls H ∧ OnGrid H dims u q r ∧ OnGrid H dims u q s := by
  obtain ⟨p, e1, e2⟩ := add_grid hr f (inside := inside) ha hb hu
  obtain ⟨p, rfl⟩ : ∃ z, p = .array z := by obtain ⟨_, c, hc, _⟩ := e2; exact ⟨c, hc⟩
  obtain ⟨k1, _⟩ := observed_supported indices ls ho
  obtain ⟨H, hH, hax⟩ := exists_part hf _ ls k1 (fun d hd => observed_ne (G.pos d) (ho d hd))
  obtain ⟨r, e3, _, e4⟩ := observed_grid e2 h0 indices ls ho hH hax
  obtain ⟨x, e5, _, e6⟩ := observed_grid ha h0 indices ls ho hH hax
  obtain ⟨y, e7, _, e8⟩ := observed_grid hb h0 indices ls ho hH hax
  obtain ⟨s, e9, e10⟩ := add_grid hr f (inside := inside) e6 e8 hu
  exact ⟨p, x, y, r, s, H, _, e1, e3, e5, e7, e9, hH, e4, e10⟩

/-! ## One index, and too few -/

/-- **C87**, one index that is not a list: it is the index of the first dimension, and the others are kept. -/
theorem c87_single {ν : Type} (item : ν → Arg → Except Numeric.Err ν) (a : Arr κ ν ℝ) (i : Arg) (hn : 0 < a.arr.raw.data.ndim)
    (hl : ∀ l, i ≠ .seq .list l) (he : i ≠ .ellipsis) :
    a.getItem item (.one i) = a.getItem item (.tuple (i :: List.replicate (a.arr.raw.data.ndim - 1) .full)) := by
  obtain ⟨r, h1, h2, h3⟩ := c26_single a.arr.raw.data.ndim i hn
  rw [if_neg he] at h3
  have e1 : subscriptArgs (.one i) = .bare i := by
    cases i with
    | seq k l => cases k with
      | list => exact absurd rfl (hl l)
      | array => rfl
      | other => rfl
    | int i => rfl
    | slice a b c => rfl
    | ellipsis => rfl
  have e2 : expand a.arr.raw.data.ndim (subscriptArgs (.tuple (i :: List.replicate (a.arr.raw.data.ndim - 1) .full))) =
      .ok (i :: List.replicate (a.arr.raw.data.ndim - 1) .full) :=
    c26_no_ellipsis _ _ (by
      simp only [List.mem_cons, List.mem_replicate, not_or]
      exact ⟨fun h => he h.symm, fun h => by cases h.2⟩) (by simp; omega)
  unfold Arr.getItem
  rw [e1, h1, e2, h3]

/-- **C87** does not hold for a list: its members are taken as indices of different dimensions. -/
theorem c87_not_list {ν : Type} (item : ν → Arg → Except Numeric.Err ν) (a : Arr κ ν ℝ) (l : List ℤ) :
    a.getItem item (.one (.seq .list l)) = a.getItem item (.tuple (l.map .int)) := by
  unfold Arr.getItem
  rfl

theorem zip_keys {ν : Type} : ∀ (args : List Arg) (l : List (κ × ν)),
    (args.zip l).map (fun p => p.2.1) = (l.map Prod.fst).take args.length
  | [], _ => by simp
  | _ :: _, [] => by simp
  | _ :: args, p :: l => by simp only [List.zip_cons_cons, List.map_cons, List.length_cons, List.take_succ_cons, zip_keys args l]

theorem collect_keys {ν : Type} {item : ν → Arg → Except Numeric.Err ν} {ps : List (Arg × (κ × ν))} {items : List (κ × ν)}
    (h : Axis.collect (subscriptAxis item) ps = .ok items) : items.map Prod.fst = ps.map (fun p => p.2.1) := by
  have h4 := Axis.collect_inv h
  clear h
  induction h4 with
  | nil => rfl
  | @cons p q ps qs hpq _ ih =>
    simp only [List.map_cons, ih]
    congr 1
    unfold subscriptAxis at hpq
    split at hpq
    · cases hpq
    · cases hpq; rfl

/-- **C87** does not hold for tuples with fewer indices than the array has dimensions, and no ellipsis: all of them are
refused, although a single index is accepted. -/
theorem c87_not_short {ν : Type} (item : ν → Arg → Except Numeric.Err ν) {G : Grid κ ν} {dims : List κ} {u : List Term}
    {g : (κ → Nat) → ℝ} {a : Arr κ ν ℝ} (h : OnGrid G dims u g (.array a)) (args : List Arg) (he : Arg.ellipsis ∉ args)
    (hl : args.length < dims.length) : ∃ e, a.getItem item (.tuple args) = .error e := by
  obtain ⟨hn, c, hc, hpl, hd, hsh, haxs, hu, hg⟩ := h
  cases hc
  cases hx : a.getItem item (.tuple args) with
  | error e => exact ⟨e, rfl⟩
  | ok r =>
    exfalso
    unfold Arr.getItem at hx
    rw [show expand a.arr.raw.data.ndim (subscriptArgs (.tuple args)) = .ok args from
      c26_no_ellipsis _ _ he (by rw [ND.ndim, hsh, List.length_map]; omega)] at hx
    dsimp only at hx
    cases hd1 : Numeric.getItem a.arr.data.data (.tuple args) with
    | error e => rw [hd1] at hx; cases hx
    | ok d =>
      rw [hd1] at hx
      dsimp only at hx
      cases hf : arrayFactory d a.arr.raw.dims with
      | error e => rw [hf] at hx; cases hx
      | ok named =>
        rw [hf] at hx
        dsimp only at hx
        cases hs : subscriptAxes item args a.axes with
        | error e => rw [hs] at hx; cases hx
        | ok axes =>
          rw [hs] at hx
          dsimp only at hx
          have hnd : named.data.ndim = dims.length := by
            unfold arrayFactory at hf
            rw [hd, dimensions_nodup hn] at hf
            split at hf
            · cases hf; rename_i h; exact h.symm
            · cases hf
          have hlen : axes.keys.length ≤ args.length ∧ axes.keys.Nodup := by
            unfold subscriptAxes at hs
            cases hc : Axis.collect (subscriptAxis item) (args.zip a.axes) with
            | error e => rw [hc] at hs; cases hs
            | ok items =>
              rw [hc] at hs
              cases hs
              have h3 : items.map Prod.fst = dims.take args.length := by
                rw [collect_keys hc, zip_keys, haxs]
                congr 1
                exact keys_axes dims
              have h4 : (items.map Prod.fst).Nodup := by rw [h3]; exact hn.sublist (List.take_sublist _ _)
              rw [Dict.ofItems_nodup items h4]
              refine ⟨?_, h4⟩
              show (items.map Prod.fst).length ≤ _
              rw [h3, List.length_take]
              exact Nat.min_le_left _ _
          unfold newArray arrayFactory at hx
          rw [if_neg] at hx
          · cases hx
          · rw [dimensions_nodup hlen.2]
            omega

/-! ## Slices beside sequences -/

theorem expand_two (n : Nat) (hn : 2 ≤ n) (k : SeqKind) (is : List ℤ) (b e s : Option ℤ) :
    expandEllipsis n [.seq k is, .slice b e s] = .ok [.seq k is, .slice b e s] :=
  c26_no_ellipsis n _ (by simp) (by simpa using hn)

theorem slice_ignored {α : Type} (a : ND α) (hn : 2 ≤ a.shape.length) (k : SeqKind) (is : List ℤ) (b e s : Option ℤ) :
    Numeric.getItem a (.tuple [.seq k is, .slice b e s]) = Numeric.getItem a (.tuple [.seq k is, .full]) := by
  have h : Numeric.resolve a.shape (.items true [.seq k is, .slice b e s]) = Numeric.resolve a.shape (.items true [.seq k is, .full]) := by
    unfold Numeric.resolve Numeric.normalize
    simp only [List.all_cons, Arg.builtin, Bool.false_and, Bool.false_eq_true, and_false, if_false, Arg.full]
    rw [expand_two _ hn, expand_two _ hn]
    match hs : a.shape with
    | [] => rw [hs] at hn; simp at hn
    | [_] => rw [hs] at hn; simp at hn
    | x :: y :: r => rfl
  unfold Numeric.getItem getItemWith
  show (match Numeric.resolve a.shape (.items true [.seq k is, .slice b e s]) with | .error e => _ | .ok r => _) = _
  rw [h]
  rfl

/-- **C87** does not hold for a sequence of positions beside a slice that does not take its whole axis: the data keep the whole
dimension of the slice, whereas its axis has only the values of the slice. -/
theorem c87_not_slices {G : Grid κ (AnyAxis ℝ)} {p q : κ} {u : List Term} {g : (κ → Nat) → ℝ}
    {a : Arr κ (AnyAxis ℝ) ℝ} (h : OnGrid G [p, q] u g (.array a)) (hf : G.Fits [p, q]) (is : List ℤ) (b e s : Option ℤ)
    (l m : List Nat) (h1 : Positions (G.size p) (.seq .other is) l) (h2 : Positions (G.size q) (.slice b e s) m) :
    ∃ r y, a.getItem AnyAxis.getItem (.tuple [.seq .other is, .slice b e s]) = .ok (.array r) ∧
      r.arr.raw.data.shape = [l.length, G.size q] ∧ r.axes.get? q = some y ∧ y.length = m.length := by
  obtain ⟨hn, c, hc, hpl, hd, hsh, haxs, hu, hg⟩ := h
  cases hc
  have hne : p ≠ q := by simpa using hn
  have hsh' : a.arr.data.data.shape = [G.size p, G.size q] := hsh
  obtain ⟨d, hd1, hd2⟩ := c27_product_partial a.arr.data.data [.seq .other is, .full] [l, List.range (G.size q)] (by simp)
    ⟨.other, is, by simp⟩ (by rw [hsh']; exact ⟨h1, slicePositions_full _, trivial⟩)
    (by rw [hsh']; exact ⟨slicePositions_full _, trivial⟩)
  rw [← slice_ignored _ (by rw [hsh']; simp) .other is b e s] at hd1
  obtain ⟨x, hx1, hx2⟩ := anyAxis_selects (x := G.axis p) (a := .seq .other is) (l := l) (by rw [hf p (by simp)]; exact h1)
  obtain ⟨y, hy1, hy2⟩ := anyAxis_selects (x := G.axis q) (a := .slice b e s) (l := m) (by rw [hf q (by simp)]; exact h2)
  have hds : d.shape = [l.length, G.size q] := by rw [hd2.1]; simp
  have hexp : expand a.arr.raw.data.ndim (subscriptArgs (.tuple [.seq .other is, .slice b e s])) =
      .ok [.seq .other is, .slice b e s] := expand_two _ (by rw [ND.ndim, hsh]; simp) _ _ _ _ _
  have hfac : arrayFactory d a.arr.raw.dims = .ok ⟨d, [p, q], false⟩ := by
    unfold arrayFactory
    rw [hd, dimensions_nodup hn, if_pos (by rw [ND.ndim, hds]; rfl)]
  have hsub : subscriptAxes AnyAxis.getItem [.seq .other is, .slice b e s] a.axes = .ok [(p, x), (q, y)] := by
    unfold subscriptAxes
    rw [haxs]
    simp only [Grid.axes, List.map_cons, List.map_nil, List.zip_cons_cons, List.zip_nil_left, Axis.collect, subscriptAxis,
      hx1, hy1]
    rw [Dict.ofItems_nodup _ (by simpa using hne)]
  refine ⟨⟨PArr.new ⟨d, [p, q], false⟩ a.arr.unit, [(p, x), (q, y)]⟩, y, ?_, hds, ?_, hy2.length_eq⟩
  · unfold Arr.getItem
    rw [hexp]
    simp only [hd1, hfac, hsub]
    unfold newArray arrayFactory
    rw [show dimensions (Dict.keys [(p, x), (q, y)]) = [p, q] from dimensions_nodup hn,
      if_pos (by rw [ND.ndim, hds]; rfl)]
  · rw [Dict.get?_cons, if_neg hne, Dict.get?_cons, if_pos rfl]

/-! ## Witnesses -/

/-- Three times and four shells. -/
noncomputable def sampleGrid : Grid String (AnyAxis ℝ) :=
  ⟨fun d => if d = "time" then 3 else 4,
    fun d => if d = "time" then .coordinates ⟨[1, 2, 5], none⟩ [⟨1, c! "s", 1⟩] else .points ⟨[0, 1, 2, 3], none⟩,
    fun d => by split <;> decide⟩

theorem sample_fits : sampleGrid.Fits ["time", "shell"] := by
  intro d hd
  fin_cases hd <;> rfl

theorem sample_array (u : List Term) : ∃ a, OnGrid sampleGrid ["time", "shell"] u
    (fun p => ((["time", "shell"].map p).sum : ℝ)) (.array a) := by
  obtain ⟨r, hr⟩ := onGrid_ofFn sampleGrid ["time", "shell"] (by decide) u
    (fun l => ((l.sum : Nat) : ℝ))
  obtain ⟨c, rfl⟩ : ∃ z, r = .array z := by obtain ⟨_, c, hc, _⟩ := hr; exact ⟨c, hc⟩
  exact ⟨c, hr⟩

/-- the hypotheses of `c87_subscript_partial` for `a[[2, -3], 1:4:2]`, which is not supported, and for `a[[2, -3], -1]` -/
example : (∀ d ∈ ["time", "shell"], Positions (sampleGrid.size d)
      (if d = "time" then .seq .other [2, -3] else .int (-1)) (if d = "time" then [2, 0] else [3])) ∧
    Supported (["time", "shell"].map sampleGrid.size) (["time", "shell"].map (fun d =>
      if d = "time" then Arg.seq .other [2, -3] else .int (-1))) := by
  refine ⟨fun d hd => ?_, ?_, .inl ⟨⟨.other, [2, -3], by simp⟩, trivial⟩⟩
  · fin_cases hd
    · exact .cons (by decide) (.cons (by decide) .nil)
    · exact ⟨3, rfl, by decide, .inr rfl⟩
  · intro k l h; simp at h; exact .inl h.1

/-- the hypotheses of `c87_observed` for a time, and no index for shells; and for an empty sequence -/
example : (∀ d ∈ ["time", "shell"], ObservedPositions (sampleGrid.size d)
      (if d = "time" then some (.int 1) else none) (if d = "time" then [1] else [0, 1, 2, 3])) ∧
    ObservedPositions 4 (some (.seq .other [])) [0, 1, 2, 3] := by
  refine ⟨fun d hd => ?_, rfl⟩
  fin_cases hd
  · exact ⟨1, rfl, by decide, .inl rfl⟩
  · rfl

/-- the hypotheses of `c87_not_slices` for `a[[0], 1:2]`: the data have four shells, the axis one -/
example : Positions (sampleGrid.size "time") (.seq .other [0]) [0] ∧
    Positions (sampleGrid.size "shell") (.slice (some 1) (some 2) none) [1] :=
  ⟨.cons (by decide) .nil, by show slicePositions 4 _ _ _ = _; decide⟩

/-- the hypothesis of `c87_conversion_partial` for centimeters and meters, after any history -/
example (systems : List System) (φ : Name → ℚ) (hφ : TableSizes φ) (rs : List (Name × Name)) :
    ∃ v, conversion (realConv tableNodes systems) (afterRequests (realConv tableNodes systems) [] rs) [⟨1, c! "cm", 1⟩] c! "m" =
      (afterRequests (realConv tableNodes systems) [] (rs ++ [(c! "cm", c! "m")]), .ok v) := by
  have hc : Convertible tableNodes c! "cm" c! "m" := convertible_of (by decide +kernel)
  have hs : IsSymbolOf c! "cm" c! "cm" := isSymbolOf_of (by decide +kernel)
  have hv : IsSymbolOf c! "m" c! "m" := isSymbolOf_of (by decide +kernel)
  obtain ⟨f, h1, h2, _⟩ := convertible_factor (systems := systems) hφ hc
  have hsh : showExpr [⟨1, c! "cm", 1⟩] = c! "cm" := show_symbol _
  have := conversion_ok (realConv tableNodes systems) rs [⟨1, c! "cm", 1⟩] c! "m" _ _ f (by rw [hsh]; exact h1)
    (by rw [hsh]; exact h2) (by rw [hsh]; exact hs.2.1) hv.2.1
  rw [hsh] at this
  exact ⟨_, this⟩

/-- the hypotheses of `c87_product` for two lengths over both dimensions -/
example : Container.merge ["time", "shell"] ["time", "shell"] = .ok ["time", "shell"] ∧
    combineUnits [.mks, .cgs] true (unitOf .mks (c! "length")) unitless = .ok (unitOf .mks (c! "length")) :=
  ⟨merge_sublist (by decide) (List.Sublist.refl _),
    combine_mul (length_times_number _ (by simp [orders]) .mks (mem_bothSystems _))⟩

end Eprem.Observable
