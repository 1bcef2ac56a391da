import Verif.Lemmas.Numpy
import Verif.Spec.Numeric

/-!
# Subscription
-/

namespace Eprem.Numeric

variable {α : Type}

/-! ## Picks -/

/-- the positions of a pick -/
def Pick.list : Pick → List Nat
  | .drop i => [i]
  | .keep l => l

/-- the shape that keeps every axis -/
def fullShape (ps : List Pick) : List Nat := ps.map (fun p => p.list.length)

theorem pickShape_keep {ps : List Pick} (h : ∀ p ∈ ps, ∃ l, p = .keep l) : pickShape ps = fullShape ps := by
  induction ps with
  | nil => rfl
  | cons p ps ih =>
    obtain ⟨l, rfl⟩ := h p (List.mem_cons_self ..)
    simp only [pickShape, fullShape, List.map_cons, Pick.list]
    rw [ih (fun q hq => h q (List.mem_cons_of_mem _ hq))]; rfl

/-- without the coordinates of the dropped axes -/
def dropCoords : List Pick → List Nat → List Nat
  | [], _ => []
  | _, [] => []
  | .drop _ :: ps, _ :: p => dropCoords ps p
  | .keep _ :: ps, i :: p => i :: dropCoords ps p

theorem dropCoords_valid {ps : List Pick} {p : List Nat} (h : Valid p (fullShape ps)) :
    Valid (dropCoords ps p) (pickShape ps) := by
  induction ps generalizing p with
  | nil => cases h; exact .nil
  | cons q ps ih =>
    cases p with
    | nil => cases h
    | cons i p =>
      have h' : Valid (i :: p) (q.list.length :: fullShape ps) := h
      rw [valid_cons] at h'
      cases q with
      | drop j => exact ih h'.2
      | keep l => exact .cons h'.1 (ih h'.2)

theorem sizeOf_pickShape (ps : List Pick) : sizeOf (pickShape ps) = sizeOf (fullShape ps) := by
  induction ps with
  | nil => rfl
  | cons q ps ih =>
    cases q with
    | drop j => simp only [pickShape, fullShape, List.map_cons, Pick.list] at *; rw [sizeOf_cons, ih]; simp
    | keep l => simp only [pickShape, fullShape, List.map_cons, Pick.list] at *; rw [sizeOf_cons, sizeOf_cons, ih]

theorem ravel_dropCoords {ps : List Pick} {p : List Nat} (h : Valid p (fullShape ps)) :
    ravel (fullShape ps) p = ravel (pickShape ps) (dropCoords ps p) := by
  induction ps generalizing p with
  | nil => cases h; rfl
  | cons q ps ih =>
    cases p with
    | nil => cases h
    | cons i p =>
      have h' : Valid (i :: p) (q.list.length :: fullShape ps) := h
      rw [valid_cons] at h'
      cases q with
      | drop j =>
        have hi : i = 0 := by have := h'.1; simp only [Pick.list, List.length_singleton] at this; omega
        subst hi
        show ravel (1 :: fullShape ps) (0 :: p) = ravel (pickShape ps) (dropCoords ps p)
        rw [ravel, ih h'.2]; omega
      | keep l =>
        show ravel (l.length :: fullShape ps) (i :: p) = ravel (l.length :: pickShape ps) (i :: dropCoords ps p)
        rw [ravel, ravel, ih h'.2, sizeOf_pickShape]

theorem pickFrom_dropCoords {ps : List Pick} {p : List Nat} (h : Valid p (fullShape ps)) :
    pickFrom ps (dropCoords ps p) = List.zipWith (fun l i => l.getD i 0) (ps.map Pick.list) p := by
  induction ps generalizing p with
  | nil => cases h; rfl
  | cons q ps ih =>
    cases p with
    | nil => cases h
    | cons i p =>
      have h' : Valid (i :: p) (q.list.length :: fullShape ps) := h
      rw [valid_cons] at h'
      cases q with
      | drop j =>
        have hi : i = 0 := by have := h'.1; simp only [Pick.list, List.length_singleton] at this; omega
        subst hi
        show j :: pickFrom ps (dropCoords ps p) = _
        rw [ih h'.2]; rfl
      | keep l =>
        show l.getD i 0 :: pickFrom ps (dropCoords ps p) = _
        rw [ih h'.2]; rfl

/-- Whatever its shape is said to be, the selected elements are in the right order: with the shape that keeps every
axis, they are those at the product of the positions. -/
theorem select_selects (a : ND α) (ps : List Pick) :
    Selects a (ps.map Pick.list) ⟨fullShape ps, (a.select ps).data⟩ := by
  refine ⟨by simp [fullShape, List.map_map, Function.comp_def], fun p hp => ?_⟩
  have hp' : Valid p (fullShape ps) := hp
  have h1 : (⟨fullShape ps, (a.select ps).data⟩ : ND α).get p = (a.select ps).get (dropCoords ps p) := by
    simp only [ND.get]
    rw [ravel_dropCoords hp']; rfl
  rw [h1]
  unfold ND.select
  rw [get_ofFn (dropCoords_valid hp'), pickFrom_dropCoords hp']

/-! ## Picks and positions -/

theorem axisIndex_ok {n : Nat} {i : ℤ} {j : Nat} : axisIndex n i = .ok j ↔ j < n ∧ ((j : ℤ) = i ∨ (j : ℤ) = i + n) := by
  unfold axisIndex
  split
  next h =>
    constructor
    · intro h'
      have := Except.ok.inj h'
      split at this <;> omega
    · intro h'
      congr 1
      split <;> omega
  next h =>
    constructor
    · intro h'; cases h'
    · intro h'; omega

theorem mapM_axisIndex {n : Nat} {is : List ℤ} {l : List Nat} :
    is.mapM (axisIndex n) = .ok l ↔ List.Forall₂ (fun i j => (j : Nat) < n ∧ ((j : ℤ) = i ∨ (j : ℤ) = i + n)) is l := by
  induction is generalizing l with
  | nil =>
    rw [List.mapM_nil]
    constructor
    · intro h; cases h; exact .nil
    · intro h; cases h; rfl
  | cons i is ih =>
    rw [List.mapM_cons]
    constructor
    · intro h
      cases hi : axisIndex n i with
      | error e => rw [hi] at h; cases h
      | ok j =>
        rw [hi] at h
        cases hl : is.mapM (axisIndex n) with
        | error e => rw [hl] at h; cases h
        | ok l' =>
          rw [hl] at h
          cases h
          exact .cons (axisIndex_ok.1 hi) (ih.1 hl)
    · intro h
      cases h with
      | cons h1 h2 =>
        rw [axisIndex_ok.2 h1, ih.2 h2]; rfl

theorem pickOf_ok {n : Nat} {a : Arg} {p : Pick} (h : pickOf n a = .ok p) : Positions n a p.list := by
  cases a with
  | int i =>
    simp only [pickOf] at h
    cases hi : axisIndex n i with
    | error e => rw [hi] at h; cases h
    | ok j => rw [hi] at h; cases h; exact ⟨j, rfl, axisIndex_ok.1 hi⟩
  | slice a b s =>
    simp only [pickOf] at h
    cases hi : slicePositions n a b s with
    | error e => rw [hi] at h; cases h
    | ok j => rw [hi] at h; cases h; exact hi
  | ellipsis => cases h
  | seq k l =>
    simp only [pickOf] at h
    cases hi : l.mapM (axisIndex n) with
    | error e => rw [hi] at h; cases h
    | ok j => rw [hi] at h; cases h; exact mapM_axisIndex.1 hi

theorem pickOf_of {n : Nat} {a : Arg} {l : List Nat} (h : Positions n a l) :
    ∃ p, pickOf n a = .ok p ∧ p.list = l ∧ ((∀ i, a ≠ .int i) → p = .keep l) := by
  cases a with
  | int i =>
    obtain ⟨j, rfl, hj⟩ := h
    exact ⟨.drop j, by simp only [pickOf, axisIndex_ok.2 hj]; rfl, rfl, fun h => absurd rfl (h i)⟩
  | slice a b s =>
    exact ⟨.keep l, by simp only [pickOf]; rw [show slicePositions n a b s = .ok l from h]; rfl, rfl, fun _ => rfl⟩
  | ellipsis => exact h.elim
  | seq k is =>
    exact ⟨.keep l, by simp only [pickOf]; rw [mapM_axisIndex.2 h]; rfl, rfl, fun _ => rfl⟩

theorem picksOf_of {s : List Nat} {args : List Arg} {ls : List (List Nat)} (h : AllPositions s args ls) :
    ∃ ps, picksOf s args = .ok ps ∧ ps.map Pick.list = ls ∧
      ((∀ a ∈ args, ∀ i, a ≠ .int i) → ∀ p ∈ ps, ∃ l, p = .keep l) := by
  induction s generalizing args ls with
  | nil =>
    cases args with
    | nil => cases ls with
      | nil => exact ⟨[], rfl, rfl, by simp⟩
      | cons l ls => exact h.elim
    | cons a args => exact h.elim
  | cons n s ih =>
    cases args with
    | nil => cases ls with
      | nil => exact h.elim
      | cons l ls =>
        obtain ⟨h1, h2⟩ := h
        obtain ⟨ps, hp, hl, hk⟩ := ih h2
        refine ⟨.keep l :: ps, by simp only [picksOf, hp, h1]; rfl, by simp [Pick.list, hl], ?_⟩
        intro _ p hp
        rcases List.mem_cons.1 hp with rfl | hp
        · exact ⟨l, rfl⟩
        · exact hk (by simp) p hp
    | cons a args => cases ls with
      | nil => exact h.elim
      | cons l ls =>
        obtain ⟨h1, h2⟩ := h
        obtain ⟨p, hp, hpl, hpk⟩ := pickOf_of h1
        obtain ⟨ps, hps, hl, hk⟩ := ih h2
        refine ⟨p :: ps, by simp only [picksOf, hp, hps]; rfl, by simp [hpl, hl], ?_⟩
        intro hint q hq
        rcases List.mem_cons.1 hq with rfl | hq
        · exact ⟨l, hpk (hint a (List.mem_cons_self ..))⟩
        · exact hk (fun b hb => hint b (List.mem_cons_of_mem _ hb)) q hq

theorem picksOf_length {s : List Nat} {args : List Arg} {ps : List Pick} (h : picksOf s args = .ok ps) :
    ps.length = s.length := by
  induction s generalizing args ps with
  | nil => cases args with
    | nil => cases h; rfl
    | cons a args => cases h
  | cons n s ih =>
    cases args with
    | nil =>
      simp only [picksOf] at h
      cases hp : picksOf s [] with
      | error e => rw [hp] at h; cases h
      | ok ps' => rw [hp] at h; cases h; simp [ih hp]
    | cons a args =>
      simp only [picksOf] at h
      cases ha : pickOf n a with
      | error e => rw [ha] at h; cases h
      | ok q =>
        rw [ha] at h
        cases hp : picksOf s args with
        | error e => rw [hp] at h; cases h
        | ok ps' => rw [hp] at h; cases h; simp [ih hp]

/-- Selection that drops no axis. -/
theorem select_keeps (a : ND α) {ps : List Pick} (h : ∀ p ∈ ps, ∃ l, p = .keep l) :
    Selects a (ps.map Pick.list) (a.select ps) := by
  have := select_selects a ps
  have h2 : a.select ps = ⟨fullShape ps, (a.select ps).data⟩ := by
    conv_lhs => rw [show a.select ps = ⟨pickShape ps, (a.select ps).data⟩ from rfl]
    rw [pickShape_keep h]
  rw [h2]; exact this

theorem pickShape_length_keep {ps : List Pick} (h : ∀ p ∈ ps, ∃ l, p = .keep l) : (pickShape ps).length = ps.length := by
  rw [pickShape_keep h]; simp [fullShape]

theorem pickShape_length_le (ps : List Pick) : (pickShape ps).length ≤ ps.length := by
  induction ps with
  | nil => exact le_refl _
  | cons p ps ih => cases p with
    | drop i => simp only [pickShape, List.length_cons]; omega
    | keep l => simp only [pickShape, List.length_cons]; omega

theorem pickShape_length_lt {ps : List Pick} (h : ∃ i, Pick.drop i ∈ ps) : (pickShape ps).length < ps.length := by
  induction ps with
  | nil => obtain ⟨i, hi⟩ := h; cases hi
  | cons p ps ih => cases p with
    | drop i => have := pickShape_length_le ps; simp only [pickShape, List.length_cons]; omega
    | keep l =>
      obtain ⟨i, hi⟩ := h
      have := ih ⟨i, by simpa using hi⟩
      simp only [pickShape, List.length_cons]; omega

/-! ## The mesh -/

theorem forall₂_range (n : Nat) :
    List.Forall₂ (fun i j => (j : Nat) < n ∧ ((j : ℤ) = i ∨ (j : ℤ) = i + n)) ((List.range n).map Int.ofNat) (List.range n) := by
  rw [List.forall₂_map_left_iff, List.forall₂_same]
  intro i hi
  exact ⟨List.mem_range.1 hi, Or.inl rfl⟩

theorem meshLoop_of {s : List Nat} {args : List Arg} {ls : List (List Nat)} (h : AllPositions s args ls)
    (hc : CoversSlices s args) :
    ∃ m, meshLoop s args = .ok m ∧ m.length = args.length ∧ AllPositions s (m.map (.seq .array ·)) ls := by
  induction s generalizing args ls with
  | nil =>
    cases args with
    | nil => cases ls with
      | nil => exact ⟨[], rfl, rfl, trivial⟩
      | cons l ls => exact h.elim
    | cons a args => exact h.elim
  | cons n s ih =>
    cases args with
    | nil => exact ⟨[], rfl, rfl, h⟩
    | cons a args =>
      cases ls with
      | nil => exact h.elim
      | cons l ls =>
        obtain ⟨h1, h2⟩ := h
        cases a with
        | int i =>
          obtain ⟨m, hm, hl, hp⟩ := ih h2 hc
          refine ⟨[i] :: m, by simp only [meshLoop, List.tail_cons, hm]; rfl, by simp [hl], ?_, hp⟩
          obtain ⟨j, rfl, hj⟩ := h1
          exact .cons hj .nil
        | slice x y z =>
          obtain ⟨m, hm, hl, hp⟩ := ih h2 hc.2
          refine ⟨(List.range n).map Int.ofNat :: m, by simp only [meshLoop, hm]; rfl, by simp [hl], ?_, hp⟩
          have : l = List.range n := by
            have h3 := hc.1
            rw [show slicePositions n x y z = .ok l from h1] at h3
            exact Except.ok.inj h3
          rw [this]
          exact forall₂_range n
        | ellipsis => exact h1.elim
        | seq k is =>
          obtain ⟨m, hm, hl, hp⟩ := ih h2 hc
          refine ⟨is :: m, by simp only [meshLoop, List.tail_cons, hm]; rfl, by simp [hl], h1, hp⟩

theorem AllPositions.length_le {s : List Nat} {args : List Arg} {ls : List (List Nat)} (h : AllPositions s args ls) :
    args.length ≤ s.length := by
  induction s generalizing args ls with
  | nil => cases args with
    | nil => simp
    | cons a args => cases ls <;> exact h.elim
  | cons n s ih => cases args with
    | nil => simp
    | cons a args => cases ls with
      | nil => exact h.elim
      | cons l ls => have := ih h.2; simp only [List.length_cons]; omega

theorem AllPositions.no_ellipsis {s : List Nat} {args : List Arg} {ls : List (List Nat)} (h : AllPositions s args ls) :
    Arg.ellipsis ∉ args := by
  induction s generalizing args ls with
  | nil => cases args with
    | nil => simp
    | cons a args => cases ls <;> exact h.elim
  | cons n s ih => cases args with
    | nil => simp
    | cons a args => cases ls with
      | nil => exact h.elim
      | cons l ls =>
        intro hm
        rcases List.mem_cons.1 hm with rfl | hm
        · exact h.1.elim
        · exact ih h.2 hm

theorem AllPositions.length {s : List Nat} {args : List Arg} {ls : List (List Nat)} (h : AllPositions s args ls) :
    ls.length = s.length := by
  induction s generalizing args ls with
  | nil => cases args <;> cases ls <;> first | rfl | exact h.elim
  | cons n s ih => cases args with
    | nil => cases ls with
      | nil => exact h.elim
      | cons l ls => simp [ih h.2]
    | cons a args => cases ls with
      | nil => exact h.elim
      | cons l ls => simp [ih h.2]

theorem expandEllipsis_none {n : Nat} {args : List Arg} (h : args.length ≤ n) (he : Arg.ellipsis ∉ args) :
    expandEllipsis n args = .ok args := by
  unfold expandEllipsis
  rw [if_neg (by omega), if_pos (List.count_eq_zero.2 he)]

end Eprem.Numeric
