import Verif.Spec.Numeric
import Mathlib.Data.List.MinMax
import Mathlib.Data.Rat.Defs
import Mathlib.Algebra.Order.Ring.Rat

/-!
# C28: restricting an axis to the neighbourhood of some values
-/

namespace Eprem.Numeric

variable {𝕜 : Type} [LinearOrder 𝕜]

/-! ## Lemmas -/

theorem foldl_max_spec (l : List Nat) (m : Nat) :
    m ≤ l.foldl max m ∧ (∀ i ∈ l, i ≤ l.foldl max m) ∧ (l.foldl max m = m ∨ l.foldl max m ∈ l) := by
  induction l generalizing m with
  | nil => simp
  | cons a l ih =>
    obtain ⟨h1, h2, h3⟩ := ih (max m a)
    refine ⟨by simp only [List.foldl_cons]; omega, ?_, ?_⟩
    · intro i hi
      rcases List.mem_cons.1 hi with rfl | hi
      · simp only [List.foldl_cons]; omega
      · exact h2 i hi
    · simp only [List.foldl_cons]
      rcases h3 with h3 | h3
      · rw [h3]
        rcases le_total m a with h | h
        · right; rw [max_eq_right h]; exact List.mem_cons_self ..
        · left; exact max_eq_left h
      · right; exact List.mem_cons_of_mem _ h3

theorem foldl_min_spec (l : List Nat) (m : Nat) :
    l.foldl min m ≤ m ∧ (∀ i ∈ l, l.foldl min m ≤ i) ∧ (l.foldl min m = m ∨ l.foldl min m ∈ l) := by
  induction l generalizing m with
  | nil => simp
  | cons a l ih =>
    obtain ⟨h1, h2, h3⟩ := ih (min m a)
    refine ⟨by simp only [List.foldl_cons]; omega, ?_, ?_⟩
    · intro i hi
      rcases List.mem_cons.1 hi with rfl | hi
      · simp only [List.foldl_cons]; omega
      · exact h2 i hi
    · simp only [List.foldl_cons]
      rcases h3 with h3 | h3
      · rw [h3]
        rcases le_total m a with h | h
        · left; exact min_eq_left h
        · right; rw [min_eq_right h]; exact List.mem_cons_self ..
      · right; exact List.mem_cons_of_mem _ h3

theorem mem_whereTrue {p : 𝕜 → Bool} {l : List 𝕜} {i : Nat} :
    i ∈ whereTrue p l ↔ ∃ h : i < l.length, p l[i] = true := by
  unfold whereTrue
  rw [List.mem_filter, List.mem_range]
  constructor
  · rintro ⟨h, hp⟩
    rw [List.getElem?_eq_getElem h] at hp
    exact ⟨h, hp⟩
  · rintro ⟨h, hp⟩
    refine ⟨h, ?_⟩
    rw [List.getElem?_eq_getElem h]
    exact hp

/-- the bounds of one target that lies inside -/
theorem find1d_spec {l : List 𝕜} {t : 𝕜} (hlo : ∃ i, ∃ h : i < l.length, l[i] ≤ t)
    (hhi : ∃ i, ∃ h : i < l.length, t ≤ l[i]) :
    (∃ h : (find1d l t).1 < l.length, l[(find1d l t).1] ≤ t) ∧
    (∀ j (h : j < l.length), l[j] ≤ t → j ≤ (find1d l t).1) ∧
    (∃ h : (find1d l t).2 < l.length, t ≤ l[(find1d l t).2]) ∧
    (∀ j (h : j < l.length), t ≤ l[j] → (find1d l t).2 ≤ j) := by
  obtain ⟨i, hi, hit⟩ := hlo
  obtain ⟨k, hk, hkt⟩ := hhi
  have h1 := foldl_max_spec (whereTrue (fun x => decide (x ≤ t)) l) 0
  have m1 : ∀ j, j ∈ whereTrue (fun x => decide (x ≤ t)) l ↔ ∃ h : j < l.length, l[j] ≤ t := by
    intro j; rw [mem_whereTrue]; simp
  have m2 : ∀ j, j ∈ whereTrue (fun x => decide (t ≤ x)) l ↔ ∃ h : j < l.length, t ≤ l[j] := by
    intro j; rw [mem_whereTrue]; simp
  have e1 : (find1d l t).1 = (whereTrue (fun x => decide (x ≤ t)) l).foldl max 0 := rfl
  have e2 : ∃ a r, whereTrue (fun x => decide (t ≤ x)) l = a :: r ∧ (find1d l t).2 = r.foldl min a := by
    cases h : whereTrue (fun x => decide (t ≤ x)) l with
    | nil => have := (m2 k).2 ⟨hk, hkt⟩; rw [h] at this; cases this
    | cons a r => exact ⟨a, r, rfl, by simp only [find1d, h]⟩
  obtain ⟨a, r, ha, hr⟩ := e2
  have h2 := foldl_min_spec r a
  rw [← hr] at h2
  rw [← e1] at h1
  refine ⟨?_, ?_, ?_, ?_⟩
  · rw [← m1]
    rcases h1.2.2 with h | h
    · have hi0 := h1.2.1 i ((m1 i).2 ⟨hi, hit⟩)
      have : i = 0 := by omega
      rw [h, m1]
      subst this
      exact ⟨hi, hit⟩
    · exact h
  · intro j hj hjt
    exact h1.2.1 j ((m1 j).2 ⟨hj, hjt⟩)
  · rw [← m2, ha]
    rcases h2.2.2 with h | h
    · rw [h]; exact List.mem_cons_self ..
    · exact List.mem_cons_of_mem _ h
  · intro j hj hjt
    have : j ∈ a :: r := by rw [← ha, m2]; exact ⟨hj, hjt⟩
    rcases List.mem_cons.1 this with rfl | h
    · exact h2.1
    · exact h2.2.1 j h

theorem restrictLoop_some (bs : List (Nat × Nat)) (l u : Nat) :
    ∃ lo hi, restrictLoop bs (some (l, u)) = some (lo, hi) ∧ (lo = l ∨ lo ∈ bs.map Prod.fst) ∧ lo ≤ l ∧
      (∀ b ∈ bs, lo ≤ b.1) ∧ (hi = u ∨ hi ∈ bs.map Prod.snd) ∧ u ≤ hi ∧ ∀ b ∈ bs, b.2 ≤ hi := by
  induction bs generalizing l u with
  | nil => exact ⟨l, u, rfl, Or.inl rfl, le_refl _, by simp, Or.inl rfl, le_refl _, by simp⟩
  | cons b bs ih =>
    obtain ⟨lo, hi, h0, h1, h2, h3, h4, h5, h6⟩ := ih (min l b.1) (max u b.2)
    refine ⟨lo, hi, h0, ?_, by omega, ?_, ?_, by omega, ?_⟩
    · rcases h1 with h1 | h1
      · rcases le_total l b.1 with h | h
        · left; omega
        · right; rw [h1, min_eq_right h]; simp
      · right; simp only [List.map_cons, List.mem_cons]; right; exact h1
    · intro c hc
      rcases List.mem_cons.1 hc with rfl | hc
      · omega
      · exact h3 c hc
    · rcases h4 with h4 | h4
      · rcases le_total u b.2 with h | h
        · right; rw [h4, max_eq_right h]; simp
        · left; omega
      · right; simp only [List.map_cons, List.mem_cons]; right; exact h4
    · intro c hc
      rcases List.mem_cons.1 hc with rfl | hc
      · omega
      · exact h6 c hc

theorem restrictLoop_spec {bs : List (Nat × Nat)} (h : bs ≠ []) :
    ∃ lo hi, restrictLoop bs none = some (lo, hi) ∧ lo ∈ bs.map Prod.fst ∧ (∀ b ∈ bs, lo ≤ b.1) ∧
      hi ∈ bs.map Prod.snd ∧ ∀ b ∈ bs, b.2 ≤ hi := by
  cases bs with
  | nil => exact absurd rfl h
  | cons b bs =>
    obtain ⟨lo, hi, h0, h1, h2, h3, h4, h5, h6⟩ := restrictLoop_some bs b.1 b.2
    refine ⟨lo, hi, h0, ?_, ?_, ?_, ?_⟩
    · rcases h1 with rfl | h1
      · simp
      · simp only [List.map_cons, List.mem_cons]; right; exact h1
    · intro c hc
      rcases List.mem_cons.1 hc with rfl | hc
      · exact h2
      · exact h3 c hc
    · rcases h4 with rfl | h4
      · simp
      · simp only [List.map_cons, List.mem_cons]; right; exact h4
    · intro c hc
      rcases List.mem_cons.1 hc with rfl | hc
      · exact h5
      · exact h6 c hc

theorem increasing_getElem {l : List 𝕜} (h : l.Pairwise (· < ·)) {i j : Nat} (hi : i < l.length) (hj : j < l.length)
    (hij : i < j) : l[i] < l[j] := List.pairwise_iff_getElem.1 h i j hi hj hij

/-! ## Specification -/

/-- The positions `lo, ..., hi` bracket these values in this list. -/
def Brackets (l targets : List 𝕜) (lo hi : Nat) : Prop :=
  ∃ (h₁ : lo < l.length) (h₂ : hi < l.length), ∀ t ∈ targets, l[lo] ≤ t ∧ t ≤ l[hi]

/-- Every target lies between the first and the last value. -/
def Inside (l targets : List 𝕜) : Prop :=
  ∀ t ∈ targets, (∃ x ∈ l.head?, x ≤ t) ∧ ∃ x ∈ l.getLast?, t ≤ x

theorem inside_bounds {l ts : List 𝕜} (h : Inside l ts) {t : 𝕜} (ht : t ∈ ts) :
    (∃ i, ∃ h : i < l.length, l[i] ≤ t) ∧ ∃ i, ∃ h : i < l.length, t ≤ l[i] := by
  obtain ⟨⟨x, hx, hxt⟩, y, hy, hyt⟩ := h t ht
  cases l with
  | nil => simp at hx
  | cons a l =>
    simp only [List.head?_cons, Option.mem_some_iff] at hx
    refine ⟨⟨0, by simp, by simpa [hx] using hxt⟩, l.length, by simp, ?_⟩
    rw [Option.mem_def, List.getLast?_eq_getElem?] at hy
    simp only [List.length_cons, Nat.add_sub_cancel] at hy
    rw [List.getElem?_eq_getElem (by simp)] at hy
    rw [Option.some.injEq] at hy
    rw [hy]; exact hyt

/-! ## One dimension -/

/-- **C28**, one dimension.  On a strictly increasing reference, for one or more targets inside it, `restrict` returns a
contiguous non-empty range of indices that brackets every target, and every range that does so contains it. -/
theorem c28_brackets (l targets : List 𝕜) (hl : l.Pairwise (· < ·)) (hne : targets ≠ []) (hin : Inside l targets) :
    ∃ lo hi, restrict l targets = .ok (List.range' lo (hi + 1 - lo)) ∧ lo ≤ hi ∧ Brackets l targets lo hi ∧
      ∀ lo' hi', Brackets l targets lo' hi' → lo' ≤ lo ∧ hi ≤ hi' := by
  have hne' : targets.map (find1d l) ≠ [] := by simpa using hne
  obtain ⟨lo, hi, h0, h1, h2, h3, h4⟩ := restrictLoop_spec hne'
  have spec : ∀ t ∈ targets, _ := fun t ht =>
    find1d_spec (l := l) (t := t) (inside_bounds hin ht).1 (inside_bounds hin ht).2
  rw [List.mem_map] at h1 h3
  obtain ⟨b, hb, rfl⟩ := h1
  obtain ⟨c, hc, rfl⟩ := h3
  rw [List.mem_map] at hb hc
  obtain ⟨s, hs, rfl⟩ := hb
  obtain ⟨u, hu, rfl⟩ := hc
  have hall : ∀ t ∈ targets, (find1d l s).1 ≤ (find1d l t).1 ∧ (find1d l t).2 ≤ (find1d l u).2 := by
    intro t ht
    have : find1d l t ∈ targets.map (find1d l) := List.mem_map_of_mem ht
    exact ⟨h2 _ this, h4 _ this⟩
  have mono : ∀ {i j : Nat} (hi : i < l.length) (hj : j < l.length), i ≤ j → l[i] ≤ l[j] := by
    intro i j hi hj hij
    rcases Nat.lt_or_eq_of_le hij with h | h
    · exact (increasing_getElem hl hi hj h).le
    · subst h; exact le_refl _
  obtain ⟨⟨s1, s2⟩, s3, ⟨s4, s5⟩, s6⟩ := spec s hs
  obtain ⟨⟨u1, u2⟩, u3, ⟨u4, u5⟩, u6⟩ := spec u hu
  refine ⟨(find1d l s).1, (find1d l u).2, ?_, ?_, ⟨s1, u4, ?_⟩, ?_⟩
  · unfold restrict; rw [h0]; rfl
  · by_contra hlt
    have h5 := (hall s hs).2
    have := increasing_getElem hl s4 s1 (by omega)
    exact absurd (lt_of_lt_of_le this s2) (not_lt.2 s5)
  · intro t ht
    obtain ⟨⟨t1, t2⟩, t3, ⟨t4, t5⟩, t6⟩ := spec t ht
    exact ⟨le_trans (mono s1 t1 (hall t ht).1) t2, le_trans t5 (mono t4 u4 (hall t ht).2)⟩
  · rintro lo' hi' ⟨g1, g2, g3⟩
    exact ⟨s3 lo' g1 (g3 s hs).1, u6 hi' g2 (g3 u hu).2⟩

/-- the hypotheses are met by two targets, one of which is a value of the reference -/
example : ([1, 2, 4, 8, 16] : List ℚ).Pairwise (· < ·) ∧ Inside ([1, 2, 4, 8, 16] : List ℚ) [2, 5] ∧
    restrict ([1, 2, 4, 8, 16] : List ℚ) [2, 5] = .ok [1, 2, 3] := by
  refine ⟨by decide +kernel, ?_, by decide +kernel⟩
  intro t ht
  simp only [List.mem_cons, List.not_mem_nil, or_false] at ht
  rcases ht with rfl | rfl <;> exact ⟨⟨1, rfl, by norm_num⟩, 16, rfl, by norm_num⟩

/-- **C28**, without a target there is an error. -/
theorem c28_no_target (l : List 𝕜) : restrict l [] = .error .value := rfl

/-- **C28** needs strict increase: around a repeated value nothing is selected. -/
theorem c28_repeated : restrict ([1, 2, 2, 3] : List ℚ) [2] = .ok [] := by decide +kernel

/-- **C28**, a target outside the reference selects the nearest end. -/
theorem c28_outside (l : List 𝕜) (t : 𝕜) (hl : l ≠ []) :
    ((∀ x ∈ l, t < x) → restrict l [t] = .ok [0]) ∧
    ((∀ x ∈ l, x < t) → restrict l [t] = .ok [l.length - 1]) := by
  have hlen : 0 < l.length := List.length_pos_of_ne_nil hl
  have hw : ∀ p : 𝕜 → Bool, (∀ x ∈ l, p x = true) → whereTrue p l = List.range l.length := by
    intro p hp
    unfold whereTrue
    rw [List.filter_eq_self]
    intro i hi
    rw [List.getElem?_eq_getElem (List.mem_range.1 hi)]
    exact hp _ (List.getElem_mem _)
  have hn : ∀ p : 𝕜 → Bool, (∀ x ∈ l, p x = false) → whereTrue p l = [] := by
    intro p hp
    apply List.eq_nil_iff_forall_not_mem.2
    intro i hi
    rw [mem_whereTrue] at hi
    obtain ⟨h, h'⟩ := hi
    rw [hp _ (List.getElem_mem _)] at h'; cases h'
  obtain ⟨m, hm⟩ : ∃ m, l.length = m + 1 := ⟨l.length - 1, by omega⟩
  constructor
  · intro h
    have e : find1d l t = (0, 0) := by
      simp only [find1d]
      rw [hn _ (fun x hx => by simpa using h x hx), hw _ (fun x hx => by simpa using (h x hx).le), hm, List.range_succ_eq_map]
      have := foldl_min_spec ((List.range m).map Nat.succ) 0
      simp only [List.foldl_nil, Prod.mk.injEq, true_and]
      omega
    simp only [restrict, List.map_cons, List.map_nil, e]
    rfl
  · intro h
    have e : find1d l t = (l.length - 1, l.length - 1) := by
      simp only [find1d]
      rw [hn (fun x => decide (t ≤ x)) (fun x hx => by simpa using h x hx), hw _ (fun x hx => by simpa using (h x hx).le)]
      have := foldl_max_spec (List.range l.length) 0
      have h1 := this.2.1 (l.length - 1) (by rw [List.mem_range]; omega)
      have h2 : (List.range l.length).foldl max 0 < l.length := by
        rcases this.2.2 with h | h
        · omega
        · exact List.mem_range.1 h
      simp only [Prod.mk.injEq, and_true]
      omega
    simp only [restrict, List.map_cons, List.map_nil, e, restrictLoop, indexRange]
    rw [show l.length - 1 + 1 - (l.length - 1) = 1 by omega]
    rfl

/-! ## Two dimensions -/

theorem boundsRows_spec {rows : List (List 𝕜)} {t : 𝕜} (hne : rows ≠ []) :
    ∃ lo hi, boundsRows rows t = .ok (lo, hi) ∧ lo ∈ rows.map (fun l => (find1d l t).1) ∧
      (∀ l ∈ rows, lo ≤ (find1d l t).1) ∧ hi ∈ rows.map (fun l => (find1d l t).2) ∧ ∀ l ∈ rows, (find1d l t).2 ≤ hi := by
  cases rows with
  | nil => exact absurd rfl hne
  | cons r rows =>
    have h1 := foldl_min_spec ((rows.map (fun l => find1d l t)).map Prod.fst) (find1d r t).1
    have h2 := foldl_max_spec ((rows.map (fun l => find1d l t)).map Prod.snd) (find1d r t).2
    refine ⟨_, _, rfl, ?_, ?_, ?_, ?_⟩
    · rcases h1.2.2 with h | h
      · rw [h]; simp
      · simp only [List.map_cons, List.mem_cons]; right
        simpa [List.map_map, Function.comp_def] using h
    · intro l hl
      rcases List.mem_cons.1 hl with rfl | hl
      · exact h1.1
      · exact h1.2.1 _ (by rw [List.map_map]; exact List.mem_map_of_mem (f := Prod.fst ∘ fun l => find1d l t) hl)
    · rcases h2.2.2 with h | h
      · rw [h]; simp
      · simp only [List.map_cons, List.mem_cons]; right
        simpa [List.map_map, Function.comp_def] using h
    · intro l hl
      rcases List.mem_cons.1 hl with rfl | hl
      · exact h2.1
      · exact h2.2.1 _ (by rw [List.map_map]; exact List.mem_map_of_mem (f := Prod.snd ∘ fun l => find1d l t) hl)

theorem boundsAll_rows {rows : List (List 𝕜)} (hne : rows ≠ []) (ts : List 𝕜) :
    ∃ bs, boundsAll (boundsRows rows) ts = .ok bs ∧ bs.length = ts.length ∧
      (∀ b ∈ bs, ∃ t ∈ ts, boundsRows rows t = .ok b) ∧ ∀ t ∈ ts, ∃ b ∈ bs, boundsRows rows t = .ok b := by
  induction ts with
  | nil => exact ⟨[], rfl, rfl, by simp, by simp⟩
  | cons t ts ih =>
    obtain ⟨bs, h1, h2, h3, h4⟩ := ih
    obtain ⟨lo, hi, hb, -⟩ := boundsRows_spec (t := t) hne
    refine ⟨(lo, hi) :: bs, by simp only [boundsAll, hb, h1]; rfl, by simp [h2], ?_, ?_⟩
    · intro b hbm
      rcases List.mem_cons.1 hbm with rfl | hbm
      · exact ⟨t, List.mem_cons_self .., hb⟩
      · obtain ⟨s, hs, hs'⟩ := h3 b hbm
        exact ⟨s, List.mem_cons_of_mem _ hs, hs'⟩
    · intro s hs
      rcases List.mem_cons.1 hs with rfl | hs
      · exact ⟨_, List.mem_cons_self .., hb⟩
      · obtain ⟨b, hbm, hb'⟩ := h4 s hs
        exact ⟨b, List.mem_cons_of_mem _ hbm, hb'⟩

/-- **C28**, two dimensions, along the last axis, for rows of the same length each of which is strictly increasing and
contains the targets: the range brackets every target in every row, and every range that does so contains it. -/
theorem c28_rows (rows : List (List 𝕜)) (targets : List 𝕜) (n : Nat) (hne : rows ≠ []) (hlen : ∀ l ∈ rows, l.length = n)
    (hl : ∀ l ∈ rows, l.Pairwise (· < ·)) (ht : targets ≠ []) (hin : ∀ l ∈ rows, Inside l targets) :
    ∃ lo hi, restrict2 (boundsRows rows) targets = .ok (List.range' lo (hi + 1 - lo)) ∧ lo ≤ hi ∧
      (∀ l ∈ rows, Brackets l targets lo hi) ∧
      ∀ lo' hi', (∀ l ∈ rows, Brackets l targets lo' hi') → lo' ≤ lo ∧ hi ≤ hi' := by
  obtain ⟨bs, hb0, hb1, hb2, hb3⟩ := boundsAll_rows hne targets
  have hbs : bs ≠ [] := by
    intro h; rw [h] at hb1; exact ht (List.eq_nil_of_length_eq_zero hb1.symm)
  obtain ⟨lo, hi, h0, h1, h2, h3, h4⟩ := restrictLoop_spec hbs
  have spec : ∀ l ∈ rows, ∀ t ∈ targets, _ := fun l hlr t ht =>
    find1d_spec (l := l) (t := t) (inside_bounds (hin l hlr) ht).1 (inside_bounds (hin l hlr) ht).2
  have mono : ∀ l ∈ rows, ∀ {i j : Nat} (hi : i < l.length) (hj : j < l.length), i ≤ j → l[i] ≤ l[j] := by
    intro l hlr i j hi hj hij
    rcases Nat.lt_or_eq_of_le hij with h | h
    · exact (increasing_getElem (hl l hlr) hi hj h).le
    · subst h; exact le_refl _
  have hall : ∀ l ∈ rows, ∀ t ∈ targets, lo ≤ (find1d l t).1 ∧ (find1d l t).2 ≤ hi := by
    intro l hlr t ht
    obtain ⟨b, hbm, hb'⟩ := hb3 t ht
    obtain ⟨lo', hi', e, _, m1, _, m2⟩ := boundsRows_spec (t := t) hne
    rw [e] at hb'
    have hb'' := Except.ok.inj hb'
    have := h2 b hbm
    have := h4 b hbm
    have := m1 l hlr
    have := m2 l hlr
    subst hb''
    exact ⟨by omega, by omega⟩
  have witlo : ∃ l ∈ rows, ∃ t ∈ targets, lo = (find1d l t).1 := by
    rw [List.mem_map] at h1
    obtain ⟨b, hb, rfl⟩ := h1
    obtain ⟨t, ht, e⟩ := hb2 b hb
    obtain ⟨lo', hi', e', m0, _⟩ := boundsRows_spec (t := t) hne
    rw [e'] at e
    cases e
    rw [List.mem_map] at m0
    obtain ⟨l, hlr, rfl⟩ := m0
    exact ⟨l, hlr, t, ht, rfl⟩
  have withi : ∃ l ∈ rows, ∃ t ∈ targets, hi = (find1d l t).2 := by
    rw [List.mem_map] at h3
    obtain ⟨b, hb, rfl⟩ := h3
    obtain ⟨t, ht, e⟩ := hb2 b hb
    obtain ⟨lo', hi', e', _, _, m0, _⟩ := boundsRows_spec (t := t) hne
    rw [e'] at e
    cases e
    rw [List.mem_map] at m0
    obtain ⟨l, hlr, rfl⟩ := m0
    exact ⟨l, hlr, t, ht, rfl⟩
  obtain ⟨l₁, hl₁, t₁, ht₁, rfl⟩ := witlo
  obtain ⟨l₂, hl₂, t₂, ht₂, rfl⟩ := withi
  refine ⟨_, _, by unfold restrict2; rw [hb0]; simp only [h0]; rfl, ?_, ?_, ?_⟩
  · obtain ⟨⟨s1, s2⟩, _, ⟨s4, s5⟩, _⟩ := spec l₁ hl₁ t₁ ht₁
    have := (hall l₁ hl₁ t₁ ht₁).2
    by_contra hlt
    have := increasing_getElem (hl l₁ hl₁) s4 s1 (by omega)
    exact absurd (lt_of_lt_of_le this s2) (not_lt.2 s5)
  · intro l hlr
    have b1 : (find1d l₁ t₁).1 < l.length := by
      rw [hlen l hlr, ← hlen l₁ hl₁]; exact (spec l₁ hl₁ t₁ ht₁).1.1
    have b2 : (find1d l₂ t₂).2 < l.length := by
      rw [hlen l hlr, ← hlen l₂ hl₂]; exact (spec l₂ hl₂ t₂ ht₂).2.2.1.1
    refine ⟨b1, b2, fun t ht => ?_⟩
    obtain ⟨⟨t1, t2⟩, _, ⟨t4, t5⟩, _⟩ := spec l hlr t ht
    exact ⟨le_trans (mono l hlr b1 t1 (hall l hlr t ht).1) t2, le_trans t5 (mono l hlr t4 b2 (hall l hlr t ht).2)⟩
  · intro lo' hi' h
    obtain ⟨g1, _, g3⟩ := h l₁ hl₁
    obtain ⟨_, k2, k3⟩ := h l₂ hl₂
    exact ⟨(spec l₁ hl₁ t₁ ht₁).2.1 lo' g1 (g3 t₁ ht₁).1, (spec l₂ hl₂ t₂ ht₂).2.2.2 hi' k2 (k3 t₂ ht₂).2⟩

example : restrict2 (boundsRows [[1, 2, 4], [0, 3, 5]]) ([3, 2] : List ℚ) = .ok [0, 1, 2] := by decide +kernel

/-- **C28** does not hold along the first axis of a two-dimensional array: the columns of this array are strictly
increasing and bracket the target, but the restriction is empty; exchanging the columns gives three indices. -/
theorem c28_columns :
    restrict2 (boundsColumns [[0, 5, 6, 7], [0, 1, 2, 7]]) ([5] : List ℚ) = .ok [1, 2, 3] ∧
    restrict2 (boundsColumns [[0, 1, 2, 7], [0, 5, 6, 7]]) ([5] : List ℚ) = .ok [] ∧
    Brackets ([0, 1, 2, 7] : List ℚ) [5] 0 3 ∧ Brackets ([0, 5, 6, 7] : List ℚ) [5] 0 3 := by
  refine ⟨by decide +kernel, by decide +kernel, ?_, ?_⟩
  · refine ⟨by simp, by simp, fun t ht => ?_⟩
    simp only [List.mem_singleton] at ht; subst ht; norm_num
  · refine ⟨by simp, by simp, fun t ht => ?_⟩
    simp only [List.mem_singleton] at ht; subst ht; norm_num

end Eprem.Numeric
