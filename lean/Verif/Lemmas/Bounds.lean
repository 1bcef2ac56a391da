import Verif.Spec.Bounds
import Mathlib.Data.List.Basic
import Mathlib.Tactic.Ring
import Mathlib.Tactic.Linarith

namespace Eprem.Symbolic

theorem depth_cons (c : Char) (s : Str) :
    depth (c :: s) = (if c = '(' then 1 else if c = ')' then -1 else 0) + depth s := by
  unfold depth
  by_cases h1 : c = '('
  · subst h1; simp; ring
  · by_cases h2 : c = ')'
    · subst h2; simp; ring
    · simp [h1, h2]

@[simp] theorem depth_nil : depth [] = 0 := rfl

/-- once inside a group (`k ≥ 1` open parentheses) -/
theorem findBoundsAux_inside (s : Str) : ∀ (i : Nat) (k : Int) (i0 : Nat), 1 ≤ k → ∀ e,
    (findBoundsAux s i true k i0 = some e ↔
      ∃ n, n < s.length ∧ e = (i0, i + n + 1) ∧ k + depth (s.take (n + 1)) = 0 ∧
        ∀ m, m ≤ n → 0 < k + depth (s.take m)) := by
  induction s with
  | nil => intro i k i0 hk e; simp [findBoundsAux]
  | cons c s ih =>
    intro i k i0 hk e
    have key : findBoundsAux (c :: s) i true k i0 =
        if k + depth [c] = 0 then some (i0, i + 1) else findBoundsAux s (i + 1) true (k + depth [c]) i0 := by
      simp only [findBoundsAux, depth_cons, depth_nil]
      by_cases h1 : c = '('
      · simp [h1]
      · by_cases h2 : c = ')'
        · simp [h2]; rfl
        · simp [h1, h2]
    rw [key]
    have hc : depth [c] = 1 ∨ depth [c] = -1 ∨ depth [c] = 0 := by
      rw [depth_cons]; split
      · simp
      · split <;> simp
    have hcons : ∀ l, depth (c :: l) = depth [c] + depth l := by intro l; simp [depth_cons]
    split
    · rename_i h0
      constructor
      · intro h
        simp only [Option.some.injEq] at h
        refine ⟨0, by simp, by simp [← h], by simpa using h0, ?_⟩
        intro m hm
        have : m = 0 := by omega
        subst this; simpa using by omega
      · rintro ⟨n, hn, rfl, h2, h3⟩
        rcases Nat.eq_zero_or_pos n with rfl | hp
        · simp
        · have := h3 1 hp
          simp at this; omega
    · rename_i h0
      rw [ih (i + 1) _ i0 (by omega) e]
      constructor
      · rintro ⟨n, hn, rfl, h2, h3⟩
        refine ⟨n + 1, by simpa using hn, by simp; omega, ?_, ?_⟩
        · rw [List.take_succ_cons, hcons]; omega
        · intro m hm
          cases m with
          | zero => simp; omega
          | succ m => rw [List.take_succ_cons, hcons]; have := h3 m (by omega); omega
      · rintro ⟨n, hn, rfl, h2, h3⟩
        cases n with
        | zero => simp at h2; omega
        | succ n =>
          rw [List.take_succ_cons, hcons] at h2
          refine ⟨n, by simpa using hn, by simp; omega, by omega, ?_⟩
          intro m hm
          have := h3 (m + 1) (by omega)
          rw [List.take_succ_cons, hcons] at this; omega

/-- before the first `(`, when no `)` has been seen -/
theorem findBoundsAux_outside (s : Str) : ∀ (i : Nat) (i0 : Nat), NoEarlyClose s → ∀ a b,
    (findBoundsAux s i false 0 i0 = some (i + a, i + b) ↔ IsFirstGroup s a b) := by
  induction s with
  | nil =>
    intro i i0 _ a b
    simp [findBoundsAux, IsFirstGroup]
  | cons c s ih =>
    intro i i0 hne a b
    by_cases h1 : c = '('
    · subst h1
      have key : findBoundsAux ('(' :: s) i false 0 i0 = findBoundsAux s (i + 1) true 1 i := by
        simp [findBoundsAux]
      rw [key, findBoundsAux_inside s (i + 1) 1 i (by omega)]
      have hd : ∀ l, depth ('(' :: l) = 1 + depth l := by intro l; simp [depth_cons]
      constructor
      · rintro ⟨n, hn, h1, h2, h3⟩
        simp only [Prod.mk.injEq] at h1
        have ha : a = 0 := by omega
        have hb : b = n + 2 := by omega
        subst ha hb
        refine ⟨by simp, by simp, by omega, by simp; omega, ?_, ?_⟩
        · simp only [List.take_succ_cons, List.drop_zero, hd]; exact h2
        · intro k hk1 hk2
          obtain ⟨m, rfl⟩ : ∃ m, k = m + 1 := ⟨k - 1, by omega⟩
          simp only [List.take_succ_cons, List.drop_zero, hd]; exact h3 m (by omega)
      · rintro ⟨h1, h2, h3, h4, h5, h6⟩
        have ha : a = 0 := by
          by_contra hcon
          obtain ⟨a', rfl⟩ : ∃ m, a = m + 1 := ⟨a - 1, by omega⟩
          simp at h2
        subst ha
        obtain ⟨n, rfl⟩ : ∃ n, b = n + 2 := by
          refine ⟨b - 2, ?_⟩
          rcases Nat.lt_or_ge b 2 with hb | hb
          · have : b = 1 := by omega
            subst this; simp [hd] at h5
          · omega
        refine ⟨n, by simp at h4; omega, by simp; omega, ?_, ?_⟩
        · simpa only [List.take_succ_cons, List.drop_zero, hd] using h5
        · intro m hm
          have := h6 (m + 1) (by omega) (by omega)
          simpa only [List.take_succ_cons, List.drop_zero, hd] using this
    · have h2 : c ≠ ')' := by
        rintro rfl
        simp [NoEarlyClose] at hne
      have hne' : NoEarlyClose s := by
        simp only [NoEarlyClose, List.takeWhile_cons, h1, ne_eq, not_false_eq_true, decide_true, if_true,
          List.mem_cons, not_or] at hne
        exact hne.2
      have key : findBoundsAux (c :: s) i false 0 i0 = findBoundsAux s (i + 1) false 0 i0 := by
        simp [findBoundsAux, h1, h2]
      rw [key]
      constructor
      · intro h
        have hpos : ∃ a', a = a' + 1 ∧ ∃ b', b = b' + 1 := by
          -- the reported positions are beyond the current one
          have aux : ∀ (s : Str) (i : Nat) (ini : Bool) (k : Int) (i0 : Nat) (x y : Nat), (ini = true → i ≤ i0 + i0 + i) →
              findBoundsAux s i ini k i0 = some (x, y) → (ini = true → x = i0) ∧ (ini = false → i ≤ x) ∧ i < y := by
            intro s
            induction s with
            | nil => intro i ini k i0 x y _ h; simp [findBoundsAux] at h
            | cons d s ih2 =>
              intro i ini k i0 x y _ h
              simp only [findBoundsAux] at h
              by_cases hd1 : d = '('
              · simp only [hd1, if_true] at h
                split at h
                · simp only [Option.some.injEq, Prod.mk.injEq] at h
                  cases ini <;> simp at h ⊢ <;> omega
                · obtain ⟨h1, h2, h3⟩ := ih2 _ _ _ _ _ _ (by intro; omega) h
                  cases ini <;> simp at h1 ⊢ <;> omega
              · by_cases hd2 : d = ')'
                · simp only [hd2, if_true] at h
                  simp only [show (')' = '(') = False by simp, if_false] at h
                  split at h
                  · rename_i hc
                    simp only [Option.some.injEq, Prod.mk.injEq] at h
                    simp [hc.1]; omega
                  · obtain ⟨h1, h2, h3⟩ := ih2 _ _ _ _ _ _ (by intro; omega) h
                    refine ⟨h1, fun hh => ?_, by omega⟩
                    have := h2 hh; omega
                · simp only [hd1, hd2, if_false] at h
                  split at h
                  · rename_i hc
                    simp only [Option.some.injEq, Prod.mk.injEq] at h
                    simp [hc.1]; omega
                  · obtain ⟨h1, h2, h3⟩ := ih2 _ _ _ _ _ _ (by intro; omega) h
                    refine ⟨h1, fun hh => ?_, by omega⟩
                    have := h2 hh; omega
          obtain ⟨_, h2, h3⟩ := aux s (i + 1) false 0 i0 _ _ (by simp) h
          have := h2 rfl
          exact ⟨a - 1, by omega, b - 1, by omega⟩
        obtain ⟨a', rfl, b', rfl⟩ := hpos
        have := (ih (i + 1) i0 hne' a' b').1 (by rw [h]; simp; omega)
        obtain ⟨g1, g2, g3, g4, g5, g6⟩ := this
        refine ⟨by simpa using g1, by simpa [h1, Ne.symm h1] using g2, by omega, by simpa using g4, by simpa using g5, ?_⟩
        intro k hk1 hk2
        obtain ⟨m, rfl⟩ : ∃ m, k = m + 1 := ⟨k - 1, by omega⟩
        simpa using g6 m (by omega) (by omega)
      · rintro ⟨g1, g2, g3, g4, g5, g6⟩
        have ha : a ≠ 0 := by rintro rfl; simp at g1; exact h1 g1
        obtain ⟨a', rfl⟩ : ∃ m, a = m + 1 := ⟨a - 1, by omega⟩
        obtain ⟨b', rfl⟩ : ∃ m, b = m + 1 := ⟨b - 1, by omega⟩
        have := (ih (i + 1) i0 hne' a' b').2 ⟨by simpa using g1, ?_, by omega, by simpa using g4, by simpa using g5, ?_⟩
        · rw [this]; simp; omega
        · simp only [List.take_succ_cons, List.mem_cons, not_or] at g2; exact g2.2
        · intro k hk1 hk2
          have := g6 (k + 1) (by omega) (by omega)
          simpa using this

end Eprem.Symbolic
