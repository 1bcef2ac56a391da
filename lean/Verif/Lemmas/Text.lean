import Verif.Model.Config
import Mathlib.Data.List.Basic
import Mathlib.Tactic.Common

/-!
# Lemmas about splitting, joining and stripping text
-/

namespace Eprem.Config

open Eprem Eprem.Symbolic

theorem splitOn_ne (d : Char) (s : Str) : splitOn d s ≠ [] := by
  cases s with
  | nil => simp [splitOn]
  | cons c s =>
    rw [splitOn]
    split
    · simp
    · split <;> simp

theorem splitOn_none {d : Char} {s : Str} (h : d ∉ s) : splitOn d s = [s] := by
  induction s with
  | nil => rfl
  | cons c s ih =>
    rw [List.mem_cons, not_or] at h
    rw [splitOn, if_neg (Ne.symm h.1), ih h.2]

theorem splitOn_append {d : Char} {a : Str} (h : d ∉ a) (b : Str) : splitOn d (a ++ d :: b) = a :: splitOn d b := by
  induction a with
  | nil => simp [splitOn]
  | cons c a ih =>
    rw [List.mem_cons, not_or] at h
    rw [List.cons_append, splitOn, if_neg (Ne.symm h.1), ih h.2]

theorem splitOn_head (d : Char) (s : Str) : (splitOn d s).headD [] = s.takeWhile (fun c => c ≠ d) := by
  induction s with
  | nil => rfl
  | cons c s ih =>
    rw [splitOn]
    by_cases h : c = d
    · simp [h]
    · rw [if_neg h]
      cases hs : splitOn d s with
      | nil => exact absurd hs (splitOn_ne d s)
      | cons p ps =>
        rw [hs] at ih
        simp only [List.headD_cons] at ih ⊢
        rw [List.takeWhile_cons_of_pos (by simpa using h), ih]

theorem splitOn_join {d : Char} : ∀ {ps : List Str}, ps ≠ [] → (∀ p ∈ ps, d ∉ p) → splitOn d (joinWith d ps) = ps
  | [], h, _ => absurd rfl h
  | [p], _, h => by rw [joinWith]; exact splitOn_none (h p (by simp))
  | p :: q :: ps, _, h => by
    rw [joinWith, splitOn_append (h p (by simp)), splitOn_join (by simp) (fun r hr => h r (by simp [hr]))]

theorem join_splitOn (d : Char) (s : Str) : joinWith d (splitOn d s) = s := by
  induction s with
  | nil => rfl
  | cons c s ih =>
    rw [splitOn]
    by_cases h : c = d
    · rw [if_pos h]
      cases hs : splitOn d s with
      | nil => exact absurd hs (splitOn_ne d s)
      | cons p ps => rw [joinWith, ← hs, ih, h]; rfl
    · rw [if_neg h]
      cases hs : splitOn d s with
      | nil => exact absurd hs (splitOn_ne d s)
      | cons p ps =>
        rw [hs] at ih
        cases ps with
        | nil => simp only [joinWith] at ih ⊢; rw [ih]
        | cons q ps => simp only [joinWith] at ih ⊢; rw [List.cons_append, ih]

theorem splitOn_mem {d : Char} {s p : Str} (h : p ∈ splitOn d s) : d ∉ p := by
  induction s generalizing p with
  | nil => rw [splitOn, List.mem_singleton] at h; rw [h]; simp
  | cons c s ih =>
    rw [splitOn] at h
    split at h
    · rcases List.mem_cons.1 h with rfl | h
      · simp
      · exact ih h
    next hc =>
      split at h
      · simp at h; subst h; simpa using Ne.symm hc
      next q qs hq =>
        rcases List.mem_cons.1 h with rfl | h
        · rw [List.mem_cons, not_or]
          exact ⟨Ne.symm hc, ih (by rw [hq]; simp)⟩
        · exact ih (by rw [hq]; simp [h])

/-- The characters of the parts are those of the text. -/
theorem splitOn_sub {d : Char} {s p : Str} (h : p ∈ splitOn d s) {c : Char} (hc : c ∈ p) : c ∈ s := by
  induction s generalizing p with
  | nil => rw [splitOn, List.mem_singleton] at h; rw [h] at hc; cases hc
  | cons x s ih =>
    rw [splitOn] at h
    split at h
    · rcases List.mem_cons.1 h with rfl | h
      · cases hc
      · exact List.mem_cons_of_mem _ (ih h hc)
    next hx =>
      split at h
      · simp at h; subst h; simp at hc; simp [hc]
      next q qs hq =>
        rcases List.mem_cons.1 h with rfl | h
        · rcases List.mem_cons.1 hc with rfl | hc
          · simp
          · exact List.mem_cons_of_mem _ (ih (p := q) (by rw [hq]; simp) hc)
        · exact List.mem_cons_of_mem _ (ih (by rw [hq]; simp [h]) hc)

/-! ### Stripping -/

/-- No character to be stripped at either end. -/
def Trimmed (p : Char → Bool) (s : Str) : Prop :=
  (∀ c, s.head? = some c → p c = false) ∧ (∀ c, s.getLast? = some c → p c = false)

theorem dropWhile_all {p : Char → Bool} {a : Str} (h : ∀ c ∈ a, p c = true) (s : Str) :
    (a ++ s).dropWhile p = s.dropWhile p := by
  induction a with
  | nil => rfl
  | cons c a ih =>
    rw [List.cons_append, List.dropWhile_cons_of_pos (h c (by simp)), ih (fun d hd => h d (by simp [hd]))]

theorem dropWhile_head {p : Char → Bool} {s : Str} (h : ∀ c, s.head? = some c → p c = false) : s.dropWhile p = s := by
  cases s with
  | nil => rfl
  | cons c s => rw [List.dropWhile_cons_of_neg]; simp [h c rfl]

theorem stripBy_trimmed {p : Char → Bool} {s : Str} (h : Trimmed p s) : stripBy p s = s := by
  unfold stripBy
  rw [dropWhile_head h.1, dropWhile_head, List.reverse_reverse]
  intro c hc
  rw [List.head?_reverse] at hc
  exact h.2 c hc

theorem stripBy_pad {p : Char → Bool} {a s b : Str} (ha : ∀ c ∈ a, p c = true) (hb : ∀ c ∈ b, p c = true)
    (h : Trimmed p s) : stripBy p (a ++ s ++ b) = s := by
  unfold stripBy
  rw [List.append_assoc, dropWhile_all ha]
  cases s with
  | nil =>
    rw [List.nil_append]
    have : b.dropWhile p = [] := by simpa using dropWhile_all hb []
    rw [this]; rfl
  | cons c s =>
    rw [dropWhile_head (s := c :: s ++ b) (by intro d hd; exact h.1 d (by simpa using hd)), List.reverse_append,
      dropWhile_all (by simpa using hb), dropWhile_head, List.reverse_reverse]
    intro d hd
    rw [List.head?_reverse] at hd
    exact h.2 d hd

theorem dropWhile_split (p : Char → Bool) (s : Str) :
    ∃ a, (∀ c ∈ a, p c = true) ∧ s = a ++ s.dropWhile p ∧ ∀ c, (s.dropWhile p).head? = some c → p c = false := by
  induction s with
  | nil => exact ⟨[], by simp, rfl, by simp⟩
  | cons c s ih =>
    by_cases h : p c = true
    · obtain ⟨a, h1, h2, h3⟩ := ih
      rw [List.dropWhile_cons_of_pos h]
      refine ⟨c :: a, ?_, ?_, h3⟩
      · intro d hd
        rcases List.mem_cons.1 hd with rfl | hd
        · exact h
        · exact h1 d hd
      · rw [List.cons_append, ← h2]
    · rw [List.dropWhile_cons_of_neg h]
      refine ⟨[], by simp, rfl, ?_⟩
      intro d hd
      simp at hd
      subst hd
      simpa using h

/-- Stripping removes characters at the ends only, and leaves none there. -/
theorem stripBy_split (p : Char → Bool) (s : Str) :
    ∃ a b, (∀ c ∈ a, p c = true) ∧ (∀ c ∈ b, p c = true) ∧ s = a ++ stripBy p s ++ b ∧ Trimmed p (stripBy p s) := by
  obtain ⟨a, h1, h2, h3⟩ := dropWhile_split p s
  obtain ⟨b, h4, h5, h6⟩ := dropWhile_split p (s.dropWhile p).reverse
  have h7 : s.dropWhile p = stripBy p s ++ b.reverse := by
    unfold stripBy
    rw [← List.reverse_append, ← h5, List.reverse_reverse]
  refine ⟨a, b.reverse, h1, by simpa using h4, ?_, ?_, ?_⟩
  · rw [List.append_assoc, ← h7, ← h2]
  · intro c hc
    apply h3 c
    rw [h7, List.head?_append, hc]; rfl
  · intro c hc
    apply h6 c
    unfold stripBy at hc
    rw [List.getLast?_reverse] at hc
    exact hc

theorem stripBy_mem {p : Char → Bool} {s : Str} {c : Char} (h : c ∈ stripBy p s) : c ∈ s := by
  obtain ⟨a, b, _, _, hs, _⟩ := stripBy_split p s
  rw [hs]; simp [h]

/-- Characters that are not to be stripped remain. -/
theorem mem_stripBy {p : Char → Bool} {s : Str} {c : Char} (h : c ∈ s) (hp : p c = false) : c ∈ stripBy p s := by
  obtain ⟨a, b, ha, hb, hs, _⟩ := stripBy_split p s
  rw [hs] at h
  simp only [List.mem_append] at h
  rcases h with (h | h) | h
  · rw [ha c h] at hp; cases hp
  · exact h
  · rw [hb c h] at hp; cases hp

theorem strip_eq (s : Str) : strip s = stripBy isSpace s := rfl

/-- The text before the first comment marker. -/
theorem stripInline_eq (s : Str) (comments : List Char) :
    stripInlineComments s comments = strip (s.takeWhile (fun c => c ∉ comments)) := by
  unfold stripInlineComments
  congr 1
  induction comments generalizing s with
  | nil =>
    rw [List.foldl_nil]
    induction s with
    | nil => rfl
    | cons c s ih => rw [List.takeWhile_cons_of_pos (by simp), ← ih]
  | cons d ds ih =>
    rw [List.foldl_cons, splitOn_head, ih]
    clear ih
    induction s with
    | nil => rfl
    | cons c s ih =>
      by_cases h : c = d
      · simp [h]
      · rw [List.takeWhile_cons_of_pos (by simpa using h)]
        by_cases h2 : c ∈ ds
        · rw [List.takeWhile_cons_of_neg (by simpa using h2), List.takeWhile_cons_of_neg (by simp [h2])]
        · rw [List.takeWhile_cons_of_pos (by simpa using h2), List.takeWhile_cons_of_pos (by simp [h, h2]), ih]

end Eprem.Config
