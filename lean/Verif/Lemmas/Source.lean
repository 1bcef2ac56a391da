import Verif.Model.Source
import Verif.Spec.Source
import Verif.Lemmas.Text

/-!
# Lemmas about the patterns of source files
-/

namespace Eprem.Config

open Eprem Eprem.Symbolic

theorem eat_eq {lit s r : Str} : eat lit s = some r ↔ s = lit ++ r := by
  unfold eat
  constructor
  · intro h
    by_cases hp : lit.isPrefixOf s = true
    · rw [if_pos hp] at h
      obtain ⟨t, rfl⟩ := List.isPrefixOf_iff_prefix.1 hp
      simp at h; rw [h]
    · rw [if_neg hp] at h; cases h
  · rintro rfl
    rw [if_pos (List.isPrefixOf_iff_prefix.2 (List.prefix_append _ _))]
    simp

theorem eat_none {lit s : Str} : eat lit s = none ↔ ∀ r, s ≠ lit ++ r := by
  constructor
  · intro h r e
    rw [eat_eq.2 e] at h; cases h
  · intro h
    cases hs : eat lit s with
    | none => rfl
    | some r => exact absurd (eat_eq.1 hs) (h r)

theorem takeWhile_pad {p : Char → Bool} {a r : Str} (ha : ∀ c ∈ a, p c = true) (hr : ∀ c, r.head? = some c → p c = false) :
    (a ++ r).takeWhile p = a := by
  induction a with
  | nil =>
    cases r with
    | nil => rfl
    | cons c r => simp [hr c rfl]
  | cons c a ih => simp [ha c (by simp), ih (fun d hd => ha d (by simp [hd]))]

theorem dropWhile_pad {p : Char → Bool} {a r : Str} (ha : ∀ c ∈ a, p c = true) (hr : ∀ c, r.head? = some c → p c = false) :
    (a ++ r).dropWhile p = r := by
  rw [dropWhile_all ha, dropWhile_head hr]

theorem takeWhile_forall (p : Char → Bool) (s : Str) : ∀ c ∈ s.takeWhile p, p c = true := by
  induction s with
  | nil => simp
  | cons d s ih =>
    intro c hc
    by_cases hd : p d = true
    · rw [List.takeWhile_cons_of_pos hd] at hc
      rcases List.mem_cons.1 hc with rfl | hc
      · exact hd
      · exact ih c hc
    · rw [List.takeWhile_cons_of_neg hd] at hc; simp at hc

theorem dropWhile_not (p : Char → Bool) (s : Str) : ∀ c, (s.dropWhile p).head? = some c → p c = false := by
  induction s with
  | nil => simp
  | cons d s ih =>
    intro c hc
    by_cases hd : p d = true
    · rw [List.dropWhile_cons_of_pos hd] at hc; exact ih c hc
    · rw [List.dropWhile_cons_of_neg hd] at hc
      simp at hc; subst hc; simpa using hd

theorem eatSome_eq {p : Char → Bool} {s a r : Str} : eatSome p s = some (a, r) ↔
    s = a ++ r ∧ a ≠ [] ∧ (∀ c ∈ a, p c = true) ∧ ∀ c, r.head? = some c → p c = false := by
  constructor
  · intro h
    unfold eatSome at h
    by_cases he : (s.takeWhile p).isEmpty = true
    · rw [if_pos he] at h; cases h
    · rw [if_neg he] at h
      simp only [Option.some.injEq, Prod.mk.injEq] at h
      obtain ⟨rfl, rfl⟩ := h
      exact ⟨List.takeWhile_append_dropWhile.symm, by simpa using he, takeWhile_forall p s, dropWhile_not p s⟩
  · rintro ⟨rfl, h1, h2, h3⟩
    unfold eatSome
    rw [takeWhile_pad h2 h3, dropWhile_pad h2 h3, if_neg (by simpa using h1)]

theorem eatEnd_eq {s r : Str} : eatEnd s = some r ↔ s = r ++ ");".toList ∧ '\n' ∉ r := by
  constructor
  · intro h
    unfold eatEnd at h
    split at h
    next t ht =>
      by_cases hn : '\n' ∈ t
      · rw [if_pos hn] at h; cases h
      · rw [if_neg hn] at h
        obtain rfl := Option.some.inj h
        have := congrArg List.reverse ht
        rw [List.reverse_reverse] at this
        exact ⟨by simpa using this, by simpa using hn⟩
    next => cases h
  · rintro ⟨rfl, hn⟩
    have : (r ++ ");".toList).reverse = ';' :: ')' :: r.reverse := by simp
    unfold eatEnd
    rw [this]
    show (if '\n' ∈ r.reverse then none else some r.reverse.reverse) = _
    rw [if_neg (by simpa using hn), List.reverse_reverse]

theorem eatMode_eq {s m r : Str} : eatMode readModes s = some (m, r) ↔ m ∈ readModes ∧ s = m ++ ("(".toList ++ r) := by
  have key : ∀ (ms : List Str), eatMode ms s = some (m, r) → m ∈ ms ∧ s = m ++ ("(".toList ++ r) := by
    intro ms
    induction ms with
    | nil => intro h; cases h
    | cons n ms ih =>
      intro h
      unfold eatMode at h
      cases he : eat (n ++ ['(']) s with
      | none => rw [he] at h; exact ⟨List.mem_cons_of_mem _ (ih h).1, (ih h).2⟩
      | some t =>
        rw [he] at h
        simp only [Option.some.injEq, Prod.mk.injEq] at h
        obtain ⟨rfl, rfl⟩ := h
        exact ⟨by simp, by rw [eat_eq.1 he]; simp⟩
  refine ⟨key _, ?_⟩
  rintro ⟨hm, rfl⟩
  simp only [readModes, List.mem_cons, List.not_mem_nil, or_false] at hm
  rcases hm with rfl | rfl | rfl | rfl <;> simp [readModes, eatMode, eat, List.isPrefixOf]

theorem not_space_of_word {c : Char} (h : isWord c = true) : isSpace c = false := by
  simp only [isWord, isDigit, isSpace, Bool.or_eq_true, decide_eq_true_eq, decide_eq_false_iff_not] at h ⊢
  rintro (rfl | h2 | h2)
  · revert h; decide
  · have e9 : 'a'.toNat = 97 := rfl
    have e1 : 'z'.toNat = 122 := rfl
    have e2 : 'A'.toNat = 65 := rfl
    have e3 : 'Z'.toNat = 90 := rfl
    have e4 : '0'.toNat = 48 := rfl
    have e5 : '9'.toNat = 57 := rfl
    rcases h with h | h | h | rfl
    · omega
    · omega
    · omega
    · revert h2; decide
  · have e9 : 'a'.toNat = 97 := rfl
    have e2 : 'A'.toNat = 65 := rfl
    have e4 : '0'.toNat = 48 := rfl
    rcases h with h | h | h | rfl
    · omega
    · omega
    · omega
    · revert h2; decide

theorem word_of_digit {c : Char} (h : isDigit c = true) : isWord c = true := by simp [isWord, h]

theorem word_of_name {c : Char} (h : isName c = true) : isWord c = true := by
  simp only [isName, isWord, Bool.or_eq_true, decide_eq_true_eq] at h ⊢
  tauto

theorem strip_body {pre body post : Str} (h1 : Spaces pre) (h2 : Spaces post)
    (hh : ∀ c, body.head? = some c → isSpace c = false) (hl : ∀ c, body.getLast? = some c → isSpace c = false) :
    strip (pre ++ body ++ post) = body := by
  rw [strip_eq]; exact stripBy_pad h1 h2 ⟨hh, hl⟩

theorem strip_parts (line : Str) : ∃ pre post, Spaces pre ∧ Spaces post ∧ line = pre ++ strip line ++ post ∧
    (∀ c, (strip line).head? = some c → isSpace c = false) ∧ ∀ c, (strip line).getLast? = some c → isSpace c = false := by
  obtain ⟨a, b, ha, hb, h1, h2⟩ := stripBy_split isSpace line
  exact ⟨a, b, ha, hb, h1, h2.1, h2.2⟩

end Eprem.Config
