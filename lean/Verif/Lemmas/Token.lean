import Verif.Spec.Grammar
import Verif.Lemmas.Reduce
import Mathlib.Tactic.FieldSimp
import Mathlib.Tactic.NormNum

namespace Eprem.Symbolic

/-! ### character classes -/

theorem digit_not_letter {c : Char} (h : isDigit c = true) : isLetter c = false := by
  simp only [isDigit, isLetter, decide_eq_true_eq, decide_eq_false_iff_not] at *
  rintro (h1 | h1 | h1 | h1)
  · have := h1.1; simp at *; omega
  · have := h1.1; simp at *; omega
  · subst h1; simp at h
  · subst h1; simp at h

theorem digit_ne {c : Char} (h : isDigit c = true) :
    c ≠ '-' ∧ c ≠ '+' ∧ c ≠ '.' ∧ c ≠ '/' ∧ c ≠ 'e' ∧ c ≠ 'E' ∧ c ≠ '^' ∧ c ≠ '(' ∧ c ≠ ')' ∧ c ≠ '*' ∧ c ≠ 's' := by
  refine ⟨?_, ?_, ?_, ?_, ?_, ?_, ?_, ?_, ?_, ?_, ?_⟩ <;> rintro rfl <;> simp [isDigit] at h

theorem letter_ne {c : Char} (h : isLetter c = true) :
    c ≠ '-' ∧ c ≠ '+' ∧ c ≠ '.' ∧ c ≠ '/' ∧ c ≠ '^' ∧ c ≠ '(' ∧ c ≠ ')' ∧ c ≠ '*' ∧ c ≠ ' ' := by
  refine ⟨?_, ?_, ?_, ?_, ?_, ?_, ?_, ?_, ?_⟩ <;> rintro rfl <;> simp [isLetter] at h

theorem digit_not_space {c : Char} (h : isDigit c = true) : isSpace c = false := by
  simp only [isDigit, isSpace, decide_eq_true_eq, decide_eq_false_iff_not] at *
  rintro (h1 | h1 | h1)
  · subst h1; simp at h
  · simp at h; omega
  · simp at h; omega

theorem letter_not_space {c : Char} (h : isLetter c = true) : isSpace c = false := by
  simp only [isLetter, isSpace, decide_eq_true_eq, decide_eq_false_iff_not] at *
  rintro (h1 | h1 | h1)
  · subst h1; simp at h
  · rcases h with h | h | h | h
    · simp at h; omega
    · simp at h; omega
    · subst h; simp at h1
    · subst h; simp at h1
  · rcases h with h | h | h | h
    · simp at h; omega
    · simp at h; omega
    · subst h; simp at h1
    · subst h; simp at h1

theorem letter_not_digit {c : Char} (h : isLetter c = true) : isDigit c = false := by
  by_contra hc
  rw [digit_not_letter (by simpa using hc)] at h
  simp at h

/-! ### lists -/

theorem takeWhile_append_stop {p : Char → Bool} {a b : Str} (ha : ∀ c ∈ a, p c = true)
    (hb : ∀ c, b.head? = some c → p c = false) :
    (a ++ b).takeWhile p = a ∧ (a ++ b).dropWhile p = b := by
  induction a with
  | nil =>
    cases b with
    | nil => simp
    | cons c b => simp [hb c (by simp)]
  | cons x a ih =>
    have := ih (fun c hc => ha c (by simp [hc]))
    simp [ha x (by simp), this]

theorem foldl_digits (l : Str) : ∀ acc, l.foldl (fun acc c => 10 * acc + digitVal c) acc =
    acc * 10 ^ l.length + l.foldl (fun acc c => 10 * acc + digitVal c) 0 := by
  induction l with
  | nil => simp
  | cons x l ih =>
    intro acc
    simp only [List.foldl_cons, List.length_cons]
    rw [ih, ih (10 * 0 + digitVal x)]
    ring

theorem natVal_append (a b : Str) : natVal (a ++ b) = natVal a * 10 ^ b.length + natVal b := by
  unfold natVal; rw [List.foldl_append, foldl_digits]

theorem Digits.head {ds : Str} (h : Digits ds) : ∃ c r, ds = c :: r ∧ isDigit c = true := by
  cases ds with
  | nil => exact absurd rfl h.1
  | cons c r => exact ⟨c, r, rfl, h.2 c (by simp)⟩

/-! ### numbers -/

/-- the token of a written number -/
def Lit.toNum : Lit → Num
  | .int neg ds => .dec neg ds [] false []
  | .frac neg ds d => .frac neg ds [d]
  | .dec neg ds fs => .dec neg ds fs false []
  | .sci neg ds fs eneg es => .dec neg ds fs eneg es

theorem natVal_nil : natVal [] = 0 := rfl

theorem toNum_value {l : Lit} (h : l.Ok) : l.toNum.value = .ok l.value := by
  cases l with
  | int neg ds => simp [Lit.toNum, Num.value, Lit.value, natVal_nil]
  | frac neg ds d =>
    have hd : digitVal d ≠ 0 := by
      obtain ⟨_, h1, h2⟩ := h
      intro h0
      apply h2
      apply char_toNat_inj
      simp [isDigit, digitVal] at *
      omega
    simp [Lit.toNum, Num.value, Lit.value, natVal, hd]
  | dec neg ds fs =>
    have : (10 : Rat) ^ fs.length ≠ 0 := by positivity
    simp only [Lit.toNum, Num.value, Lit.value, natVal_append, natVal_nil]
    congr 2
    push_cast
    simp
    field_simp
  | sci neg ds fs eneg es =>
    have : (10 : Rat) ^ fs.length ≠ 0 := by positivity
    have : (10 : Rat) ^ natVal es ≠ 0 := by positivity
    simp only [Lit.toNum, Num.value, Lit.value, natVal_append]
    congr 2
    push_cast
    cases eneg <;> simp <;> field_simp

/-- what may follow a number so that it ends there -/
structure NumStop (r : Str) : Prop where
  head : ∀ c, r.head? = some c → isDigit c = false ∧ c ≠ '.'
  slash : ∀ d r', r = '/' :: d :: r' → isDigit d = false
  noexp : takeExp r = none

theorem takeSign_signText (neg : Bool) (c : Char) (r : Str) (h1 : c ≠ '-') (h2 : c ≠ '+') :
    takeSign (signText neg ++ c :: r) = (neg, c :: r) := by
  cases neg with
  | true => simp [signText, takeSign]
  | false =>
    simp only [signText, Bool.false_eq_true, if_false, List.nil_append, takeSign]
    split
    · simp_all
    · simp_all
    · rfl

theorem startsNumber_digit (c : Char) (r : Str) (h : isDigit c = true) : startsNumber (c :: r) = true := by
  cases r <;> simp [startsNumber, h]

/-- sign and digits in front of anything that is not a digit -/
theorem scan_int (neg : Bool) (ds r : Str) (h : Digits ds) (hr : ∀ c, r.head? = some c → isDigit c = false) :
    takeSign (signText neg ++ ds ++ r) = (neg, ds ++ r) ∧ startsNumber (ds ++ r) = true ∧
    (ds ++ r).takeWhile isDigit = ds ∧ (ds ++ r).dropWhile isDigit = r := by
  obtain ⟨c, t, rfl, hc⟩ := h.head
  have hne := digit_ne hc
  refine ⟨?_, ?_, takeWhile_append_stop h.2 hr⟩
  · simpa using takeSign_signText neg c (t ++ r) hne.1 hne.2.1
  · exact startsNumber_digit c (t ++ r) hc

theorem takeExp_text (eneg : Bool) (es r : Str) (h : Digits es) (hr : ∀ c, r.head? = some c → isDigit c = false) :
    takeExp ('e' :: (signText eneg ++ es) ++ r) = some (eneg, es, r) := by
  obtain ⟨h1, _, h3, h4⟩ := scan_int eneg es r h hr
  have : 'e' :: (signText eneg ++ es) ++ r = 'e' :: (signText eneg ++ es ++ r) := by simp
  rw [this]
  simp only [takeExp, h1, h3, h4]
  simp [h.1]

theorem noexp_of_head {r : Str} (h : ∀ c, r.head? = some c → c ≠ 'e' ∧ c ≠ 'E') : takeExp r = none := by
  cases r with
  | nil => rfl
  | cons c r =>
    have := h c (by simp)
    simp [takeExp, this]

theorem takeFrac_stop {r : Str} (h : ∀ c, r.head? = some c → c ≠ '.') : takeFrac r = ([], r) := by
  unfold takeFrac
  split
  · rename_i s
    exact absurd rfl (h '.' (by simp))
  · rfl

theorem slash_plain (r : Str) : takeFrac ('/' :: r) = ([], '/' :: r) ∧ takeExp ('/' :: r) = none ∧
    startsLetter ('/' :: r) = false :=
  ⟨takeFrac_stop (by simp), noexp_of_head (by simp), by simp [startsLetter, isLetter]⟩

theorem matchRational_dec (neg : Bool) (ds r : Str) (h : Digits ds)
    (hr : ∀ c, r.head? = some c → isDigit c = false) (hs : ∀ d r', r = '/' :: d :: r' → isDigit d = false) :
    matchRational (signText neg ++ ds ++ r) =
      match takeExp (takeFrac r).2 with
      | some (eneg, e, r2) => some (.dec neg ds (takeFrac r).1 eneg e, r2)
      | none => some (.dec neg ds (takeFrac r).1 false [], (takeFrac r).2) := by
  obtain ⟨h1, h2, h3, h4⟩ := scan_int neg ds r h hr
  unfold matchRational
  rw [h1]
  simp only [h2, h3, h4, if_true]
  split
  · rename_i d r'
    rw [if_neg (by rw [hs d r' rfl]; simp)]
    obtain ⟨e1, e2, _⟩ := slash_plain (d :: r')
    rw [e1]
    simp only [e2]
  · rfl

theorem matchRational_text {l : Lit} (h : l.Ok) (r : Str) (hr : NumStop r) :
    matchRational (l.text ++ r) = some (l.toNum, r) := by
  cases l with
  | int neg ds =>
    have hf : takeFrac r = ([], r) := takeFrac_stop (fun c hc => (hr.head c hc).2)
    simp only [Lit.text, Lit.toNum]
    rw [matchRational_dec neg ds r h (fun c hc => (hr.head c hc).1) hr.slash, hf]
    simp [hr.noexp]
  | frac neg ds d =>
    obtain ⟨hds, hd, _⟩ := h
    obtain ⟨h1, h2, h3, h4⟩ := scan_int neg ds ('/' :: d :: r) hds (by simp [isDigit])
    have : (Lit.frac neg ds d).text ++ r = signText neg ++ ds ++ '/' :: d :: r := by simp [Lit.text]
    rw [this]
    unfold matchRational
    rw [h1]
    simp only [h2, h3, h4, if_true, hd, Lit.toNum]
  | dec neg ds fs =>
    have : (Lit.dec neg ds fs).text ++ r = signText neg ++ ds ++ ('.' :: (fs ++ r)) := by simp [Lit.text]
    rw [this, matchRational_dec neg ds _ h.1 (by simp [isDigit]) (by simp)]
    have := takeWhile_append_stop h.2.2 (fun c hc => (hr.head c hc).1)
    simp only [takeFrac, this, hr.noexp, Lit.toNum]
  | sci neg ds fs eneg es =>
    obtain ⟨hd, hf, he⟩ := h
    have ht : (Lit.sci neg ds fs eneg es).text ++ r =
        signText neg ++ ds ++ ('.' :: (fs ++ ('e' :: (signText eneg ++ es) ++ r))) := by simp [Lit.text]
    rw [ht, matchRational_dec neg ds _ hd (by simp [isDigit]) (by simp)]
    have := takeWhile_append_stop (b := 'e' :: (signText eneg ++ es) ++ r) hf.2 (by simp [isDigit])
    simp only [takeFrac, this, Lit.toNum]
    rw [takeExp_text eneg es r he (fun c hc => (hr.head c hc).1)]

/-- a number in front of anything that is not a number: what the pattern
`variable` takes as a coefficient -/
theorem matchCoefficient_text {l : Lit} (h : l.Ok) (r : Str) (hr : NumStop r) :
    matchCoefficient (l.text ++ r) =
      if startsLetter r then some (some l.toNum, r)
      else match l with
        | .sci neg ds fs eneg es => some (some (.dec neg ds fs false []), 'e' :: (signText eneg ++ es) ++ r)
        | _ => none := by
  have aux : ∀ (neg : Bool) (ds r : Str), Digits ds →
      (∀ c, r.head? = some c → isDigit c = false) → (∀ d r', r = '/' :: d :: r' → isDigit d = false) →
      matchCoefficient (signText neg ++ ds ++ r) =
        match takeExp (takeFrac r).2 with
        | some (eneg, e, r2) =>
          if startsLetter r2 then some (some (.dec neg ds (takeFrac r).1 eneg e), r2)
          else if startsLetter (takeFrac r).2 then some (some (.dec neg ds (takeFrac r).1 false []), (takeFrac r).2)
          else none
        | none =>
          if startsLetter (takeFrac r).2 then some (some (.dec neg ds (takeFrac r).1 false []), (takeFrac r).2)
          else none := by
    intro neg ds r h hr hs
    obtain ⟨h1, h2, h3, h4⟩ := scan_int neg ds r h hr
    unfold matchCoefficient
    rw [h1]
    simp only [h2, h3, h4, if_true]
    split
    · rename_i r0
      obtain ⟨e1, e2, e3⟩ := slash_plain r0
      have hd : r0.takeWhile isDigit = [] := by
        cases r0 with
        | nil => rfl
        | cons d r' => simp [hs d r' rfl]
      rw [hd, e1]
      simp only [e2, e3]
      simp
    · rfl
  cases l with
  | int neg ds =>
    have hf : takeFrac r = ([], r) := takeFrac_stop (fun c hc => (hr.head c hc).2)
    simp only [Lit.text, Lit.toNum]
    rw [aux neg ds r h (fun c hc => (hr.head c hc).1) hr.slash, hf]
    simp [hr.noexp]
  | frac neg ds d =>
    obtain ⟨hds, hd, _⟩ := h
    obtain ⟨h1, h2, h3, h4⟩ := scan_int neg ds ('/' :: ([d] ++ r)) hds (by simp [isDigit])
    have : (Lit.frac neg ds d).text ++ r = signText neg ++ ds ++ ('/' :: ([d] ++ r)) := by simp [Lit.text]
    rw [this]
    have h5 := takeWhile_append_stop (a := [d]) (b := r) (p := isDigit) (by simpa using hd) (fun c hc => (hr.head c hc).1)
    unfold matchCoefficient
    rw [h1]
    simp only [h2, h3, h4, if_true, Lit.toNum, h5]
    simp
  | dec neg ds fs =>
    have : (Lit.dec neg ds fs).text ++ r = signText neg ++ ds ++ ('.' :: (fs ++ r)) := by simp [Lit.text]
    rw [this, aux neg ds _ h.1 (by simp [isDigit]) (by simp)]
    have := takeWhile_append_stop h.2.2 (fun c hc => (hr.head c hc).1)
    simp only [takeFrac, this, hr.noexp, Lit.toNum]
  | sci neg ds fs eneg es =>
    obtain ⟨hd, hf, he⟩ := h
    have ht : (Lit.sci neg ds fs eneg es).text ++ r =
        signText neg ++ ds ++ ('.' :: (fs ++ ('e' :: (signText eneg ++ es) ++ r))) := by simp [Lit.text]
    rw [ht, aux neg ds _ hd (by simp [isDigit]) (by simp)]
    have := takeWhile_append_stop (b := 'e' :: (signText eneg ++ es) ++ r) hf.2 (by simp [isDigit])
    simp only [takeFrac, this, Lit.toNum]
    rw [takeExp_text eneg es r he (fun c hc => (hr.head c hc).1)]
    have hl : startsLetter ('e' :: (signText eneg ++ es) ++ r) = true := by simp [startsLetter, isLetter]
    simp only [hl, if_true]

end Eprem.Symbolic
