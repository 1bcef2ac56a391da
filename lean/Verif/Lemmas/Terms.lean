import Verif.Model.Terms
import Verif.Spec.Terms
import Verif.Lemmas.Parse

/-!
# Whole-text matching of written terms
-/

namespace Eprem.Symbolic

theorem stop_nil : Stop ([] : Str) := ⟨by simp, by simp⟩

theorem numStop_nil : NumStop ([] : Str) := stop_nil.numStop

theorem numStop_paren (r : Str) : NumStop ('(' :: r) := by
  refine ⟨fun c hc => ?_, fun d r' e => ?_, noexp_of_head fun c hc => ?_⟩
  · simp at hc; subst hc; decide
  · simp at e
  · simp at hc; subst hc; decide

/-- A rational that leaves nothing behind is a full match. -/
theorem fullRational_of_match {s : Str} {n : Num} (h : matchRational s = some (n, [])) :
    fullRational s = some n := by
  unfold matchRational at h
  unfold fullRational
  cases hs : takeSign s with
  | mk neg s1 =>
    simp only [hs] at h ⊢
    by_cases hn : startsNumber s1 = true
    · simp only [hn, if_true] at h ⊢
      generalize s1.dropWhile isDigit = r at h ⊢
      split at h
      · rename_i d r'
        split at h
        · rename_i hd
          simp only [Option.some.injEq, Prod.mk.injEq] at h
          obtain ⟨rfl, rfl⟩ := h
          simp [hd]
        · simp at h
      · rename_i hno
        cases hf : takeFrac r with
        | mk f r1 =>
          simp only [hf] at h
          have hslash : ∀ d, r = '/' :: d → r1 = r ∧ takeExp r1 = none := by
            rintro d rfl
            have := slash_plain d
            rw [hf] at this
            simp only [Prod.mk.injEq] at this
            obtain ⟨⟨_, e⟩, h2, _⟩ := this
            exact ⟨e, e ▸ h2⟩
          cases he : takeExp r1 with
          | none =>
            simp only [he, Option.some.injEq, Prod.mk.injEq] at h
            obtain ⟨rfl, rfl⟩ := h
            split
            · rename_i d
              have := (hslash d rfl).1
              simp at this
            · simp only [hf, he]; simp
          | some x =>
            obtain ⟨eneg, e, r2⟩ := x
            simp only [he, Option.some.injEq, Prod.mk.injEq] at h
            obtain ⟨rfl, rfl⟩ := h
            split
            · rename_i d
              have := (hslash d rfl).2
              rw [he] at this; simp at this
            · simp only [hf, he]; simp
    · simp [hn] at h

/-- A full match of a rational leaves at most digits behind in `match` mode. -/
theorem fullRational_matches {s : Str} {n : Num} (h : fullRational s = some n) :
    ∃ m r, matchRational s = some (m, r) ∧ ∀ c ∈ r, isDigit c = true := by
  unfold fullRational at h
  unfold matchRational
  cases hs : takeSign s with
  | mk neg s1 =>
    simp only [hs] at h ⊢
    by_cases hn : startsNumber s1 = true
    · simp only [hn, if_true] at h ⊢
      generalize s1.dropWhile isDigit = r at h ⊢
      split at h
      · rename_i d
        cases d with
        | nil => simp at h
        | cons d ds =>
          simp only [List.isEmpty_cons, Bool.not_false, List.all_cons, Bool.true_and, Bool.and_eq_true] at h
          split at h
          · rename_i hd
            refine ⟨.frac neg (s1.takeWhile isDigit) [d], ds, ?_, ?_⟩
            · simp only [hd.1, if_true]
            · simpa using hd.2
          · simp at h
      · rename_i hno
        split
        · rename_i d r'
          exact absurd rfl (hno _)
        · cases hf : takeFrac r with
          | mk f r1 =>
            simp only [hf] at h ⊢
            cases he : takeExp r1 with
            | none =>
              simp only [he] at h ⊢
              split at h
              · rename_i hr
                exact ⟨_, _, rfl, by simp [List.isEmpty_iff.1 hr]⟩
              · simp at h
            | some x =>
              obtain ⟨eneg, e, r2⟩ := x
              simp only [he] at h ⊢
              split at h
              · rename_i hr
                exact ⟨_, _, rfl, by simp [List.isEmpty_iff.1 hr]⟩
              · simp at h
    · simp [hn] at h

theorem fullRational_text {l : Lit} (h : l.Ok) : fullRational l.text = some l.toNum := by
  have := matchRational_text h [] numStop_nil
  rw [List.append_nil] at this
  exact fullRational_of_match this

theorem fullExponent_text {e : Option Lit} (he : OptOk e) :
    fullExponent (expText e) = some (e.map Lit.toNum) := by
  cases e with
  | none => rfl
  | some l => simp [expText, fullExponent, fullRational_text he.1]

theorem notCaret_of_digit {c : Char} (h : isDigit c = true) : notCaret c = true := by
  unfold notCaret
  by_contra hc
  simp at hc
  subst hc
  simp [isDigit] at h

theorem notCaret_of_letter {c : Char} (h : isLetter c = true) : notCaret c = true := by
  unfold notCaret
  by_contra hc
  simp at hc
  subst hc
  simp [isLetter] at h

theorem notCaret_lit {l : Lit} (h : l.Ok) : ∀ c ∈ l.text, notCaret c = true := by
  intro c hc
  rcases lit_chars h c hc with h | h | h | h | h
  · exact notCaret_of_digit h
  all_goals subst h; decide

theorem notCaret_coef {c : Option Lit} (h : OptOk c) : ∀ x ∈ coefText c, notCaret x = true := by
  cases c with
  | none => simp [coefText]
  | some l => exact notCaret_lit h.1

theorem split_caret {a : Str} (ha : ∀ x ∈ a, notCaret x = true) (e : Option Lit) :
    (a ++ expText e).takeWhile notCaret = a ∧ (a ++ expText e).dropWhile notCaret = expText e := by
  refine takeWhile_append_stop ha ?_
  intro c hc
  cases e with
  | none => simp [expText] at hc
  | some l => simp [expText] at hc; subst hc; decide

theorem fullConstant_text {l : Lit} {e : Option Lit} (hl : l.Ok) (he : OptOk e) :
    fullConstant (l.text ++ expText e) = some (l.toNum, e.map Lit.toNum) := by
  obtain ⟨h1, h2⟩ := split_caret (notCaret_lit hl) e
  unfold fullConstant
  rw [h1, h2, fullRational_text hl, fullExponent_text he]

/-- The number in front of a group, on its own. -/
theorem fullSimplex_lit {l : Lit} (hl : l.Ok) :
    fullSimplex l.text = some (.ok (mkOperand true (fl l.value) one 1)) := by
  have := fullConstant_text (e := none) hl trivial
  simp only [expText, List.append_nil, Option.map_none] at this
  unfold fullSimplex
  rw [this]
  simp [buildConstant, toNum_value hl, numOr1, fracPow, bind, Except.bind, pure, Except.pure]

theorem matchRational_not_number {s : Str} (h1 : takeSign s = (false, s)) (h2 : startsNumber s = false) :
    matchRational s = none := by
  unfold matchRational
  rw [h1]; simp [h2]

theorem letter_start {x : Char} (hx : isLetter x = true) (xs : Str) :
    takeSign (x :: xs) = (false, x :: xs) ∧ startsNumber (x :: xs) = false := by
  have := letter_ne hx
  constructor
  · unfold takeSign; split <;> simp_all
  · have h1 := letter_not_digit hx
    have h2 := (letter_ne hx).2.2.1
    cases xs <;> simp [startsNumber, h1, h2]

theorem fullRational_none {s : Str} (h : matchRational s = none) : fullRational s = none := by
  cases hf : fullRational s with
  | none => rfl
  | some n =>
    obtain ⟨m, r, h', _⟩ := fullRational_matches hf
    rw [h] at h'; simp at h'

theorem fullRational_none_of {s r : Str} {m : Num} (h : matchRational s = some (m, r)) {c : Char}
    (hc : c ∈ r) (hd : isDigit c = false) : fullRational s = none := by
  cases hf : fullRational s with
  | none => rfl
  | some n =>
    obtain ⟨m', r', h', hr⟩ := fullRational_matches hf
    rw [h] at h'
    simp only [Option.some.injEq, Prod.mk.injEq] at h'
    have := hr c (h'.2 ▸ hc)
    rw [hd] at this; simp at this

/-- A written name is a full match of the pattern `variable` only. -/
theorem fullSimplex_name {c : Option Lit} {ls ds : Str} {e : Option Lit} (hne : ls ≠ [])
    (hls : ∀ x ∈ ls, isLetter x = true) (hds : ∀ x ∈ ds, isDigit x = true)
    (hc : OptOk c) (he : OptOk e)
    (hno : ∀ l, c = some l → LooksLikeExp ls ds → ∃ n s d, l = .frac n s d) :
    fullSimplex (coefText c ++ (ls ++ ds) ++ expText e) =
      some (.ok ⟨true, litOr1 c, ls ++ ds, litOr1 e⟩) := by
  have hb : ∀ r, buildVariable ⟨c.map Lit.toNum, ls ++ ds, e.map Lit.toNum, r⟩ =
      .ok ⟨true, litOr1 c, ls ++ ds, litOr1 e⟩ := by
    intro r
    unfold buildVariable
    simp only [numOr1_map c hc, numOr1_map e he, bind, Except.bind]
    rw [mkOperand_eq (litOr1_ne_zero hc) (by simp [hne]) (litOr1_ne_zero he)]
    rfl
  have hpre : ∀ x ∈ coefText c ++ (ls ++ ds), notCaret x = true := by
    intro x hx
    simp only [List.mem_append] at hx
    rcases hx with h | h | h
    · exact notCaret_coef hc x h
    · exact notCaret_of_letter (hls x h)
    · exact notCaret_of_digit (hds x h)
  obtain ⟨hw1, _⟩ := split_caret hpre e
  have hstop : ExpStop e [] := stop_nil.exp e
  have hscan := name_scan (r := expText e) hls hds (by
    have := exp_head e hstop
    rwa [List.append_nil] at this)
  obtain ⟨x, xs, rfl⟩ := List.exists_cons_of_ne_nil hne
  have hx := hls x (by simp)
  have hcoef : matchCoefficient (coefText c ++ (x :: xs ++ ds) ++ expText e) =
      some (c.map Lit.toNum, x :: xs ++ (ds ++ expText e)) := by
    cases c with
    | none =>
      obtain ⟨h1, h2⟩ := letter_start hx (xs ++ (ds ++ expText e))
      have ht : coefText none ++ (x :: xs ++ ds) ++ expText e = x :: (xs ++ (ds ++ expText e)) := by
        simp [coefText]
      rw [ht]
      unfold matchCoefficient
      rw [h1]
      simp [h2, startsLetter, hx]
    | some l =>
      have h := (coefficient_name (r := expText e) hc.1 hne hls hds (hno l rfl) (by
        have := exp_head' e hstop
        rwa [List.append_nil] at this)).1
      have ht : coefText (some l) ++ (x :: xs ++ ds) ++ expText e =
          l.text ++ (x :: xs ++ (ds ++ expText e)) := by simp [coefText]
      rw [ht, h]; rfl
  have hrat : fullRational (coefText c ++ (x :: xs ++ ds)) = none := by
    cases c with
    | none =>
      obtain ⟨h1, h2⟩ := letter_start hx (xs ++ ds)
      exact fullRational_none (matchRational_not_number h1 h2)
    | some l =>
      have h := (coefficient_name (r := []) hc.1 hne hls hds (hno l rfl) (by simp)).2
      rw [List.append_nil] at h
      exact fullRational_none_of h (c := x) (by simp) (letter_not_digit hx)
  have hconst : fullConstant (coefText c ++ (x :: xs ++ ds) ++ expText e) = none := by
    unfold fullConstant
    rw [hw1, hrat]
  have hvar : fullVariable (coefText c ++ (x :: xs ++ ds) ++ expText e) =
      some ⟨c.map Lit.toNum, x :: xs ++ ds, e.map Lit.toNum, []⟩ := by
    unfold fullVariable
    rw [hcoef]
    obtain ⟨e1, e2, e3, e4⟩ := hscan
    simp only [e1, e2, e3, e4, fullExponent_text he]
  unfold fullSimplex
  rw [hconst, hvar]
  simp only [Option.map_some]
  rw [hb]

/-! ### groups -/

theorem paren_start (r : Str) : takeSign ('(' :: r) = (false, '(' :: r) ∧ startsNumber ('(' :: r) = false ∧
    startsLetter ('(' :: r) = false := by
  refine ⟨?_, ?_, by simp [startsLetter, isLetter]⟩
  · unfold takeSign; split <;> simp_all
  · cases r <;> simp [startsNumber, isDigit]

theorem takeWhile_prefix {p : Char → Bool} {a : Str} (ha : ∀ x ∈ a, p x = true) {c : Char} (hc : p c = true)
    (b : Str) : ∃ b', (a ++ c :: b).takeWhile p = a ++ c :: b' := by
  induction a with
  | nil => exact ⟨b.takeWhile p, by simp [hc]⟩
  | cons x a ih =>
    obtain ⟨b', h⟩ := ih (fun y hy => ha y (by simp [hy]))
    refine ⟨b', ?_⟩
    rw [List.cons_append, List.takeWhile_cons, ha x (by simp), if_pos rfl, h]
    simp

/-- The whole text of a group is not a simple term. -/
theorem fullSimplex_group {k : Option Lit} (hk : OptOk k) (r : Str) :
    fullSimplex (coefText k ++ '(' :: r) = none := by
  have hconst : fullConstant (coefText k ++ '(' :: r) = none := by
    obtain ⟨b, hb⟩ := takeWhile_prefix (notCaret_coef hk) (c := '(') (by decide) r
    have : fullRational (coefText k ++ '(' :: b) = none := by
      cases k with
      | none =>
        obtain ⟨h1, h2, _⟩ := paren_start b
        exact fullRational_none (matchRational_not_number h1 h2)
      | some l =>
        exact fullRational_none_of (matchRational_text hk.1 _ (numStop_paren b)) (c := '(') (by simp) (by decide)
    unfold fullConstant
    rw [hb, this]
  have hvar : fullVariable (coefText k ++ '(' :: r) = none := by
    unfold fullVariable
    cases k with
    | none =>
      obtain ⟨h1, h2, h3⟩ := paren_start r
      have : matchCoefficient ('(' :: r) = none := by
        unfold matchCoefficient; rw [h1]; simp [h2, h3]
      simp only [coefText, List.nil_append, this]
    | some l =>
      have hm := matchCoefficient_text hk.1 _ (numStop_paren r)
      simp only [coefText]
      rw [hm, (paren_start r).2.2]
      simp only [Bool.false_eq_true, if_false]
      cases l with
      | int => rfl
      | frac => rfl
      | dec => rfl
      | sci neg ds fs eneg es =>
        simp only
        cases eneg with
        | true =>
          have e1 : ('e' :: (signText true ++ es) ++ '(' :: r).dropWhile isLetter = '-' :: (es ++ '(' :: r) := by
            simp [signText, isLetter, List.dropWhile]
          rw [e1]
          have e2 : ('-' :: (es ++ '(' :: r)).dropWhile isDigit = '-' :: (es ++ '(' :: r) := by
            simp [isDigit, List.dropWhile]
          rw [e2]; rfl
        | false =>
          obtain ⟨_, _, hes⟩ := hk.1
          have e1 : ('e' :: (signText false ++ es) ++ '(' :: r).dropWhile isLetter = es ++ '(' :: r := by
            have hd := takeWhile_append_stop (a := ['e']) (b := es ++ '(' :: r) (p := isLetter) (by decide) (by
              intro c hc
              obtain ⟨d, ds', rfl, hd⟩ := hes.head
              simp at hc; subst hc; exact digit_not_letter hd)
            simpa [signText] using hd.2
          have e2 := (takeWhile_append_stop (a := es) (b := '(' :: r) (p := isDigit) hes.2 (by
            intro c hc; simp at hc; subst hc; decide)).2
          rw [e1, e2]; rfl
  unfold fullSimplex
  rw [hconst, hvar]; rfl

theorem findBoundsAux_skip (a : Str) : ∀ (r : Str) (i : Nat), (∀ c ∈ a, c ≠ '(' ∧ c ≠ ')') →
    findBoundsAux (a ++ r) i false 0 0 = findBoundsAux r (i + a.length) false 0 0 := by
  induction a with
  | nil => intro r i _; simp
  | cons x a ih =>
    intro r i h
    have hx := h x (by simp)
    rw [List.cons_append]
    simp only [findBoundsAux, hx.1, hx.2, if_false]
    simp only [Bool.false_eq_true, false_and, if_false]
    rw [ih r (i + 1) (fun c hc => h c (by simp [hc]))]
    congr 1
    simp; omega

theorem findBounds_prefixed {a s : Str} (ha : ∀ c ∈ a, c ≠ '(' ∧ c ≠ ')') (h : Balanced s) (r : Str) :
    findBounds (a ++ '(' :: (s ++ (')' :: r))) = some (a.length, a.length + s.length + 2) := by
  unfold findBounds
  rw [findBoundsAux_skip _ _ _ ha]
  simp only [findBoundsAux, if_true]
  simp only [zero_add, one_ne_zero, and_false, if_false, Bool.false_eq_true]
  rw [h _ _ _ _ (by omega)]
  simp [findBoundsAux]
  omega

theorem coef_noparen {c : Option Lit} (h : OptOk c) : ∀ x ∈ coefText c, x ≠ '(' ∧ x ≠ ')' := by
  cases c with
  | none => simp [coefText]
  | some l => exact lit_noparen h.1

theorem Written.balanced : (w : Written) → w.Ok → Balanced w.text
  | .name c ls ds e, h => by
    obtain ⟨_, hl, hd, hc, he, _⟩ := h
    refine ((balanced_of_chars (coef_noparen hc)).append ((balanced_of_chars ?_).append (balanced_of_chars ?_))).append
      (balanced_of_chars (exp_noparen he))
    · intro x hx
      constructor <;> rintro rfl <;> exact absurd (hl _ hx) (by decide)
    · intro x hx
      constructor <;> rintro rfl <;> exact absurd (hd _ hx) (by decide)
  | .group k w e, h => by
    obtain ⟨hk, _, he, _, hw⟩ := h
    have := ((balanced_of_chars (coef_noparen hk)).append (Written.balanced w hw).group).append
      (balanced_of_chars (exp_noparen he))
    simpa [Written.text] using this

theorem Written.text_ne : (w : Written) → w.Ok → w.text ≠ []
  | .name c ls ds e, h => by simp [Written.text, h.1]
  | .group k w e, _ => by simp [Written.text]

theorem fullComplex_group {k : Option Lit} {s : Str} {e : Option Lit} (hk : OptOk k)
    (hf : fl (litOr1 k) = litOr1 k) (hs : Balanced s) (hne : s ≠ []) (he : OptOk e) :
    fullComplex (coefText k ++ '(' :: (s ++ ')' :: expText e)) =
      some (.ok ⟨false, litOr1 k, s, litOr1 e⟩) := by
  have hb := findBounds_prefixed (coef_noparen hk) hs (expText e)
  have h1 : (coefText k ++ '(' :: (s ++ ')' :: expText e)).drop ((coefText k).length + s.length + 2) = expText e := by
    have : coefText k ++ '(' :: (s ++ ')' :: expText e) = (coefText k ++ '(' :: (s ++ [')'])) ++ expText e := by simp
    rw [this]
    exact List.drop_left' (by simp; omega)
  have h2 : ((coefText k ++ '(' :: (s ++ ')' :: expText e)).take ((coefText k).length + s.length + 2 - 1)).drop
      ((coefText k).length + 1) = s := by
    have : coefText k ++ '(' :: (s ++ ')' :: expText e) = ((coefText k ++ ['(']) ++ s) ++ ')' :: expText e := by simp
    rw [this, List.take_left' (by simp; omega)]
    exact List.drop_left' (by simp)
  have h3 : (coefText k ++ '(' :: (s ++ ')' :: expText e)).take (coefText k).length = coefText k :=
    List.take_left' rfl
  have hm : matchExponent (expText e) = (e.map Lit.toNum, []) := by
    have := matchExponent_text e he stop_nil
    rwa [List.append_nil] at this
  have hmk : mkOperand false (litOr1 k) s (litOr1 e) = ⟨false, litOr1 k, s, litOr1 e⟩ :=
    mkOperand_eq (litOr1_ne_zero hk) hne (litOr1_ne_zero he)
  unfold fullComplex
  rw [hb]
  simp only [h1, h2, h3, hm]
  cases k with
  | none =>
    have hp : prefixCoefficient (coefText none) = none := by decide +kernel
    have hp' : (coefText none).length = 0 := rfl
    rw [hp]
    simp only [hp', List.isEmpty_nil, and_self, if_true, numOr1_map e he]
    simp only [litOr1] at hmk ⊢
    simp only [bind, Except.bind, pure, Except.pure]
    rw [hmk]
  | some l =>
    have hfl : orOne (fl l.value) = l.value := by
      have h0 : l.value ≠ 0 := hk.2
      have hf' : fl l.value = l.value := hf
      rw [hf']; simp [orOne, h0]
    have hp : prefixCoefficient (coefText (some l)) = some (.ok l.value) := by
      unfold prefixCoefficient
      rw [show coefText (some l) = l.text from rfl, fullSimplex_lit hk.1]
      simp only [Option.map_some, mkOperand, Except.map]
      rw [hfl]
    rw [hp]
    simp only [List.isEmpty_nil, if_true, numOr1_map e he]
    simp only [litOr1] at hmk ⊢
    simp only [bind, Except.bind, pure, Except.pure]
    rw [hmk]

end Eprem.Symbolic
