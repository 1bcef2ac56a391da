import Verif.Spec.IsMeasurable
import Verif.Props.Measurable

/-!
# `ismeasurable` tells what can be measured (C114)
-/

namespace Eprem.Measurable

open Eprem Eprem.Symbolic Eprem.Metric

variable {R : Type} {toFloat : Name → Option R}

theorem measurable_two {l : List (Obj R)} (h : 2 ≤ l.length) : measurableArgs (.seq l) =
    (l.all Obj.isNum || (Obj.unitLike l.getLast? && valuesReal l) || allMeasurable l) := by
  match l, h with
  | x :: y :: l, _ => rw [measurableArgs]

theorem allMeasurable_iff {l : List (Obj R)} : allMeasurable l = true ↔ ∀ x ∈ l, x.isSeq = true ∧ ismeasurable x = true := by
  induction l with
  | nil => simp [allMeasurable]
  | cons x l ih => rw [allMeasurable]; simp [ih, ismeasurable, and_assoc]

theorem unitLike_of {o : Obj R} {u : Name} (h : IsUnitOf o u) : Obj.unitLike (some o) = true := by
  cases h <;> rfl

theorem flat_measurable {x : Obj R} {xs : List R} {u : Name} (h : Flat (fun _ => none) x xs u) : ismeasurable x = true := by
  cases h with
  | number x => rfl
  | text s x hs h => cases h
  | range xs h => cases xs with
    | nil => exact absurd rfl h
    | cons => rfl
  | numbers xs h =>
    match xs, h with
    | [x], _ => rfl
    | x :: y :: xs, _ =>
      have : measurableArgs (.seq ((x :: y :: xs).map .num) : Obj R) = true := by
        rw [measurable_two (by simp), all_num]; rfl
      rw [ismeasurable, this]; rfl
  | unit xs h o u hu =>
    have hl : 2 ≤ (xs.map (Obj.num : R → Obj R) ++ [o]).length := by
      have := List.length_pos_iff.2 h
      simp; omega
    have hv : valuesReal (xs.map (Obj.num : R → Obj R) ++ [o]) = true := by
      match xs, h with
      | x :: xs, _ =>
        show ((((x :: xs).map Obj.num) ++ [o] : List (Obj R)).dropLast).all Obj.isNum = true
        rw [List.dropLast_concat, all_num]
    have : measurableArgs (.seq (xs.map .num ++ [o])) = true := by
      rw [measurable_two hl, List.getLast?_concat, unitLike_of hu, hv]; simp
    have hn : (Obj.seq (xs.map .num ++ [o])).isNull = false := by simp [Obj.isNull]
    rw [ismeasurable, this, hn]; rfl
  | listUnit xs o u hu =>
    have : measurableArgs (.seq [.seq (xs.map .num), o]) = true := by
      have hv : valuesReal [.seq (xs.map (Obj.num : R → Obj R)), o] = true := all_num xs
      rw [measurable_two (by simp), hv]
      show (_ || (Obj.unitLike (some o) && true) || _) = true
      rw [unitLike_of hu]; simp
    rw [ismeasurable, this]; rfl
  | rangeUnit xs o u hu =>
    have : measurableArgs (.seq [.range xs, o]) = true := by
      have hv : valuesReal [.range xs, o] = true := rfl
      rw [measurable_two (by simp), hv]
      show (_ || (Obj.unitLike (some o) && true) || _) = true
      rw [unitLike_of hu]; simp
    rw [ismeasurable, this]; rfl

/-- **C114**, the documented forms: numbers, ranges and lists of numbers, with or without a unit, in any number of lists, and lists
of several such lists, are measurable. -/
theorem c114_forms {x : Obj R} {ps : List (R × Name)} (h : Distributes (fun _ => none) x ps) : ismeasurable x = true := by
  induction h with
  | flat h => exact flat_measurable h
  | wrap x ps h ih =>
    unfold ismeasurable at ih ⊢
    rw [measurableArgs]
    rw [Bool.and_eq_true] at ih
    rw [ih.2]; rfl
  | parts ps hl hs h ih =>
    have h1 : measurableArgs (.seq (ps.map Prod.fst)) = true := by
      rw [measurable_two (by simpa using hl), Bool.or_eq_true_iff]
      right
      rw [allMeasurable_iff]
      intro x hx
      obtain ⟨p, hp, rfl⟩ := List.mem_map.1 hx
      exact ⟨hs p hp, ih p hp⟩
    have h2 : (Obj.seq (ps.map Prod.fst)).isNull = false := by
      match ps, hl with
      | p :: ps, _ => rfl
    rw [ismeasurable, h1, h2]; rfl

/-- The input can be parsed, up to units that differ. -/
theorem formed_parse {x : Obj R} (hf : Formed x) (hm : measurableArgs x = true) :
    (∃ ps, ps ≠ [] ∧ Distributes toFloat x ps) ∧
    ((∃ xs u, Reads toFloat x xs u) ∨ parse toFloat false x = .error .parsingValue) := by
  have ofFlat : ∀ {x : Obj R} {xs : List R} {u : Name}, xs ≠ [] → Flat toFloat x xs u →
      (∃ ps, ps ≠ [] ∧ Distributes toFloat x ps) ∧
      ((∃ xs u, Reads toFloat x xs u) ∨ parse toFloat false x = .error .parsingValue) :=
    fun hne h => ⟨⟨_, by simpa using hne, .flat h⟩, .inl ⟨_, _, .flat h⟩⟩
  induction hf with
  | none => cases hm
  | num x => exact ofFlat (by simp) (.number x)
  | str s => cases hm
  | unit s => cases hm
  | range l hl => exact ofFlat hl (.range l hl)
  | seq l hl h hs hr ih =>
    match l, hl with
    | [x], _ =>
      rw [measurableArgs] at hm
      obtain ⟨⟨ps, h1, h2⟩, h3⟩ := ih x (by simp) hm
      refine ⟨⟨ps, h1, .wrap x ps h2⟩, ?_⟩
      rcases h3 with ⟨xs, u, h3⟩ | h3
      · exact .inl ⟨xs, u, .wrap x xs u h3⟩
      · exact .inr (by rw [parse, h3])
    | x :: y :: l, hl =>
      rw [measurable_two (by simp)] at hm
      rcases Bool.or_eq_true_iff.1 hm with hm | hm
      · rcases Bool.or_eq_true_iff.1 hm with hm | hm
        · obtain ⟨xs, hxs⟩ := nums_of_all hm
          rw [hxs]
          have : xs ≠ [] := by rintro rfl; cases hxs
          exact ofFlat this (.numbers xs this)
        · rw [Bool.and_eq_true] at hm
          obtain ⟨hu, hv⟩ := hm
          obtain ⟨front, o, ho⟩ : ∃ front o, x :: y :: l = front ++ [o] :=
            ⟨_, _, (List.dropLast_append_getLast (by simp : x :: y :: l ≠ [])).symm⟩
          have hfo : Formed o := h o (by rw [ho]; simp)
          rw [ho, List.getLast?_concat] at hu
          obtain ⟨u, hu'⟩ : ∃ u, IsUnitOf o u := by
            cases hfo with
            | str s hs h => exact ⟨s, .text s h⟩
            | unit s => exact ⟨s, .object s⟩
            | _ => cases hu
          have hfx := h x (by simp)
          have hpair : ∀ l' : List (Obj R), l'.length ≤ 1 → x :: l' = front ++ [o] → l' ≠ [] → x :: l' = [x, o] := by
            intro l' h1 h2 h3
            match l', h1, h3 with
            | [z], _, _ =>
              have : z = o := by
                have := congrArg List.getLast? h2
                simpa using this
              rw [this]
          cases x with
          | seq v =>
            have hlen : (y :: l).length ≤ 1 := by
              rcases hs v (y :: l) rfl with hall | h1
              · have : o.isSeq = true := List.all_eq_true.1 hall o (by rw [ho]; simp)
                cases hu' <;> cases this
              · exact h1
            rw [hpair (y :: l) hlen ho (by simp)]
            obtain ⟨xs, rfl⟩ := nums_of_all (l := v) hv
            refine ofFlat ?_ (.listUnit xs o u hu')
            rintro rfl
            cases hfx with
            | seq _ hne => exact absurd rfl hne
          | range v =>
            rw [hpair (y :: l) (hr v (y :: l) rfl) ho (by simp)]
            refine ofFlat ?_ (.rangeUnit v o u hu')
            cases hfx with
            | range _ hne => exact hne
          | str s =>
            have : s = [] := by simpa [valuesReal] using hv
            cases hfx with
            | str _ hne => exact absurd this hne
          | unit s => cases hv
          | num r =>
            have hv' : (Obj.num r :: y :: l).dropLast.all Obj.isNum = true := hv
            rw [ho, List.dropLast_concat] at hv'
            obtain ⟨xs, rfl⟩ := nums_of_all hv'
            rw [ho]
            have : xs ≠ [] := by rintro rfl; cases ho
            exact ofFlat this (.unit xs this o u hu')
          | none =>
            have hv' : (Obj.none :: y :: l : List (Obj R)).dropLast.all Obj.isNum = true := hv
            simp [Obj.isNum] at hv'
      · rw [allMeasurable_iff] at hm
        have hparts : ∀ z ∈ x :: y :: l, (∃ ps, ps ≠ [] ∧ Distributes toFloat z ps) ∧
            ((∃ xs u, Reads toFloat z xs u) ∨ parse toFloat false z = .error .parsingValue) := by
          intro z hz
          refine ih z hz ?_
          have := (hm z hz).2
          rw [ismeasurable, Bool.and_eq_true] at this
          exact this.2
        constructor
        · obtain ⟨ps, h1, h2⟩ : ∃ ps : List (Obj R × List (R × Name)), ps.map Prod.fst = x :: y :: l ∧
              ∀ p ∈ ps, p.2 ≠ [] ∧ Distributes toFloat p.1 p.2 := by
            have : ∀ zs : List (Obj R), (∀ z ∈ zs, ∃ ps, ps ≠ [] ∧ Distributes toFloat z ps) →
                ∃ ps : List (Obj R × List (R × Name)), ps.map Prod.fst = zs ∧ ∀ p ∈ ps, p.2 ≠ [] ∧ Distributes toFloat p.1 p.2 := by
              intro zs
              induction zs with
              | nil => exact fun _ => ⟨[], rfl, nofun⟩
              | cons z zs ih =>
                intro h
                obtain ⟨q, h3, h4⟩ := h z (by simp)
                obtain ⟨ps, h1, h2⟩ := ih (fun z hz => h z (by simp [hz]))
                refine ⟨(z, q) :: ps, by simp [h1], ?_⟩
                intro p hp
                rcases List.mem_cons.1 hp with rfl | hp
                · exact ⟨h3, h4⟩
                · exact h2 p hp
            exact this _ (fun z hz => (hparts z hz).1)
          have hlen : 2 ≤ ps.length := by rw [← List.length_map (f := Prod.fst) (as := ps), h1]; simp
          refine ⟨(ps.map Prod.snd).flatten, ?_, ?_⟩
          · match ps, hlen with
            | p :: ps, _ => simp [(h2 p (by simp)).1]
          · rw [← h1]
            exact .parts ps hlen (fun p hp => (hm p.1 (by rw [← h1]; exact List.mem_map_of_mem hp)).1) (fun p hp => (h2 p hp).2)
        · have hl2 : 2 ≤ (x :: y :: l).length := by simp
          have hall : (x :: y :: l).all Obj.isSeq = true := List.all_eq_true.2 (fun z hz => (hm z hz).1)
          have key : ∀ zs : List (Obj R), (∀ z ∈ zs, (∃ xs u, Reads toFloat z xs u) ∨ parse toFloat false z = .error .parsingValue) →
              (∃ ps : List (Obj R × List R × Name), ps.map Prod.fst = zs ∧ ∀ p ∈ ps, Reads toFloat p.1 p.2.1 p.2.2) ∨
              parseAll toFloat false zs = .error .parsingValue := by
            intro zs
            induction zs with
            | nil => exact fun _ => .inl ⟨[], rfl, nofun⟩
            | cons z zs ih =>
              intro h
              rcases h z (by simp) with ⟨xs, u, hz⟩ | hz
              · rcases ih (fun z hz => h z (by simp [hz])) with ⟨ps, h1, h2⟩ | h1
                · refine .inl ⟨(z, xs, u) :: ps, by simp [h1], ?_⟩
                  intro p hp
                  rcases List.mem_cons.1 hp with rfl | hp
                  · exact hz
                  · exact h2 p hp
                · exact .inr (by rw [parseAll, c41_parse hz]; simp only [h1])
              · exact .inr (by rw [parseAll, hz])
          rcases key _ (fun z hz => (hparts z hz).2) with ⟨ps, h1, h2⟩ | h1
          · have hlen : 2 ≤ ps.length := by rw [← List.length_map (f := Prod.fst) (as := ps), h1]; simp
            have hsq : ∀ p ∈ ps, p.1.isSeq = true := fun p hp => (hm p.1 (by rw [← h1]; exact List.mem_map_of_mem hp)).1
            rcases conflict_or_same ps with hd | ⟨u, hu⟩
            · exact .inr (by rw [← h1]; exact c41_conflict ps hlen hsq h2 hd)
            · left
              have := Reads.parts (toFloat := toFloat) (ps.map (fun p => (p.1, p.2.1))) u (by simpa using hlen)
                (by
                  intro q hq
                  obtain ⟨p, hp, rfl⟩ := List.mem_map.1 hq
                  exact hsq p hp)
                (by
                  intro q hq
                  obtain ⟨p, hp, rfl⟩ := List.mem_map.1 hq
                  exact hu p hp ▸ h2 p hp)
              rw [List.map_map] at this
              rw [← h1]
              exact ⟨_, _, this⟩
          · right
            rw [parse_two _ _ hl2, if_pos hall, h1]

/-- **C114**, measurable input can be measured: for well-formed input that is measurable, the distributed measurement succeeds and
has at least one number, and the other one succeeds unless parts have different units. -/
theorem c114_sound_partial {x : Obj R} (hf : Formed x) (hm : ismeasurable x = true) :
    (∃ ps, ps ≠ [] ∧ Distributes toFloat x ps ∧ parse toFloat true x = .ok (pairResult ps)) ∧
    ((∃ xs u, Reads toFloat x xs u ∧ parse toFloat false x = .ok (flatResult xs u)) ∨ parse toFloat false x = .error .parsingValue) := by
  rw [ismeasurable, Bool.and_eq_true] at hm
  obtain ⟨⟨ps, h1, h2⟩, h3⟩ := formed_parse (toFloat := toFloat) hf hm.2
  refine ⟨⟨ps, h1, h2, c41_distribute h2⟩, h3.imp ?_ id⟩
  rintro ⟨xs, u, h⟩
  exact ⟨xs, u, h, c41_parse h⟩

/-- **C114**, nothing and empty input, units alone, and lists of two or more objects that contain `None` anywhere but in a nested
list, are not measurable. -/
theorem c114_rejected (s : Name) (l : List (Obj R)) (hl : 2 ≤ l.length) (hn : Obj.none ∈ l)
    (hs : ∀ v, l.head? ≠ some (.seq v)) (hr : ∀ v, l.head? ≠ some (.range v)) (h0 : l.head? ≠ some (.str [])) :
    ismeasurable (.none : Obj R) = false ∧ ismeasurable (.seq [] : Obj R) = false ∧ ismeasurable (.range [] : Obj R) = false ∧
    ismeasurable (.str s : Obj R) = false ∧ ismeasurable (.unit s : Obj R) = false ∧ ismeasurable (.seq l) = false := by
  refine ⟨rfl, rfl, rfl, by simp [ismeasurable, measurableArgs], rfl, ?_⟩
  have h1 : l.all Obj.isNum = false := by
    by_contra hc
    exact absurd (List.all_eq_true.1 (Bool.eq_true_of_not_eq_false hc) _ hn) (by simp [Obj.isNum])
  have h2 : allMeasurable l = false := by
    by_contra hc
    exact absurd (allMeasurable_iff.1 (Bool.eq_true_of_not_eq_false hc) _ hn).1 (by simp [Obj.isSeq])
  have h3 : (Obj.unitLike l.getLast? && valuesReal l) = false := by
    by_contra hc
    obtain ⟨hu, hv⟩ := Bool.and_eq_true_iff.1 (Bool.eq_true_of_not_eq_false hc)
    have hd : l.dropLast.all Obj.isNum = true := by
      match l, hl with
      | x :: l, _ =>
        cases x with
        | seq v => exact absurd rfl (hs v)
        | range v => exact absurd rfl (hr v)
        | str t =>
          have : t = [] := by simpa [valuesReal] using hv
          exact absurd (by rw [this]; rfl) h0
        | unit _ => cases hv
        | _ => exact hv
    have hne : l ≠ [] := by rintro rfl; cases hn
    rw [← List.dropLast_append_getLast hne, List.mem_append] at hn
    rcases hn with hn | hn
    · exact absurd (List.all_eq_true.1 hd _ hn) (by simp [Obj.isNum])
    · rw [List.getLast?_eq_some_getLast hne, ← List.mem_singleton.1 hn] at hu
      cases hu
  rw [ismeasurable, measurable_two hl, h1, h2, h3]; simp

/-- a missing value among numbers -/
example : 2 ≤ [Obj.num (1 : ℚ), .none].length ∧ Obj.none ∈ [Obj.num (1 : ℚ), .none] := by simp

/-- **C114** does not hold for empty lists in lists, which are measurable and cannot be measured, -/
theorem c114_not_empty (d : Bool) (n : Nat) : ismeasurable (enclosed (n + 1) (.seq []) : Obj R) = true ∧
    parse toFloat d (enclosed (n + 1) (.seq [])) = .error .parsingValue := by
  refine ⟨?_, by rw [c41_enclosed, parse]⟩
  have : ∀ n, measurableArgs (enclosed n (.seq []) : Obj R) = true := by
    intro n
    induction n with
    | zero => rfl
    | succ n ih => show measurableArgs (.seq [enclosed n (.seq [])]) = true; rw [measurableArgs, ih]
  show (!(Obj.seq [enclosed n (.seq [])] : Obj R).isNull && measurableArgs (enclosed (n + 1) (.seq []))) = true
  rw [this]; rfl

/-- nor for an empty string with a unit, -/
theorem c114_not_blank (d : Bool) (u : Name) (h0 : toFloat [] = none) : ismeasurable (.seq [.str [], .str u] : Obj R) = true ∧
    parse toFloat d (.seq [.str [], .str u]) = .error .parsingValue := by
  refine ⟨rfl, ?_⟩
  rw [parse_two _ _ (by simp), if_neg (by simp [Obj.isSeq]), if_neg (by show ¬(1 < 0); omega), if_pos (by show 1 < 2; omega)]
  simp [parseStrings, floats, h0]

/-- nor for strings in the place of the unit that no unit can be read from, -/
theorem c114_not_unit (d : Bool) (r : R) (s : Name) (hs : ¬UnitText s) : ismeasurable (.seq [.num r, .str s]) = true ∧
    ∃ e, parse toFloat d (.seq [.num r, .str s]) = .error e := by
  refine ⟨rfl, ?_⟩
  rw [parse_two _ _ (by simp), if_neg (by simp [Obj.isSeq]), if_neg (by simp [Obj.isUnit]), if_neg (by simp [Obj.isStr])]
  cases h : readable s with
  | ok _ => exact absurd (readable_ok.1 h) hs
  | error e => exact ⟨e, by simp [parseUnit, Obj.isNum, h]⟩

/-- nor for parts with different units. -/
theorem c114_not_same (r r' : R) (u v : Name) (hu : UnitText u) (hv : UnitText v) (hne : u ≠ v) :
    ismeasurable (.seq [.seq [.num r, .str u], .seq [.num r', .str v]]) = true ∧
    parse toFloat false (.seq [.seq [.num r, .str u], .seq [.num r', .str v]]) = .error .parsingValue := by
  refine ⟨rfl, ?_⟩
  have := c41_conflict (toFloat := toFloat) [(.seq [.num r, .str u], [r], u), (.seq [.num r', .str v], [r'], v)] (by simp)
    (by simp [Obj.isSeq])
    (by
      intro p hp
      rcases List.mem_cons.1 hp with rfl | hp
      · exact .flat (.unit [r] (by simp) (.str u) u (.text u hu))
      · rcases List.mem_singleton.1 hp with rfl
        exact .flat (.unit [r'] (by simp) (.str v) v (.text v hv)))
    ⟨_, List.mem_cons_self, _, List.mem_cons_of_mem _ (List.mem_singleton.2 rfl), hne⟩
  exact this

/-- Numbers given as strings can be measured, but are not measurable. -/
theorem c114_not_strings (d : Bool) (s : Name) (r : R) (hs : s ≠ []) (h : toFloat s = some r) (l : List (Obj R)) (xs : List R)
    (hl : List.Forall₂ (Numeral toFloat) l xs) (h2 : 1 < l.countP Obj.isStr) (hr : l.head? ≠ some (.str [])) :
    (ismeasurable (.str s : Obj R) = false ∧ ∃ q, parse toFloat d (.str s) = .ok q) ∧
    (ismeasurable (.seq l) = false ∧ parse toFloat false (.seq l) = .ok (flatResult xs Symbolic.one)) := by
  refine ⟨⟨by simp [ismeasurable, measurableArgs], ?_⟩, ?_, c41_parse (.texts l xs hl h2)⟩
  · rw [parse, if_neg hs]; simp only [h]; exact ⟨_, rfl⟩
  · have hlen : 2 ≤ l.length := le_trans h2 (List.countP_le_length ..)
    have h3 : l.all Obj.isNum = false := by
      by_contra hc
      obtain ⟨ys, rfl⟩ := nums_of_all (Bool.eq_true_of_not_eq_false hc)
      rw [(count_nums ys).2] at h2
      cases h2
    have h4 : valuesReal l = false := by
      cases hl with
      | nil => cases h2
      | @cons a b l xs hab hl' =>
        cases hab with
        | number _ =>
          show (Obj.num b :: l).dropLast.all Obj.isNum = false
          by_contra hc
          obtain ⟨ys, hys⟩ := nums_of_all (Bool.eq_true_of_not_eq_false hc)
          have hd : Obj.num b :: l = ys.map .num ++ [(Obj.num b :: l).getLast (by simp)] := by
            rw [← hys]; exact (List.dropLast_append_getLast _).symm
          rw [hd, List.countP_append, (count_nums ys).2, List.countP_singleton] at h2
          split at h2 <;> omega
        | text s x h =>
          show s.isEmpty = false
          cases s with
          | nil => exact absurd rfl hr
          | cons => rfl
    have h5 : allMeasurable l = false := by
      by_contra hc
      have := allMeasurable_iff.1 (Bool.eq_true_of_not_eq_false hc)
      cases hl with
      | nil => cases h2
      | cons hab _ => exact absurd (this _ List.mem_cons_self).1 (by rw [(numeral_seq hab).1]; simp)
    rw [ismeasurable, measurable_two hlen, h3, h4, h5]; simp

/-! ## The hypotheses can be met -/

/-- two lengths in a list, which is followed by a unit -/
example : Formed (.seq [.seq [.num (11 / 10), .num 2], .str (c! "m")] : Obj ℚ) ∧
    ismeasurable (.seq [.seq [.num (11 / 10), .num 2], .str (c! "m")] : Obj ℚ) = true := by
  refine ⟨.seq _ (by simp) ?_ ?_ ?_, rfl⟩
  · intro x hx
    rcases List.mem_cons.1 hx with rfl | hx
    · refine .seq _ (by simp) ?_ (by simp) (by simp)
      intro y hy
      rcases List.mem_cons.1 hy with rfl | hy
      · exact .num _
      · rw [List.mem_singleton.1 hy]; exact .num _
    · rw [List.mem_singleton.1 hx]; exact .str _ (by simp) metre_text
  · rintro v rest h; cases h; right; simp
  · rintro v rest h; cases h

/-- a string that is no unit -/
example : ¬UnitText (c! "(") := by
  rintro (h | ⟨e, h⟩)
  · revert h; decide
  · have : (exprOfString false (c! "(")).toOption.isSome = false := by decide +kernel
    rw [h] at this; cases this

/-- two different units -/
example : UnitText (c! "m") ∧ UnitText (c! "m / s") ∧ c! "m" ≠ c! "m / s" := ⟨metre_text, speed_text, by decide⟩

end Eprem.Measurable
