import Verif.Lemmas.Source
import Verif.Lemmas.PyDict

/-!
# Definitions in source files (C110)
-/

namespace Eprem.Config

open Eprem Eprem.Symbolic

theorem eatOpt_eq (lit s : Str) : ∃ m, (m = [] ∨ m = lit) ∧ s = m ++ eatOpt lit s := by
  cases h : eat lit s with
  | none => exact ⟨[], Or.inl rfl, by simp [eatOpt, h]⟩
  | some r => exact ⟨lit, Or.inr rfl, by simp only [eatOpt, h, Option.getD_some]; exact eat_eq.1 h⟩

theorem eatOpt_lit (lit r : Str) : eatOpt lit (lit ++ r) = r := by simp [eatOpt, eat_eq.2 rfl]

theorem head_pad {p : Char → Prop} {a r : Str} (ha : ∀ c ∈ a, p c) (hr : ∀ c, r.head? = some c → p c) :
    ∀ c, (a ++ r).head? = some c → p c := by
  intro c hc
  cases a with
  | nil => exact hr c hc
  | cons d a => simp at hc; subst hc; exact ha d (by simp)

theorem not_word_of_space {c : Char} (h : isSpace c = true) : isWord c = false := by
  cases hw : isWord c with
  | false => rfl
  | true => rw [not_space_of_word hw] at h; cases h

/-- A word followed by something else than a dot is not a member of `config`. -/
theorem eatOpt_word {target r : Str} (ht : Identifier target) (hr : ∀ c, r.head? = some c → isWord c = false ∧ c ≠ '.') :
    eatOpt configDot (target ++ r) = target ++ r := by
  have : eat configDot (target ++ r) = none := by
    rw [eat_none]
    intro q e
    have h1 : (target ++ r).takeWhile isWord = target := takeWhile_pad ht (fun c hc => (hr c hc).1)
    have h2 : (configDot ++ q).takeWhile isWord = "config".toList := rfl
    have h3 : (target ++ r).dropWhile isWord = r := dropWhile_pad ht (fun c hc => (hr c hc).1)
    have h4 : (configDot ++ q).dropWhile isWord = '.' :: q := rfl
    rw [e, h4] at h3
    exact (hr '.' (by rw [← h3]; rfl)).2 rfl
  simp [eatOpt, this]

theorem eatMode_head {s m r : Str} (h : m ∈ readModes) (hs : s = m ++ r) : eatOpt charCast s = s := by
  subst hs
  have : eat charCast (m ++ r) = none := by
    rw [eat_none]
    intro q e
    simp only [readModes, List.mem_cons, List.not_mem_nil, or_false] at h
    rcases h with rfl | rfl | rfl | rfl <;> simp [charCast] at e
  simp [eatOpt, this]

theorem matchFunction_eq {s mode key args : Str} : matchFunction s = some (mode, key, args) ↔
    ∃ s₃, s = mode ++ ("(".toList ++ ("\"".toList ++ (key ++ ("\"".toList ++ (s₃ ++ (",".toList ++ (args ++ ");".toList))))))) ∧
      Spaces s₃ ∧ mode ∈ readModes ∧ Identifier key ∧ '\n' ∉ args := by
  constructor
  · intro h
    unfold matchFunction at h
    cases h1 : eatMode readModes s with
    | none => rw [h1] at h; cases h
    | some p =>
      obtain ⟨m, a⟩ := p
      simp only [h1] at h
      cases h2 : eat ['"'] a with
      | none => simp only [h2] at h; cases h
      | some b =>
        simp only [h2] at h
        cases h3 : eat ['"'] (b.dropWhile isWord) with
        | none => simp only [h3] at h; cases h
        | some c =>
          simp only [h3] at h
          cases h4 : eat [','] (c.dropWhile isSpace) with
          | none => simp only [h4] at h; cases h
          | some d =>
            simp only [h4] at h
            cases h5 : eatEnd d with
            | none => simp only [h5] at h; cases h
            | some e =>
              simp only [h5, Option.some.injEq, Prod.mk.injEq] at h
              obtain ⟨rfl, rfl, rfl⟩ := h
              obtain ⟨hm, hs⟩ := eatMode_eq.1 h1
              obtain ⟨hd, hn⟩ := eatEnd_eq.1 h5
              refine ⟨c.takeWhile isSpace, ?_, takeWhile_forall _ _, hm, takeWhile_forall _ _, hn⟩
              have hc : c = c.takeWhile isSpace ++ (",".toList ++ (e ++ ");".toList)) := by
                rw [← hd]
                have := eat_eq.1 h4
                conv_lhs => rw [← List.takeWhile_append_dropWhile (p := isSpace) (l := c), this]
                rfl
              have hb : b = b.takeWhile isWord ++ ("\"".toList ++ c) := by
                have := eat_eq.1 h3
                conv_lhs => rw [← List.takeWhile_append_dropWhile (p := isWord) (l := b), this]
                rfl
              rw [← hc, ← hb, hs, eat_eq.1 h2]; rfl
  · rintro ⟨s₃, rfl, hs, hm, hk, hn⟩
    have h1 : eatMode readModes (mode ++ ("(".toList ++ ("\"".toList ++ (key ++ ("\"".toList ++ (s₃ ++ (",".toList ++ (args ++
        ");".toList)))))))) = some (mode, _) := eatMode_eq.2 ⟨hm, rfl⟩
    have h2 : eat ['"'] ("\"".toList ++ (key ++ ("\"".toList ++ (s₃ ++ (",".toList ++ (args ++ ");".toList)))))) = some _ := eat_eq.2 rfl
    have hq : ∀ c, ("\"".toList ++ (s₃ ++ (",".toList ++ (args ++ ");".toList)))).head? = some c → isWord c = false := by
      intro c hc
      obtain rfl : '"' = c := by simpa using hc
      decide
    have h3 : eat ['"'] ("\"".toList ++ (s₃ ++ (",".toList ++ (args ++ ");".toList)))) = some _ := eat_eq.2 rfl
    have hp : ∀ c, (",".toList ++ (args ++ ");".toList)).head? = some c → isSpace c = false := by
      intro c hc
      obtain rfl : ',' = c := by simpa using hc
      decide
    have h4 : eat [','] (",".toList ++ (args ++ ");".toList)) = some _ := eat_eq.2 rfl
    have h5 : eatEnd (args ++ ");".toList) = some args := eatEnd_eq.2 ⟨rfl, hn⟩
    unfold matchFunction
    simp only [h1, h2, dropWhile_pad hk hq, h3, dropWhile_pad hs hp, h4, h5, takeWhile_pad hk hq]

/-- The pattern for calls finds exactly the lines that are such calls, and the function, key and arguments in them. -/
theorem c110_call (line mode key args : Str) : matchCall line = some (mode, key, args) ↔ IsCall line mode key args := by
  constructor
  · intro h
    obtain ⟨pre, post, hpre, hpost, hline, -, -⟩ := strip_parts line
    obtain ⟨member, hmem, hs⟩ := eatOpt_eq configDot (strip line)
    unfold matchCall at h
    cases h1 : eatSome isWord (eatOpt configDot (strip line)) with
    | none => simp only [h1] at h; cases h
    | some p =>
      obtain ⟨target, s⟩ := p
      simp only [h1] at h
      cases h2 : eat ['='] (s.dropWhile isSpace) with
      | none => simp only [h2] at h; cases h
      | some t =>
        simp only [h2] at h
        obtain ⟨cast, hcast, ht⟩ := eatOpt_eq charCast (t.dropWhile isSpace)
        obtain ⟨s₃, h3, hs3, hm, hk, hn⟩ := matchFunction_eq.1 h
        obtain ⟨h4, h5, h6, -⟩ := eatSome_eq.1 h1
        refine ⟨pre, member, target, s.takeWhile isSpace, t.takeWhile isSpace, cast, s₃, post, ?_, hpre, takeWhile_forall _ _,
          takeWhile_forall _ _, hs3, hpost, hmem, h5, h6, hcast, hm, hk, hn⟩
        rw [← h3, ← ht, List.takeWhile_append_dropWhile]
        have : s = s.takeWhile isSpace ++ ("=".toList ++ t) := by
          have := eat_eq.1 h2
          conv_lhs => rw [← List.takeWhile_append_dropWhile (p := isSpace) (l := s), this]
          rfl
        rw [← this, ← h4, ← hs]; exact hline
  · rintro ⟨pre, member, target, s₁, s₂, cast, s₃, post, rfl, hpre, hs1, hs2, hs3, hpost, hmem, ht0, ht, hcast, hm, hk, hn⟩
    generalize hF : mode ++ ("(".toList ++ ("\"".toList ++ (key ++ ("\"".toList ++ (s₃ ++ (",".toList ++ (args ++ ");".toList))))))) = F
    have hmF : matchFunction F = some (mode, key, args) := matchFunction_eq.2 ⟨s₃, hF.symm, hs3, hm, hk, hn⟩
    have hFlast : ∀ a : Str, (a ++ F).getLast? = some ';' := by
      intro a
      rw [← hF]
      have : ∀ b : Str, (b ++ ");".toList).getLast? = some ';' := fun b => by simp
      have h := this (a ++ (mode ++ ("(".toList ++ ("\"".toList ++ (key ++ ("\"".toList ++ (s₃ ++ (",".toList ++ args))))))))
      simpa only [List.append_assoc] using h
    have heq : ∀ c, ("=".toList ++ (s₂ ++ (cast ++ F))).head? = some c → c = '=' := by
      intro c hc
      simpa using hc.symm
    have hhead : ∀ c, (s₁ ++ ("=".toList ++ (s₂ ++ (cast ++ F)))).head? = some c → isWord c = false ∧ c ≠ '.' := by
      refine head_pad (fun c hc => ⟨not_word_of_space (hs1 c hc), ?_⟩) ?_
      · rintro rfl; exact absurd (hs1 _ hc) (by decide)
      · intro c hc; rw [heq c hc]; decide
    have hstrip : strip (pre ++ (member ++ (target ++ (s₁ ++ ("=".toList ++ (s₂ ++ (cast ++ F)))))) ++ post) =
        member ++ (target ++ (s₁ ++ ("=".toList ++ (s₂ ++ (cast ++ F))))) := by
      refine strip_body hpre hpost ?_ ?_
      · intro c hc
        rcases hmem with rfl | rfl
        · cases target with
          | nil => exact absurd rfl ht0
          | cons d target =>
            simp at hc; subst hc
            exact not_space_of_word (ht _ (by simp))
        · obtain rfl : 'c' = c := by simpa using hc
          decide
      · intro c hc
        have := hFlast (member ++ (target ++ (s₁ ++ ("=".toList ++ (s₂ ++ cast)))))
        simp only [List.append_assoc] at this hc
        rw [this] at hc
        obtain rfl : ';' = c := by simpa using hc
        decide
    have hopt : eatOpt configDot (member ++ (target ++ (s₁ ++ ("=".toList ++ (s₂ ++ (cast ++ F)))))) =
        target ++ (s₁ ++ ("=".toList ++ (s₂ ++ (cast ++ F)))) := by
      rcases hmem with rfl | rfl
      · exact eatOpt_word (target := target) ht hhead
      · exact eatOpt_lit _ _
    have h1 : eatSome isWord (target ++ (s₁ ++ ("=".toList ++ (s₂ ++ (cast ++ F))))) = some (target, _) :=
      eatSome_eq.2 ⟨rfl, ht0, ht, fun c hc => (hhead c hc).1⟩
    have h2 : (s₁ ++ ("=".toList ++ (s₂ ++ (cast ++ F)))).dropWhile isSpace = "=".toList ++ (s₂ ++ (cast ++ F)) :=
      dropWhile_pad hs1 (fun c hc => by rw [heq c hc]; decide)
    have h3 : eat ['='] ("=".toList ++ (s₂ ++ (cast ++ F))) = some _ := eat_eq.2 rfl
    have hFhead : ∀ c, (cast ++ F).head? = some c → isSpace c = false := by
      intro c hc
      rcases hcast with rfl | rfl
      · rw [← hF] at hc
        simp only [List.mem_cons, List.not_mem_nil, or_false] at hm
        rcases hm with rfl | rfl | rfl | rfl <;> (obtain rfl : 'r' = c := by simpa using hc) <;> decide
      · obtain rfl : '(' = c := by simpa using hc
        decide
    have h4 : (s₂ ++ (cast ++ F)).dropWhile isSpace = cast ++ F := dropWhile_pad hs2 hFhead
    have h5 : eatOpt charCast (cast ++ F) = F := by
      rcases hcast with rfl | rfl
      · exact eatMode_head hm hF.symm
      · exact eatOpt_lit _ _
    simp only [matchCall, hstrip, hopt, h1, h2, h3, h4, h5, hmF]

/-! ## Arrays -/

theorem isNumber_eq {v : Str} : isNumber v = true ↔ Digits v ∨ ∃ a b, v = a ++ ".".toList ++ b ∧ Digits a ∧ Digits b ∧ b ≠ [] := by
  constructor
  · intro h
    have hv : v = v.takeWhile isDigit ++ v.dropWhile isDigit := List.takeWhile_append_dropWhile.symm
    unfold isNumber at h
    cases hd : v.dropWhile isDigit with
    | nil => left; rw [hd, List.append_nil] at hv; rw [hv]; exact takeWhile_forall _ _
    | cons c r =>
      right
      rw [hd] at h hv
      simp only [Bool.and_eq_true, decide_eq_true_eq, Bool.not_eq_true', List.all_eq_true] at h
      obtain ⟨⟨rfl, h1⟩, h2⟩ := h
      exact ⟨v.takeWhile isDigit, r, by rw [List.append_assoc]; exact hv, takeWhile_forall _ _, h2, by rintro rfl; cases h1⟩
  · rintro (h | ⟨a, b, rfl, ha, hb, hb0⟩)
    · have : v.dropWhile isDigit = [] := by
        have := dropWhile_pad (r := []) h (by simp)
        simpa using this
      simp [isNumber, this]
    · have : (a ++ ".".toList ++ b).dropWhile isDigit = '.' :: b := by
        rw [List.append_assoc]
        refine dropWhile_pad ha ?_
        intro c hc
        obtain rfl : '.' = c := by simpa using hc
        decide
      unfold isNumber
      rw [this]
      simp only [decide_true, Bool.true_and, Bool.and_eq_true, Bool.not_eq_true', List.all_eq_true]
      exact ⟨by cases b with
        | nil => exact absurd rfl hb0
        | cons => rfl, hb⟩

theorem isMember_eq {v : Str} : isMember v = true ↔ ∃ m w, v = m ++ w ∧ (m = [] ∨ m = "config.".toList) ∧ Identifier w ∧ w ≠ [] := by
  constructor
  · intro h
    obtain ⟨m, hm, hv⟩ := eatOpt_eq configDot v
    simp only [isMember, Bool.and_eq_true, Bool.not_eq_true', List.all_eq_true] at h
    exact ⟨m, _, hv, hm, h.2, by intro e; rw [e] at h; simp at h⟩
  · rintro ⟨m, w, rfl, hm, hw, hw0⟩
    have : eatOpt configDot (m ++ w) = w := by
      rcases hm with rfl | rfl
      · have := eatOpt_word (r := []) hw (by simp)
        simpa using this
      · exact eatOpt_lit _ _
    simp only [isMember, this, Bool.and_eq_true, Bool.not_eq_true', List.all_eq_true]
    exact ⟨by cases w with
      | nil => exact absurd rfl hw0
      | cons => rfl, hw⟩

theorem isValue_iff {v : Str} : (isNumber v || isMember v) = true ↔ IsValue v := by
  rw [Bool.or_eq_true, isNumber_eq, isMember_eq, or_assoc]; rfl

theorem word_ne {c d : Char} (h : isWord c = true) (hd : isWord d = false) : c ≠ d := by
  rintro rfl; rw [h] at hd; cases hd

theorem value_brace {v : Str} (h : IsValue v) : ∀ c ∈ v, c ≠ '}' := by
  intro c hc
  rcases h with h | ⟨a, b, rfl, ha, hb, -⟩ | ⟨m, w, rfl, hm, hw, -⟩
  · exact word_ne (word_of_digit (h c hc)) (by decide)
  · simp only [List.mem_append] at hc
    rcases hc with (hc | hc) | hc
    · exact word_ne (word_of_digit (ha c hc)) (by decide)
    · obtain rfl : c = '.' := by simpa using hc
      decide
    · exact word_ne (word_of_digit (hb c hc)) (by decide)
  · rcases List.mem_append.1 hc with hc | hc
    · rcases hm with rfl | rfl
      · simp at hc
      · rintro rfl; revert hc; decide
    · exact word_ne (hw c hc) (by decide)

theorem matchBraces_eq {s value : Str} : matchBraces s = some value ↔
    ∃ s₂ s₃, s = s₂ ++ ("=".toList ++ (s₃ ++ ("{".toList ++ (value ++ "};".toList)))) ∧ Spaces s₂ ∧ Spaces s₃ ∧ IsValue value := by
  constructor
  · intro h
    unfold matchBraces at h
    cases h1 : eat ['='] (s.dropWhile isSpace) with
    | none => simp only [h1] at h; cases h
    | some t =>
      simp only [h1] at h
      cases h2 : eat ['{'] (t.dropWhile isSpace) with
      | none => simp only [h2] at h; cases h
      | some v =>
        simp only [h2] at h
        split at h
        next hc =>
          obtain rfl := Option.some.inj h
          rw [Bool.and_eq_true, isValue_iff, decide_eq_true_eq] at hc
          have hv : v = v.takeWhile (· ≠ '}') ++ "};".toList := by
            conv_lhs => rw [← List.takeWhile_append_dropWhile (p := (· ≠ '}')) (l := v), hc.2]
            rfl
          have ht : t = t.takeWhile isSpace ++ ("{".toList ++ v) := by
            conv_lhs => rw [← List.takeWhile_append_dropWhile (p := isSpace) (l := t), eat_eq.1 h2]
            rfl
          have hs : s = s.takeWhile isSpace ++ ("=".toList ++ t) := by
            conv_lhs => rw [← List.takeWhile_append_dropWhile (p := isSpace) (l := s), eat_eq.1 h1]
            rfl
          refine ⟨s.takeWhile isSpace, t.takeWhile isSpace, ?_, takeWhile_forall _ _, takeWhile_forall _ _, hc.1⟩
          rw [← hv, ← ht, ← hs]
        next => cases h
  · rintro ⟨s₂, s₃, rfl, h2, h3, hv⟩
    have e1 : (s₂ ++ ("=".toList ++ (s₃ ++ ("{".toList ++ (value ++ "};".toList))))).dropWhile isSpace = _ :=
      dropWhile_pad h2 (by intro c hc; obtain rfl : '=' = c := by simpa using hc
                           decide)
    have e2 : eat ['='] ("=".toList ++ (s₃ ++ ("{".toList ++ (value ++ "};".toList)))) = some _ := eat_eq.2 rfl
    have e3 : (s₃ ++ ("{".toList ++ (value ++ "};".toList))).dropWhile isSpace = _ :=
      dropWhile_pad h3 (by intro c hc; obtain rfl : '{' = c := by simpa using hc
                           decide)
    have e4 : eat ['{'] ("{".toList ++ (value ++ "};".toList)) = some _ := eat_eq.2 rfl
    have hb : ∀ c ∈ value, decide (c ≠ '}') = true := fun c hc => by simpa using value_brace hv c hc
    have hh : ∀ c, "};".toList.head? = some c → decide (c ≠ '}') = false := by
      intro c hc
      obtain rfl : '}' = c := by simpa using hc
      rfl
    have e5 : (value ++ "};".toList).takeWhile (· ≠ '}') = value := takeWhile_pad hb hh
    have e6 : (value ++ "};".toList).dropWhile (· ≠ '}') = "};".toList := dropWhile_pad hb hh
    unfold matchBraces
    simp only [e1, e2, e3, e4]
    rw [e5, e6, if_pos]
    rw [Bool.and_eq_true, isValue_iff]
    exact ⟨hv, by decide⟩

/-- The pattern for arrays finds exactly the lines that define an array of one number or identifier, and their parts. -/
theorem c110_variable (line name size value : Str) :
    matchVariable line = some (name, size, value) ↔ IsVariable line name size value := by
  constructor
  · intro h
    obtain ⟨pre, post, hpre, hpost, hline, -, -⟩ := strip_parts line
    unfold matchVariable at h
    cases h1 : eat scalarT (strip line) with
    | none => simp only [h1] at h; cases h
    | some s =>
      simp only [h1] at h
      cases h2 : eatSome isWord (s.dropWhile isSpace) with
      | none => simp only [h2] at h; cases h
      | some p =>
        obtain ⟨name', t⟩ := p
        simp only [h2] at h
        cases h3 : eat ['['] t with
        | none => simp only [h3] at h; cases h
        | some u =>
          simp only [h3] at h
          cases h4 : eatSome isDigit u with
          | none => simp only [h4] at h; cases h
          | some q =>
            obtain ⟨size', v⟩ := q
            simp only [h4] at h
            cases h5 : eat [']'] v with
            | none => simp only [h5] at h; cases h
            | some w =>
              simp only [h5] at h
              cases h6 : matchBraces w with
              | none => simp only [h6] at h; cases h
              | some x =>
                simp only [h6, Option.some.injEq, Prod.mk.injEq] at h
                obtain ⟨rfl, rfl, rfl⟩ := h
                obtain ⟨s₂, s₃, e6, hs2, hs3, hv⟩ := matchBraces_eq.1 h6
                obtain ⟨e2, hn0, hn, -⟩ := eatSome_eq.1 h2
                obtain ⟨e4, hd0, hd, -⟩ := eatSome_eq.1 h4
                refine ⟨pre, s.takeWhile isSpace, s₂, s₃, post, ?_, hpre, takeWhile_forall _ _, hs2, hs3, hpost, hn0, hn, hd0, hd, hv⟩
                have e5 : v = "]".toList ++ w := eat_eq.1 h5
                have e3 : t = "[".toList ++ u := eat_eq.1 h3
                have e1 : strip line = "Scalar_t".toList ++ s := eat_eq.1 h1
                have es : s = s.takeWhile isSpace ++ (name' ++ t) := by
                  rw [← e2, List.takeWhile_append_dropWhile]
                rw [← e6, ← e5, ← e4, ← e3, ← es, ← e1]; exact hline
  · rintro ⟨pre, s₁, s₂, s₃, post, rfl, hpre, hs1, hs2, hs3, hpost, hn0, hn, hd0, hd, hv⟩
    generalize hW : s₂ ++ ("=".toList ++ (s₃ ++ ("{".toList ++ (value ++ "};".toList)))) = W
    have h6 : matchBraces W = some value := matchBraces_eq.2 ⟨s₂, s₃, hW.symm, hs2, hs3, hv⟩
    have hlast : ∀ a : Str, (a ++ W).getLast? = some ';' := by
      intro a
      have : ∀ b : Str, (b ++ "};".toList).getLast? = some ';' := fun b => by simp
      have h := this (a ++ (s₂ ++ ("=".toList ++ (s₃ ++ ("{".toList ++ value)))))
      rw [← hW]
      simpa only [List.append_assoc] using h
    have hstrip : strip (pre ++ ("Scalar_t".toList ++ (s₁ ++ (name ++ ("[".toList ++ (size ++ ("]".toList ++ W)))))) ++ post) =
        "Scalar_t".toList ++ (s₁ ++ (name ++ ("[".toList ++ (size ++ ("]".toList ++ W))))) := by
      refine strip_body hpre hpost ?_ ?_
      · intro c hc
        obtain rfl : 'S' = c := by simpa using hc
        decide
      · intro c hc
        have := hlast ("Scalar_t".toList ++ (s₁ ++ (name ++ ("[".toList ++ (size ++ "]".toList)))))
        simp only [List.append_assoc] at this hc
        rw [this] at hc
        obtain rfl : ';' = c := by simpa using hc
        decide
    have h1 : eat scalarT ("Scalar_t".toList ++ (s₁ ++ (name ++ ("[".toList ++ (size ++ ("]".toList ++ W)))))) = some _ := eat_eq.2 rfl
    have hb : ∀ c, ("[".toList ++ (size ++ ("]".toList ++ W))).head? = some c → c = '[' := fun c hc => by simpa using hc.symm
    have e1 : (s₁ ++ (name ++ ("[".toList ++ (size ++ ("]".toList ++ W))))).dropWhile isSpace =
        name ++ ("[".toList ++ (size ++ ("]".toList ++ W))) := by
      refine dropWhile_pad hs1 (head_pad (fun c hc => not_space_of_word (hn c hc)) ?_)
      intro c hc; rw [hb c hc]; decide
    have h2 : eatSome isWord (name ++ ("[".toList ++ (size ++ ("]".toList ++ W)))) = some (name, _) :=
      eatSome_eq.2 ⟨rfl, hn0, hn, fun c hc => by rw [hb c hc]; decide⟩
    have h3 : eat ['['] ("[".toList ++ (size ++ ("]".toList ++ W))) = some _ := eat_eq.2 rfl
    have h4 : eatSome isDigit (size ++ ("]".toList ++ W)) = some (size, _) :=
      eatSome_eq.2 ⟨rfl, hd0, hd, fun c hc => by
        obtain rfl : ']' = c := by simpa using hc
        decide⟩
    have h5 : eat [']'] ("]".toList ++ W) = some _ := eat_eq.2 rfl
    simp only [matchVariable, hstrip, h1, e1, h2, h3, h4, h5, h6]

/-! ## Constants -/

theorem isName_iff {c : Char} : isName c = true ↔ NameChar c := by
  simp only [isName, NameChar, Bool.or_eq_true, decide_eq_true_eq]

theorem isValueChar_iff {c : Char} : isValueChar c = true ↔ ValueChar c := by
  simp only [isValueChar, ValueChar, Bool.or_eq_true, decide_eq_true_eq, or_assoc]
  rfl

/-- The pattern for constants finds exactly the lines that define a constant, and their names and values. -/
theorem c110_constant (line name value : Str) : readConstant line = some (name, value) ↔ IsDefine line name value := by
  constructor
  · intro h
    obtain ⟨pre, post, hpre, hpost, hline, -, hlast⟩ := strip_parts line
    unfold readConstant at h
    cases h1 : eat define (strip line) with
    | none => simp only [h1] at h; cases h
    | some s =>
      simp only [h1] at h
      cases h2 : eatSome isSpace s with
      | none => simp only [h2] at h; cases h
      | some p =>
        obtain ⟨s₁, t⟩ := p
        simp only [h2] at h
        cases h3 : eatSome isName t with
        | none => simp only [h3] at h; cases h
        | some q =>
          obtain ⟨n, u⟩ := q
          simp only [h3] at h
          cases h4 : eatSome isSpace u with
          | none => simp only [h4] at h; cases h
          | some r =>
            obtain ⟨s₂, v⟩ := r
            simp only [h4] at h
            split at h
            next hc =>
              simp only [Option.some.injEq, Prod.mk.injEq] at h
              obtain ⟨rfl, rfl⟩ := h
              simp only [Bool.and_eq_true, Bool.not_eq_true', List.all_eq_true] at hc
              obtain ⟨e2, h20, h2s, -⟩ := eatSome_eq.1 h2
              obtain ⟨e3, h30, h3n, -⟩ := eatSome_eq.1 h3
              obtain ⟨e4, h40, h4s, h4h⟩ := eatSome_eq.1 h4
              have e1 : strip line = "#define".toList ++ s := eat_eq.1 h1
              have hv0 : v ≠ [] := by rintro rfl; simp at hc
              refine ⟨pre, s₁, s₂, post, ?_, hpre, h2s, h20, h4s, h40, hpost, h30, fun c hc => isName_iff.1 (h3n c hc), hv0,
                fun c h => isValueChar_iff.1 (hc.2 c h), h4h, ?_⟩
              · rw [← e4, ← e3, ← e2, ← e1]; exact hline
              · intro c hcl
                refine hlast c ?_
                rw [e1, e2, e3, e4]
                have : ∀ a : Str, (a ++ v).getLast? = some c := by
                  intro a
                  rw [List.getLast?_append, hcl]; rfl
                have h' := this ("#define".toList ++ (s₁ ++ (n ++ s₂)))
                simpa only [List.append_assoc] using h'
            next => cases h
  · rintro ⟨pre, s₁, s₂, post, rfl, hpre, hs1, h10, hs2, h20, hpost, hn0, hn, hv0, hv, hvh, hvl⟩
    have hstrip : strip (pre ++ ("#define".toList ++ (s₁ ++ (name ++ (s₂ ++ value)))) ++ post) =
        "#define".toList ++ (s₁ ++ (name ++ (s₂ ++ value))) := by
      refine strip_body hpre hpost ?_ ?_
      · intro c hc
        obtain rfl : '#' = c := by simpa using hc
        decide
      · intro c hc
        refine hvl c ?_
        have : ∀ a : Str, (a ++ value).getLast? = value.getLast? := by
          intro a
          rw [List.getLast?_append]
          cases hl : value.getLast? with
          | none => exact absurd (List.getLast?_eq_none_iff.1 hl) hv0
          | some => rfl
        have h' := this ("#define".toList ++ (s₁ ++ (name ++ s₂)))
        simp only [List.append_assoc] at h' hc
        rw [← h']; exact hc
    have hname : ∀ c ∈ name, isName c = true := fun c hc => isName_iff.2 (hn c hc)
    have hnh : ∀ c, (name ++ (s₂ ++ value)).head? = some c → isSpace c = false := by
      intro c hc
      cases name with
      | nil => exact absurd rfl hn0
      | cons d name =>
        simp at hc; subst hc
        exact not_space_of_word (word_of_name (hname _ (by simp)))
    have hsh : ∀ c, (s₂ ++ value).head? = some c → isName c = false := by
      intro c hc
      cases s₂ with
      | nil => exact absurd rfl h20
      | cons d s₂ =>
        simp at hc; subst hc
        have hd := hs2 d (by simp)
        cases hx : isName d with
        | false => rfl
        | true => rw [not_space_of_word (word_of_name hx)] at hd; cases hd
    have h1 : eat define ("#define".toList ++ (s₁ ++ (name ++ (s₂ ++ value)))) = some _ := eat_eq.2 rfl
    have h2 : eatSome isSpace (s₁ ++ (name ++ (s₂ ++ value))) = some (s₁, _) := eatSome_eq.2 ⟨rfl, h10, hs1, hnh⟩
    have h3 : eatSome isName (name ++ (s₂ ++ value)) = some (name, _) := eatSome_eq.2 ⟨rfl, hn0, hname, hsh⟩
    have h4 : eatSome isSpace (s₂ ++ value) = some (s₂, _) := eatSome_eq.2 ⟨rfl, h20, hs2, hvh⟩
    have h5 : (!value.isEmpty && value.all isValueChar) = true := by
      rw [Bool.and_eq_true, List.all_eq_true]
      refine ⟨?_, fun c hc => isValueChar_iff.2 (hv c hc)⟩
      cases value with
      | nil => exact absurd rfl hv0
      | cons => rfl
    simp only [readConstant, hstrip, h1, h2, h3, h4, h5, if_true]

/-! ## Files -/

/-- A file as a whole: a key has the value of the last line that gives it one, and no value if there is no such line. -/
theorem c110_extract {ν : Type} (f : Str → Option (Str × ν)) (lines : List Str) (k : Str) :
    (∀ v, (extract f lines).get? k = some v ↔ ∃ before line after, lines = before ++ line :: after ∧ f line = some (k, v) ∧
      ∀ l ∈ after, ∀ w, f l ≠ some (k, w)) ∧
    ((extract f lines).get? k = none ↔ ∀ l ∈ lines, ∀ w, f l ≠ some (k, w)) := by
  have key : ∀ (ls : List Str) (d : Dict Str ν),
      (∀ v, ((ls.filterMap f).foldl (fun d p => d.set p.1 p.2) d).get? k = some v ↔
        (∃ before line after, ls = before ++ line :: after ∧ f line = some (k, v) ∧ ∀ l ∈ after, ∀ w, f l ≠ some (k, w)) ∨
          (∀ l ∈ ls, ∀ w, f l ≠ some (k, w)) ∧ d.get? k = some v) := by
    intro ls
    induction ls with
    | nil => intro d v; simp
    | cons a ls ih =>
      intro d v
      cases ha : f a with
      | none =>
        rw [List.filterMap_cons_none ha, ih d v]
        constructor
        · rintro (⟨b, l, r, rfl, h1, h2⟩ | ⟨h1, h2⟩)
          · exact Or.inl ⟨a :: b, l, r, rfl, h1, h2⟩
          · refine Or.inr ⟨fun l hl w => ?_, h2⟩
            rcases List.mem_cons.1 hl with rfl | hl
            · rw [ha]; simp
            · exact h1 l hl w
        · rintro (⟨b, l, r, h0, h1, h2⟩ | ⟨h1, h2⟩)
          · cases b with
            | nil =>
              simp only [List.nil_append, List.cons.injEq] at h0
              obtain ⟨rfl, rfl⟩ := h0
              rw [ha] at h1; cases h1
            | cons c b =>
              simp only [List.cons_append, List.cons.injEq] at h0
              exact Or.inl ⟨b, l, r, h0.2, h1, h2⟩
          · exact Or.inr ⟨fun l hl w => h1 l (by simp [hl]) w, h2⟩
      | some p =>
        obtain ⟨k', x⟩ := p
        rw [List.filterMap_cons_some ha, List.foldl_cons, ih _ v, Dict.get?_set]
        constructor
        · rintro (⟨b, l, r, rfl, h1, h2⟩ | ⟨h1, h2⟩)
          · exact Or.inl ⟨a :: b, l, r, rfl, h1, h2⟩
          · by_cases hk : k' = k
            · subst hk
              simp only [if_true, Option.some.injEq] at h2
              subst h2
              exact Or.inl ⟨[], a, ls, rfl, ha, h1⟩
            · simp only [if_neg hk] at h2
              refine Or.inr ⟨fun l hl w => ?_, h2⟩
              rcases List.mem_cons.1 hl with rfl | hl
              · rw [ha]; simp [hk]
              · exact h1 l hl w
        · rintro (⟨b, l, r, h0, h1, h2⟩ | ⟨h1, h2⟩)
          · cases b with
            | nil =>
              simp only [List.nil_append, List.cons.injEq] at h0
              obtain ⟨rfl, rfl⟩ := h0
              rw [ha] at h1
              simp only [Option.some.injEq, Prod.mk.injEq] at h1
              obtain ⟨rfl, rfl⟩ := h1
              exact Or.inr ⟨h2, by simp⟩
            | cons c b =>
              simp only [List.cons_append, List.cons.injEq] at h0
              exact Or.inl ⟨b, l, r, h0.2, h1, h2⟩
          · refine Or.inr ⟨fun l hl w => h1 l (by simp [hl]) w, ?_⟩
            by_cases hk : k' = k
            · exact absurd (by rw [ha, hk]) (h1 a (by simp) x)
            · rw [if_neg hk]; exact h2
  have h1 : ∀ v, (extract f lines).get? k = some v ↔ ∃ before line after, lines = before ++ line :: after ∧ f line = some (k, v) ∧
      ∀ l ∈ after, ∀ w, f l ≠ some (k, w) := by
    intro v
    refine (key lines [] v).trans ?_
    simp
  refine ⟨h1, ?_⟩
  constructor
  · intro h l hl w e
    -- the last line with this key
    have : ∀ ls : List Str, (∃ l ∈ ls, ∃ w, f l = some (k, w)) → ∃ b x r w, ls = b ++ x :: r ∧ f x = some (k, w) ∧
        ∀ l ∈ r, ∀ w, f l ≠ some (k, w) := by
      intro ls
      induction ls with
      | nil => rintro ⟨l, hl, -⟩; simp at hl
      | cons a ls ih =>
        intro hx
        by_cases hr : ∃ l ∈ ls, ∃ w, f l = some (k, w)
        · obtain ⟨b, x, r, w, rfl, h2, h3⟩ := ih hr
          exact ⟨a :: b, x, r, w, rfl, h2, h3⟩
        · obtain ⟨l, hl, w, hw⟩ := hx
          rcases List.mem_cons.1 hl with rfl | hl
          · exact ⟨[], l, ls, w, rfl, hw, fun m hm w' e' => hr ⟨m, hm, w', e'⟩⟩
          · exact absurd ⟨l, hl, w, hw⟩ hr
    obtain ⟨b, x, r, w', h2, h3, h4⟩ := this lines ⟨l, hl, w, e⟩
    rw [(h1 w').2 ⟨b, x, r, h2, h3, h4⟩] at h; cases h
  · intro h
    cases hg : (extract f lines).get? k with
    | none => rfl
    | some v =>
      obtain ⟨b, l, r, rfl, h2, -⟩ := (h1 v).1 hg
      exact absurd h2 (h l (by simp) v)

/-- The arguments of a call, if none of them contains a comma: without spaces and quotation marks around them, they are the
default, minimum and maximum of a number, the default of a string, or the sizes, default, minimum and maximum of an array. -/
theorem c110_arguments_partial (line mode key : Str) (args : List Str) (hargs : ∀ a ∈ args, ',' ∉ a)
    (h : IsCall line mode key (joinWith ',' args)) :
    (mode = "readInt".toList ∨ mode = "readDouble".toList → ∀ d lo hi, args = [d, lo, hi] →
      readCall line = some (key, ⟨mode, [("defaultVal".toList, stripArg d), ("minVal".toList, stripArg lo),
        ("maxVal".toList, stripArg hi)]⟩)) ∧
    (mode = "readString".toList → ∀ d, args = [d] → readCall line = some (key, ⟨mode, [("defaultVal".toList, stripArg d)]⟩)) ∧
    (mode = "readDoubleArray".toList → ∀ m n d lo hi, args = [m, n, d, lo, hi] →
      readCall line = some (key, ⟨mode, [("defaultSize".toList, stripArg m), ("size".toList, stripArg n),
        ("defaultVal".toList, stripArg d), ("minVal".toList, stripArg lo), ("maxVal".toList, stripArg hi)]⟩)) := by
  have hm := (c110_call line mode key (joinWith ',' args)).2 h
  have hr : readCall line = some (parseCall (mode, key, joinWith ',' args)) := by rw [readCall, hm]; rfl
  have hsplit : args ≠ [] → splitOn ',' (joinWith ',' args) = args := fun h0 => splitOn_join h0 hargs
  refine ⟨?_, ?_, ?_⟩
  · rintro hmode d lo hi rfl
    rw [hr, parseCall]
    simp only
    rw [hsplit (by simp), argumentNames, if_pos hmode]
    rw [Dict.ofItems_nodup _ (by simp only [List.map_cons, List.map_nil, List.zip_cons_cons, List.zip_nil_right]; decide)]
    rfl
  · rintro rfl d rfl
    rw [hr, parseCall]
    simp only
    rw [hsplit (by simp), argumentNames, if_neg (by decide), if_pos rfl]
    rfl
  · rintro rfl m n d lo hi rfl
    rw [hr, parseCall]
    simp only
    rw [hsplit (by simp), argumentNames, if_neg (by decide), if_neg (by decide), if_pos rfl]
    rw [Dict.ofItems_nodup _ (by simp only [List.map_cons, List.map_nil, List.zip_cons_cons, List.zip_nil_right]; decide)]
    rfl

/-- White space and quotation marks around an argument do not belong to it. -/
theorem c110_argument (a b s : Str) (ha : ∀ c ∈ a, c = ' ' ∨ c = '"') (hb : ∀ c ∈ b, c = ' ' ∨ c = '"')
    (h : ∀ c, s.head? = some c ∨ s.getLast? = some c → c ≠ ' ' ∧ c ≠ '"') : stripArg (a ++ s ++ b) = s := by
  refine stripBy_pad ?_ ?_ ⟨?_, ?_⟩
  · intro c hc; simpa using ha c hc
  · intro c hc; simpa using hb c hc
  · intro c hc; simpa using h c (Or.inl hc)
  · intro c hc; simpa using h c (Or.inr hc)

/-- Loading a configuration: every parameter has the arguments of its call; if its default names an array that the file
defines, then the default is the value of the array in brackets, and the limits are those of the call. -/
theorem c110_load (lines : List Str) (d : Dict Str Call) (h : loadConfiguration lines = .ok d) (k : Str) :
    (d.get? k = none ↔ (extract readCall lines).get? k = none) ∧
    ∀ c, (extract readCall lines).get? k = some c → ∃ x, c.args.get? "defaultVal".toList = some x ∧
      ((extract readVariable lines).get? x = none → d.get? k = some c) ∧
      ∀ v, (extract readVariable lines).get? x = some v → ∃ c', d.get? k = some c' ∧ c'.mode = c.mode ∧
        c'.args.get? "defaultVal".toList = some v ∧ c'.args.get? "minVal".toList = c.args.get? "minVal".toList ∧
        c'.args.get? "maxVal".toList = c.args.get? "maxVal".toList := by
  unfold loadConfiguration at h
  generalize extract readVariable lines = arrays at h ⊢
  generalize extract readCall lines = calls at h ⊢
  induction calls generalizing d with
  | nil =>
    obtain rfl : [] = d := Except.ok.inj h
    exact ⟨Iff.rfl, fun c hc => by cases hc⟩
  | cons p r ih =>
    obtain ⟨n, c⟩ := p
    unfold substituteAll at h
    cases hs : substitute arrays c with
    | error e => simp only [hs] at h; cases h
    | ok c' =>
      simp only [hs] at h
      cases hr : substituteAll arrays r with
      | error e => simp only [hr] at h; cases h
      | ok r' =>
        simp only [hr] at h
        obtain rfl := Except.ok.inj h
        have ih := ih r' hr
        rw [Dict.get?_cons, Dict.get?_cons]
        by_cases hk : n = k
        · subst hk
          simp only [if_true]
          refine ⟨by simp, ?_⟩
          rintro c₀ hc₀
          obtain rfl := Option.some.inj hc₀
          unfold substitute at hs
          cases hx : c.args.get? "defaultVal".toList with
          | none => simp only [hx] at hs; cases hs
          | some x =>
            simp only [hx] at hs
            refine ⟨x, rfl, ?_, ?_⟩
            · intro ha
              simp only [ha] at hs
              rw [Except.ok.inj hs]
            · intro v hv
              simp only [hv] at hs
              cases hhi : c.args.get? "maxVal".toList with
              | none => simp only [hhi] at hs; cases hs
              | some hi =>
                simp only [hhi] at hs
                cases hlo : c.args.get? "minVal".toList with
                | none => simp only [hlo] at hs; cases hs
                | some lo =>
                  simp only [hlo] at hs
                  obtain rfl := Except.ok.inj hs
                  exact ⟨_, rfl, rfl, rfl, rfl, rfl⟩
        · simp only [if_neg hk]
          exact ih

/-! ## What is not read as it is written -/

/-- A comma in the default of a string ends it: only the part before the comma is kept. -/
theorem c110_not_comma (line key a b : Str) (ha : ',' ∉ a) (h : IsCall line "readString".toList key (a ++ ",".toList ++ b)) :
    readCall line = some (key, ⟨"readString".toList, [("defaultVal".toList, stripArg a)]⟩) := by
  have hm := (c110_call line _ key _).2 h
  rw [readCall, hm]
  show some (parseCall _) = _
  rw [parseCall]
  simp only
  have : splitOn ',' (a ++ ",".toList ++ b) = a :: splitOn ',' b := by
    rw [List.append_assoc]; exact splitOn_append ha b
  rw [this, argumentNames, if_neg (by decide), if_pos rfl]
  rfl

/-- A comment after the value of a constant is part of the value. -/
theorem c110_not_comment (line name value comment : Str) (h : IsDefine line name value) (hc : comment ≠ [])
    (hv : ∀ c ∈ comment, ValueChar c) (hl : ∀ c, comment.getLast? = some c → isSpace c = false) :
    readConstant (strip line ++ " // ".toList ++ comment) = some (name, value ++ " // ".toList ++ comment) := by
  have hd := h
  obtain ⟨pre, s₁, s₂, post, e, hpre, hs1, h10, hs2, h20, hpost, hn0, hn, hv0, hvv, hvh, hvl⟩ := h
  have hstrip : strip line = "#define".toList ++ (s₁ ++ (name ++ (s₂ ++ value))) := by
    obtain ⟨pre', post', h1, h2, h3, h4, h5⟩ := strip_parts line
    subst e
    refine strip_body hpre hpost ?_ ?_
    · intro c hc
      obtain rfl : '#' = c := by simpa using hc
      decide
    · intro c hc
      refine hvl c ?_
      have : ∀ a : Str, (a ++ value).getLast? = value.getLast? := by
        intro a
        rw [List.getLast?_append]
        cases hl : value.getLast? with
        | none => exact absurd (List.getLast?_eq_none_iff.1 hl) hv0
        | some => rfl
      have h' := this ("#define".toList ++ (s₁ ++ (name ++ s₂)))
      simp only [List.append_assoc] at h' hc
      rw [← h']; exact hc
  refine (c110_constant _ _ _).2 ⟨[], s₁, s₂, [], ?_, by simp [Spaces], hs1, h10, hs2, h20, by simp [Spaces], hn0, hn, by simp,
    ?_, ?_, ?_⟩
  · rw [hstrip]; simp [List.append_assoc]
  · intro c hc'
    simp only [List.mem_append] at hc'
    rcases hc' with (hc' | hc') | hc'
    · exact hvv c hc'
    · have : c = ' ' ∨ c = '/' := by simp at hc'; tauto
      rcases this with rfl | rfl
      · exact Or.inr (Or.inl (by decide))
      · exact Or.inr (Or.inr (by decide))
    · exact hv c hc'
  · intro c hc'
    refine hvh c ?_
    cases value with
    | nil => exact absurd rfl hv0
    | cons d value => simpa using hc'
  · intro c hc'
    refine hl c ?_
    have : ∀ a : Str, (a ++ comment).getLast? = comment.getLast? := by
      intro a
      rw [List.getLast?_append]
      cases hl : comment.getLast? with
      | none => exact absurd (List.getLast?_eq_none_iff.1 hl) hc
      | some => rfl
    rw [← this]; exact hc'

/-- A call that is followed by a comment, or anything else that does not end in a semicolon, is not found at all. -/
theorem c110_not_followed (line : Str) (h : ∀ c, (strip line).getLast? = some c → c ≠ ';') : readCall line = none := by
  rw [readCall]
  cases hm : matchCall line with
  | none => rfl
  | some p =>
    obtain ⟨mode, key, args⟩ := p
    obtain ⟨pre, member, target, s₁, s₂, cast, s₃, post, rfl, hpre, hs1, hs2, hs3, hpost, hmem, ht0, ht, hcast, hm', hk, hn⟩ :=
      (c110_call _ _ _ _).1 hm
    exfalso
    have hlast : ∀ a : Str, (a ++ ");".toList).getLast? = some ';' := fun a => by simp
    have hl := hlast (member ++ (target ++ (s₁ ++ ("=".toList ++ (s₂ ++ (cast ++ (mode ++ ("(".toList ++ ("\"".toList ++ (key ++
      ("\"".toList ++ (s₃ ++ (",".toList ++ args)))))))))))))
    simp only [List.append_assoc] at hl
    refine h ';' ?_ rfl
    rw [strip_body hpre hpost ?_ ?_]
    · exact hl
    · intro c hc
      rcases hmem with rfl | rfl
      · cases target with
        | nil => exact absurd rfl ht0
        | cons d target =>
          simp at hc; subst hc
          exact not_space_of_word (ht _ (by simp))
      · obtain rfl : 'c' = c := by simpa using hc
        decide
    · intro c hc
      rw [hl] at hc
      obtain rfl : ';' = c := by simpa using hc
      decide

/-- Arrays of several numbers, and numbers with an exponent or a sign, are not found. -/
theorem c110_not_arrays : matchVariable "Scalar_t mass[2] = {1.0, 4.0};".toList = none ∧
    matchVariable "Scalar_t mass[1] = {1.0e-3};".toList = none ∧ matchVariable "Scalar_t mass[1] = {-1.0};".toList = none := by
  decide +kernel

/-! ## The hypotheses can be met -/

/-- lines as they are written in EPREM -/
example : readCall "  config.eMax = readDouble(\"eMax\", 1000.0, config.eMin, LARGEFLOAT);\n".toList =
    some ("eMax".toList, ⟨"readDouble".toList, [("defaultVal".toList, "1000.0".toList), ("minVal".toList, "config.eMin".toList),
      ("maxVal".toList, "LARGEFLOAT".toList)]⟩) := by decide +kernel

example : IsCall "  config.eMax = readDouble(\"eMax\", 1000.0, config.eMin, LARGEFLOAT);\n".toList "readDouble".toList
    "eMax".toList (joinWith ',' [" 1000.0".toList, " config.eMin".toList, " LARGEFLOAT".toList]) :=
  (c110_call _ _ _ _).1 (by decide +kernel)

example : IsCall "config.dir = (char*)readString(\"dir\", \"a,b\");".toList "readString".toList
    "dir".toList (" \"a".toList ++ ",".toList ++ "b\"".toList) :=
  (c110_call _ _ _ _).1 (by decide +kernel)

/-- the comma is lost -/
example : readCall "config.dir = (char*)readString(\"dir\", \"a,b\");".toList =
    some ("dir".toList, ⟨"readString".toList, [("defaultVal".toList, "a".toList)]⟩) :=
  c110_not_comma _ _ " \"a".toList "b\"".toList (by decide) ((c110_call _ _ _ _).1 (by decide +kernel))

example : IsVariable "  Scalar_t defaultMass[1] = {1.0};\n".toList "defaultMass".toList "1".toList "1.0".toList :=
  (c110_variable _ _ _ _).1 (by decide +kernel)

example : IsDefine "#define TAU ( AU / C )\n".toList "TAU".toList "( AU / C )".toList := (c110_constant _ _ _).1 (by decide +kernel)

/-- the comment is part of the value -/
example : readConstant "#define C 2.99792458e10 // speed of light".toList =
    some ("C".toList, "2.99792458e10 // speed of light".toList) :=
  c110_not_comment "#define C 2.99792458e10".toList "C".toList "2.99792458e10".toList "speed of light".toList
    ((c110_constant _ _ _).1 (by decide +kernel)) (by decide)
    (fun c hc => isValueChar_iff.1 (List.all_eq_true.1 (by decide +kernel) c hc)) (by simp; decide)

example : readCall "config.n = readInt(\"n\", 1, 0, 9); // number".toList = none :=
  c110_not_followed _ (fun c hc => by
    have : strip "config.n = readInt(\"n\", 1, 0, 9); // number".toList = "config.n = readInt(\"n\", 1, 0, 9); // number".toList := by
      decide +kernel
    rw [this] at hc
    obtain rfl : 'r' = c := by simpa using hc
    decide)

/-- a whole file -/
def exampleSource : List Str :=
  ["/* parameters */".toList, "  Scalar_t defaultMass[1] = {1.0};".toList,
    "  config.mass = readDoubleArray(\"mass\", 1, &config.numSpecies, defaultMass, 1.0, LARGEFLOAT);".toList,
    "  config.nodes = readInt(\"nodes\", 6, 1, LARGEINT);".toList]

example : loadConfiguration exampleSource = .ok
    [("mass".toList, ⟨"readDoubleArray".toList, [("defaultVal".toList, "[1.0]".toList), ("maxVal".toList, "LARGEFLOAT".toList),
        ("minVal".toList, "1.0".toList)]⟩),
      ("nodes".toList, ⟨"readInt".toList, [("defaultVal".toList, "6".toList), ("minVal".toList, "1".toList),
        ("maxVal".toList, "LARGEINT".toList)]⟩)] := by
  have h1 : extract readVariable exampleSource = [("defaultMass".toList, "[1.0]".toList)] := by decide +kernel
  have h2 : extract readCall exampleSource = [
      ("mass".toList, ⟨"readDoubleArray".toList, [("defaultSize".toList, "1".toList), ("size".toList, "&config.numSpecies".toList),
        ("defaultVal".toList, "defaultMass".toList), ("minVal".toList, "1.0".toList), ("maxVal".toList, "LARGEFLOAT".toList)]⟩),
      ("nodes".toList, ⟨"readInt".toList, [("defaultVal".toList, "6".toList), ("minVal".toList, "1".toList),
        ("maxVal".toList, "LARGEINT".toList)]⟩)] := by decide +kernel
  rw [loadConfiguration, h1, h2]
  rfl

end Eprem.Config
