import Verif.Spec.Config
import Verif.Lemmas.PyDict
import Verif.Lemmas.Print
import Mathlib.Data.List.Forall2
import Mathlib.Tactic.Ring
import Mathlib.Tactic.NormNum
import Mathlib.Data.Rat.Cast.CharZero

/-!
# Configuration files (C42) and list parameters (C45)
-/

namespace Eprem.Config

open Eprem Eprem.Symbolic

/-! ## C42 -/

theorem white_space {w : Str} (h : White w) : ∀ c ∈ w, isSpace c = true := fun c hc => (h c hc).1

theorem space_not_marker {comments : List Char} (hm : Markers comments) {c : Char} (h : isSpace c = true) : c ∉ comments :=
  fun hc => by rw [(hm c hc).1] at h; cases h

theorem space_not_eq {c : Char} (h : isSpace c = true) : c ≠ '=' := by rintro rfl; revert h; decide

theorem takeWhile_all {p : Char → Bool} {s : Str} (h : ∀ c ∈ s, p c = true) : s.takeWhile p = s := by
  induction s with
  | nil => rfl
  | cons c s ih => rw [List.takeWhile_cons_of_pos (h c (by simp)), ih (fun d hd => h d (by simp [hd]))]

theorem takeWhile_stop {p : Char → Bool} {s : Str} (h : ∀ c ∈ s, p c = true) {m : Char} (hm : p m = false) (r : Str) :
    (s ++ m :: r).takeWhile p = s := by
  induction s with
  | nil => rw [List.nil_append, List.takeWhile_cons_of_neg (by simp [hm])]
  | cons c s ih =>
    rw [List.cons_append, List.takeWhile_cons_of_pos (h c (by simp)), ih (fun d hd => h d (by simp [hd]))]

/-- The part of an entry before the comment. -/
theorem entry_body {comments : List Char} (hm : Markers comments) {w₁ key w₂ w₃ value w₄ : Str} (h1 : White w₁) (h2 : White w₂)
    (h3 : White w₃) (h4 : White w₄) (hk : Word comments key) (hv : Word comments value) :
    ∀ c ∈ (w₁ ++ key ++ w₂) ++ '=' :: (w₃ ++ value ++ w₄), (decide (c ∉ comments)) = true := by
  intro c hc
  have e : '=' ∉ comments := fun h => (hm _ h).2 rfl
  have w : ∀ {w : Str}, White w → c ∈ w → c ∉ comments := fun hw h => space_not_marker hm (hw c h).1
  simp only [List.mem_append, List.mem_cons] at hc
  rw [decide_eq_true_iff]
  rcases hc with ((h | h) | h) | h | (h | h) | h
  · exact w h1 h
  · exact (hk.1 c h).2.1
  · exact w h2 h
  · rw [h]; exact e
  · exact w h3 h
  · exact (hv.1 c h).2.1
  · exact w h4 h

theorem split_body {comments : List Char} {w₁ key w₂ w₃ value w₄ : Str} (h1 : White w₁) (h2 : White w₂)
    (h3 : White w₃) (h4 : White w₄) (hk : Word comments key) (hv : Word comments value) :
    ∃ a b, splitOn '=' (strip ((w₁ ++ key ++ w₂) ++ '=' :: (w₃ ++ value ++ w₄))) = [a, b] ∧ strip a = key ∧ strip b = value := by
  have eq : isSpace '=' = false := by decide
  -- leading white space of the key and trailing white space of the value may or may not be stripped
  have key_ne : ∀ c ∈ w₁ ++ key ++ w₂, c ≠ '=' := by
    intro c hc
    simp only [List.mem_append] at hc
    rcases hc with (h | h) | h
    · exact space_not_eq (h1 c h).1
    · exact (hk.1 c h).1
    · exact space_not_eq (h2 c h).1
  have val_ne : ∀ c ∈ w₃ ++ value ++ w₄, c ≠ '=' := by
    intro c hc
    simp only [List.mem_append] at hc
    rcases hc with (h | h) | h
    · exact space_not_eq (h3 c h).1
    · exact (hv.1 c h).1
    · exact space_not_eq (h4 c h).1
  obtain ⟨a, b, ha, hb, hs, -⟩ := stripBy_split isSpace ((w₁ ++ key ++ w₂) ++ '=' :: (w₃ ++ value ++ w₄))
  have hmem : '=' ∈ strip ((w₁ ++ key ++ w₂) ++ '=' :: (w₃ ++ value ++ w₄)) := mem_stripBy (by simp) eq
  obtain ⟨x, y, hxy⟩ := List.append_of_mem hmem
  rw [strip_eq] at hxy
  rw [hxy] at hs
  have hx : (w₁ ++ key ++ w₂) = a ++ x ∧ (w₃ ++ value ++ w₄) = y ++ b := by
    have h := hs
    rw [show a ++ (x ++ '=' :: y) ++ b = (a ++ x) ++ '=' :: (y ++ b) by simp] at h
    have hax : ∀ c ∈ a ++ x, c ≠ '=' := by
      intro c hc hce
      subst hce
      have : ((w₁ ++ key ++ w₂) ++ '=' :: (w₃ ++ value ++ w₄)).count '=' = 1 := by
        rw [List.count_append, List.count_cons, List.count_eq_zero.2 (fun h => key_ne _ h rfl),
          List.count_eq_zero.2 (fun h => val_ne _ h rfl)]; rfl
      rw [h, List.count_append, List.count_cons] at this
      have hpos := List.count_pos_iff.2 hc
      simp only [beq_self_eq_true, if_true] at this
      omega
    have := congrArg (splitOn '=') h
    rw [splitOn_append (fun h => key_ne _ h rfl), splitOn_append (fun h => hax _ h rfl),
      splitOn_none (fun h => val_ne _ h rfl)] at this
    obtain ⟨h1, h2⟩ := List.cons.inj this
    refine ⟨h1, ?_⟩
    rw [h1] at h
    simpa using h
  obtain ⟨hx1, hx2⟩ := hx
  have hxe : '=' ∉ x := fun h => key_ne '=' (by rw [hx1]; simp [h]) rfl
  have hye : '=' ∉ y := fun h => val_ne '=' (by rw [hx2]; simp [h]) rfl
  refine ⟨x, y, ?_, ?_, ?_⟩
  · rw [strip_eq, hxy, splitOn_append hxe, splitOn_none hye]
  · -- stripping `a ++ x` and `x` is the same
    have h5 : strip (a ++ x) = key := by rw [← hx1, strip_eq]; exact stripBy_pad (white_space h1) (white_space h2) hk.2
    rw [← h5, strip_eq, strip_eq]
    unfold stripBy
    rw [dropWhile_all ha]
  · have h5 : strip (y ++ b) = value := by rw [← hx2, strip_eq]; exact stripBy_pad (white_space h3) (white_space h4) hv.2
    rw [← h5, strip_eq, strip_eq]
    obtain ⟨p, q, hp, hq, hy, ht⟩ := stripBy_split isSpace y
    conv_rhs => rw [hy, show p ++ stripBy isSpace y ++ q ++ b = p ++ stripBy isSpace y ++ (q ++ b) by simp]
    rw [stripBy_pad hp (by intro c hc; rcases List.mem_append.1 hc with h | h; exacts [hq c h, hb c h]) ht]

/-- A well-formed line gives its pair. -/
theorem parse_line {comments : List Char} (hm : Markers comments) {l : Line} (h : l.Ok comments) :
    parseLine comments l.text = .ok l.pair := by
  cases l with
  | blank => rfl
  | comment m rest =>
    show parseLine comments (m :: rest) = _
    rw [parseLine, if_pos h.1]; rfl
  | entry w₁ key w₂ w₃ value w₄ c =>
    obtain ⟨h1, h2, h3, h4, hk, hv, hc⟩ := h
    have hb := entry_body hm h1 h2 h3 h4 hk hv
    have key_lemma : ∀ text : Str, text.takeWhile (fun c => decide (c ∉ comments)) =
        (w₁ ++ key ++ w₂) ++ '=' :: (w₃ ++ value ++ w₄) → parseLine comments text = .ok (some (key, value)) := by
      intro text ht
      cases text with
      | nil => simp at ht
      | cons x s =>
        rw [parseLine, if_neg]
        · obtain ⟨a, b, hab, ha, hb⟩ := split_body h1 h2 h3 h4 hk hv
          rw [stripInline_eq, ht, hab]
          simp only [ha, hb]
        · intro hx
          rw [List.takeWhile_cons_of_neg (by simp [hx])] at ht
          simp at ht
    cases c with
    | none => exact key_lemma _ (takeWhile_all hb)
    | some mr =>
      obtain ⟨m, rest⟩ := mr
      exact key_lemma _ (takeWhile_stop hb (by simp [(hc m rest rfl).1]) rest)

theorem parse_lines {comments : List Char} (hm : Markers comments) :
    ∀ (ls : List Line) (d : Dict Str Str), (∀ l ∈ ls, l.Ok comments) →
    parseLines comments d (ls.map Line.text) = .ok ((ls.filterMap Line.pair).foldl (fun d p => d.set p.1 p.2) d)
  | [], d, _ => rfl
  | l :: ls, d, h => by
    rw [List.map_cons, parseLines, parse_line hm (h l (by simp))]
    cases hp : l.pair with
    | none =>
      simp only
      rw [parse_lines hm ls d (fun x hx => h x (by simp [hx])), List.filterMap_cons_none hp]
    | some p =>
      obtain ⟨k, v⟩ := p
      simp only
      rw [parse_lines hm ls _ (fun x hx => h x (by simp [hx])), List.filterMap_cons_some hp]
      rfl

theorem get_foldl (pairs : List (Str × Str)) (d : Dict Str Str) (k : Str) :
    Dict.get? (pairs.foldl (fun d p => d.set p.1 p.2) d) k = (lastValue pairs k).or (d.get? k) := by
  induction pairs generalizing d with
  | nil => simp [lastValue]
  | cons p ps ih =>
    rw [List.foldl_cons, ih, Dict.get?_set]
    unfold lastValue
    rw [List.reverse_cons, List.find?_append]
    cases hf : ps.reverse.find? (fun p => decide (p.1 = k)) with
    | some q => simp
    | none =>
      by_cases h : p.1 = k
      · simp [h]
      · simp [h, Ne.symm h]

theorem keys_foldl (pairs : List (Str × Str)) (d : Dict Str Str) (k : Str) :
    k ∈ Dict.keys (pairs.foldl (fun d p => d.set p.1 p.2) d) ↔ k ∈ d.keys ∨ k ∈ pairs.map Prod.fst := by
  induction pairs generalizing d with
  | nil => simp
  | cons p ps ih =>
    rw [List.foldl_cons, ih, Dict.mem_keys_set, List.map_cons, List.mem_cons]
    tauto

theorem newline_text {comments : List Char} (hm : '\n' ∉ comments) {l : Line} (h : l.Ok comments) : '\n' ∉ l.text := by
  cases l with
  | blank => simp [Line.text]
  | comment m rest =>
    intro hc
    rcases List.mem_cons.1 hc with hc | hc
    · exact hm (hc ▸ h.1)
    · exact h.2 hc
  | entry w₁ key w₂ w₃ value w₄ c =>
    obtain ⟨h1, h2, h3, h4, hk, hv, hcm⟩ := h
    have hb : '\n' ∉ (w₁ ++ key ++ w₂) ++ '=' :: (w₃ ++ value ++ w₄) := by
      simp only [List.mem_append, List.mem_cons, not_or]
      refine ⟨⟨⟨?_, ?_⟩, ?_⟩, by decide, ⟨?_, ?_⟩, ?_⟩
      · exact fun h => (h1 _ h).2 rfl
      · exact fun h => (hk.1 _ h).2.2 rfl
      · exact fun h => (h2 _ h).2 rfl
      · exact fun h => (h3 _ h).2 rfl
      · exact fun h => (hv.1 _ h).2.2 rfl
      · exact fun h => (h4 _ h).2 rfl
    cases c with
    | none => exact hb
    | some mr =>
      obtain ⟨m, rest⟩ := mr
      obtain ⟨ha, hr⟩ := hcm m rest rfl
      intro hc
      rcases List.mem_append.1 (show '\n' ∈ ((w₁ ++ key ++ w₂) ++ '=' :: (w₃ ++ value ++ w₄)) ++ m :: rest by
        simpa [Line.text] using hc) with hc | hc
      · exact hb hc
      · rcases List.mem_cons.1 hc with hc | hc
        · exact hm (hc ▸ ha)
        · exact hr hc

theorem marker_newline {comments : List Char} (hm : Markers comments) : '\n' ∉ comments :=
  fun h => absurd (hm _ h).1 (by decide)

/-- **C42**: reading the file that lists these lines gives, for each key, the value in the last line with this key, and no
other keys. -/
theorem c42_parse {comments : List Char} (hm : Markers comments) (ls : List Line) (h : ∀ l ∈ ls, l.Ok comments) :
    ∃ d, parseConfig comments (joinWith '\n' (ls.map Line.text)) = .ok d ∧
      (∀ k, d.get? k = lastValue (ls.filterMap Line.pair) k) ∧
      (∀ k, k ∈ d.keys ↔ k ∈ (ls.filterMap Line.pair).map Prod.fst) ∧ d.WF := by
  refine ⟨Dict.ofItems (ls.filterMap Line.pair), ?_, ?_, ?_, Dict.ofItems_wf _⟩
  · unfold parseConfig
    cases ls with
    | nil => rfl
    | cons l ls =>
      rw [splitOn_join (by simp)]
      · exact parse_lines hm _ _ h
      · intro p hp
        obtain ⟨l', hl', rfl⟩ := List.mem_map.1 hp
        exact newline_text (marker_newline hm) (h l' hl')
  · intro k
    rw [Dict.ofItems, get_foldl]
    simp [Dict.get?]
  · intro k
    rw [Dict.ofItems, keys_foldl]
    simp [Dict.keys]

/-- **C42**: the order of the comment markers, which come from a set, does not matter. -/
theorem c42_markers {c₁ c₂ : List Char} (h : ∀ c, c ∈ c₁ ↔ c ∈ c₂) (text : Str) : parseConfig c₁ text = parseConfig c₂ text := by
  have hline : ∀ line, parseLine c₁ line = parseLine c₂ line := by
    intro line
    cases line with
    | nil => rfl
    | cons c s =>
      rw [parseLine, parseLine, stripInline_eq, stripInline_eq]
      simp only [h]
  have hlines : ∀ (ls : List Str) (d : Dict Str Str), parseLines c₁ d ls = parseLines c₂ d ls := by
    intro ls
    induction ls with
    | nil => intro d; rfl
    | cons l ls ih =>
      intro d
      rw [parseLines, parseLines, hline]
      split
      · rfl
      · exact ih d
      · exact ih _
  exact hlines _ _

/-! ### Only such files are accepted -/

theorem takeWhile_cases (p : Char → Bool) (s : Str) : s.takeWhile p = s ∨ ∃ m r, p m = false ∧ s = s.takeWhile p ++ m :: r := by
  induction s with
  | nil => exact .inl rfl
  | cons c s ih =>
    by_cases h : p c = true
    · rw [List.takeWhile_cons_of_pos h]
      rcases ih with ih | ⟨m, r, hm, hr⟩
      · exact .inl (by rw [ih])
      · exact .inr ⟨m, r, hm, by rw [List.cons_append, ← hr]⟩
    · rw [List.takeWhile_cons_of_neg h]
      exact .inr ⟨c, s, by simpa using h, rfl⟩

theorem mem_takeWhile {p : Char → Bool} {s : Str} {c : Char} (h : c ∈ s.takeWhile p) : p c = true ∧ c ∈ s := by
  induction s with
  | nil => cases h
  | cons d s ih =>
    by_cases hd : p d = true
    · rw [List.takeWhile_cons_of_pos hd] at h
      rcases List.mem_cons.1 h with rfl | h
      · exact ⟨hd, by simp⟩
      · exact ⟨(ih h).1, by simp [(ih h).2]⟩
    · rw [List.takeWhile_cons_of_neg hd] at h; cases h

theorem line_of_parse {comments : List Char} {text : Str} (hn : '\n' ∉ text) {p : Option (Str × Str)}
    (h : parseLine comments text = .ok p) : ∃ l : Line, l.Ok comments ∧ l.text = text ∧ l.pair = p := by
  cases text with
  | nil => cases h; exact ⟨.blank, trivial, rfl, rfl⟩
  | cons x s =>
    rw [parseLine] at h
    split at h
    next hx =>
      cases h
      exact ⟨.comment x s, ⟨hx, fun h => hn (by simp [h])⟩, rfl, rfl⟩
    next hx =>
      split at h
      next key value hs =>
        cases h
        rw [stripInline_eq] at hs
        generalize hb : (x :: s).takeWhile (fun c => decide (c ∉ comments)) = body at hs
        have hbody : ∀ c ∈ body, c ∉ comments ∧ c ≠ '\n' := by
          intro c hc
          rw [← hb] at hc
          obtain ⟨h1, h2⟩ := mem_takeWhile hc
          exact ⟨by simpa using h1, fun he => hn (he ▸ h2)⟩
        obtain ⟨a, b, ha, hbb, hsplit, -⟩ := stripBy_split isSpace body
        rw [strip_eq] at hs
        have hjoin := join_splitOn '=' (stripBy isSpace body)
        rw [hs] at hjoin
        simp only [joinWith] at hjoin
        obtain ⟨k1, k2, hk1, hk2, hk, hkt⟩ := stripBy_split isSpace key
        obtain ⟨v1, v2, hv1, hv2, hv, hvt⟩ := stripBy_split isSpace value
        have hke : '=' ∉ key := splitOn_mem (s := stripBy isSpace body) (by rw [hs]; simp)
        have hve : '=' ∉ value := splitOn_mem (s := stripBy isSpace body) (by rw [hs]; simp)
        have hall : body = ((a ++ k1) ++ strip key ++ k2) ++ '=' :: (v1 ++ strip value ++ (v2 ++ b)) := by
          rw [hsplit, ← hjoin]
          conv_lhs => rw [hk, hv]
          simp [strip_eq]
        have hwhite : ∀ w : Str, (∀ c ∈ w, isSpace c = true) → (∀ c ∈ w, c ∈ body) → White w :=
          fun w h1 h2 c hc => ⟨h1 c hc, (hbody c (h2 c hc)).2⟩
        have hsub : ∀ c, c ∈ key ∨ c ∈ value ∨ c ∈ a ∨ c ∈ b → c ∈ body := by
          intro c hc
          rw [hsplit, ← hjoin]
          simp only [List.mem_append, List.mem_cons]
          tauto
        have kmem : ∀ c, c ∈ k1 ∨ c ∈ strip key ∨ c ∈ k2 → c ∈ key := by
          intro c hc; rw [hk]; simp only [List.mem_append]; simp only [strip_eq] at hc; tauto
        have vmem : ∀ c, c ∈ v1 ∨ c ∈ strip value ∨ c ∈ v2 → c ∈ value := by
          intro c hc; rw [hv]; simp only [List.mem_append]; simp only [strip_eq] at hc; tauto
        have hok : ∀ cm : Option (Char × Str), (∀ m rest, cm = some (m, rest) → m ∈ comments ∧ '\n' ∉ rest) →
            (Line.entry (a ++ k1) (strip key) k2 v1 (strip value) (v2 ++ b) cm).Ok comments := by
          intro cm hcm
          refine ⟨?_, ?_, ?_, ?_, ⟨?_, ?_⟩, ⟨?_, ?_⟩, hcm⟩
          · refine hwhite _ ?_ ?_
            · intro c hc; rcases List.mem_append.1 hc with h | h; exacts [ha c h, hk1 c h]
            · intro c hc; rcases List.mem_append.1 hc with h | h
              exacts [hsub c (.inr (.inr (.inl h))), hsub c (.inl (kmem c (.inl h)))]
          · exact hwhite _ hk2 (fun c hc => hsub c (.inl (kmem c (.inr (.inr hc)))))
          · exact hwhite _ hv1 (fun c hc => hsub c (.inr (.inl (vmem c (.inl hc)))))
          · refine hwhite _ ?_ ?_
            · intro c hc; rcases List.mem_append.1 hc with h | h; exacts [hv2 c h, hbb c h]
            · intro c hc; rcases List.mem_append.1 hc with h | h
              exacts [hsub c (.inr (.inl (vmem c (.inr (.inr h))))), hsub c (.inr (.inr (.inr h)))]
          · intro c hc
            have hck := kmem c (.inr (.inl hc))
            obtain ⟨h1, h2⟩ := hbody c (hsub c (.inl hck))
            exact ⟨fun he => hke (he ▸ hck), h1, h2⟩
          · exact hkt
          · intro c hc
            have hck := vmem c (.inr (.inl hc))
            obtain ⟨h1, h2⟩ := hbody c (hsub c (.inr (.inl hck)))
            exact ⟨fun he => hve (he ▸ hck), h1, h2⟩
          · exact hvt
        rcases takeWhile_cases (fun c => decide (c ∉ comments)) (x :: s) with he | ⟨m, r, hm, hr⟩
        · refine ⟨.entry (a ++ k1) (strip key) k2 v1 (strip value) (v2 ++ b) none, hok none nofun, ?_, rfl⟩
          rw [← he, hb, hall]; rfl
        · refine ⟨.entry (a ++ k1) (strip key) k2 v1 (strip value) (v2 ++ b) (some (m, r)), hok _ ?_, ?_, rfl⟩
          · intro m' r' h
            cases h
            refine ⟨by simpa using hm, fun h => hn ?_⟩
            rw [hr]; simp [h]
          · rw [hr, hb, hall]; rfl
      · cases h

theorem lines_of_parse {comments : List Char} : ∀ (texts : List Str) (d : Dict Str Str) {r : Dict Str Str},
    (∀ t ∈ texts, '\n' ∉ t) → parseLines comments d texts = .ok r →
    ∃ ls : List Line, (∀ l ∈ ls, l.Ok comments) ∧ ls.map Line.text = texts
  | [], _, _, _, _ => ⟨[], by simp, rfl⟩
  | t :: ts, d, r, hn, h => by
    rw [parseLines] at h
    split at h
    · cases h
    next hp =>
      obtain ⟨l, h1, h2, _⟩ := line_of_parse (hn t (by simp)) hp
      obtain ⟨ls, h3, h4⟩ := lines_of_parse ts d (fun x hx => hn x (by simp [hx])) h
      exact ⟨l :: ls, by simpa using ⟨h1, h3⟩, by simp [h2, h4]⟩
    next hp =>
      obtain ⟨l, h1, h2, _⟩ := line_of_parse (hn t (by simp)) hp
      obtain ⟨ls, h3, h4⟩ := lines_of_parse ts _ (fun x hx => hn x (by simp [hx])) h
      exact ⟨l :: ls, by simpa using ⟨h1, h3⟩, by simp [h2, h4]⟩

/-- **C42**, the files that can be read are exactly those made of empty lines, lines that start with a comment marker, and
entries. -/
theorem c42_accepted {comments : List Char} (hm : Markers comments) (text : Str) :
    (∃ d, parseConfig comments text = .ok d) ↔
      ∃ ls : List Line, (∀ l ∈ ls, l.Ok comments) ∧ text = joinWith '\n' (ls.map Line.text) := by
  constructor
  · rintro ⟨d, h⟩
    obtain ⟨ls, h1, h2⟩ := lines_of_parse (splitOn '\n' text) [] (fun t ht => splitOn_mem ht) h
    exact ⟨ls, h1, by rw [h2, join_splitOn]⟩
  · rintro ⟨ls, h, rfl⟩
    obtain ⟨d, hd, _⟩ := c42_parse hm ls h
    exact ⟨d, hd⟩

/-- **C42** fails for blank lines that contain white space: the file cannot be read. -/
theorem c42_not_blank (comments : List Char) (hm : Markers comments) (w : Str) (hw : White w) (hne : w ≠ []) (rest : Str) :
    parseConfig comments (w ++ '\n' :: rest) = .error .value := by
  have hn : '\n' ∉ w := fun h => (hw _ h).2 rfl
  unfold parseConfig
  rw [splitOn_append hn, parseLines]
  cases w with
  | nil => exact absurd rfl hne
  | cons c s =>
    have hc : c ∉ comments := space_not_marker hm (hw c (by simp)).1
    have htake : (c :: s).takeWhile (fun c => decide (c ∉ comments)) = c :: s :=
      takeWhile_all (fun d hd => by simpa using space_not_marker hm (hw d hd).1)
    have hstrip : strip (c :: s) = [] := by
      have := stripBy_pad (p := isSpace) (a := c :: s) (s := []) (b := []) (white_space hw) (by simp) ⟨by simp, by simp⟩
      rw [strip_eq]; simpa using this
    have : parseLine comments (c :: s) = .error .value := by
      rw [parseLine, if_neg hc, stripInline_eq, htake, hstrip]; rfl
    rw [this]

/-- **C42** fails for comments after white space: the file cannot be read. -/
theorem c42_not_indented (comments : List Char) (hm : Markers comments) (w : Str) (hw : White w) (hne : w ≠ []) (m : Char)
    (h : m ∈ comments) (text rest : Str) (ht : '\n' ∉ text) :
    parseConfig comments (w ++ m :: text ++ '\n' :: rest) = .error .value := by
  have hn : '\n' ∉ w ++ m :: text := by
    intro hc
    rcases List.mem_append.1 hc with hc | hc
    · exact (hw _ hc).2 rfl
    · rcases List.mem_cons.1 hc with hc | hc
      · exact marker_newline hm (hc ▸ h)
      · exact ht hc
  unfold parseConfig
  rw [splitOn_append hn, parseLines]
  cases w with
  | nil => exact absurd rfl hne
  | cons c s =>
    have hc : c ∉ comments := space_not_marker hm (hw c (by simp)).1
    have htake : (c :: s ++ m :: text).takeWhile (fun c => decide (c ∉ comments)) = c :: s :=
      takeWhile_stop (fun d hd => by simpa using space_not_marker hm (hw d hd).1) (by simp [h]) text
    have hstrip : strip (c :: s) = [] := by
      have := stripBy_pad (p := isSpace) (a := c :: s) (s := []) (b := []) (white_space hw) (by simp) ⟨by simp, by simp⟩
      rw [strip_eq]; simpa using this
    have : parseLine comments (c :: s ++ m :: text) = .error .value := by
      rw [List.cons_append, parseLine, if_neg hc, ← List.cons_append, stripInline_eq, htake, hstrip]; rfl
    rw [this]

/-! ### An example -/

theorem hash_markers : Markers ['#'] := by
  intro c hc
  rw [List.mem_singleton] at hc
  subst hc
  decide

/-- A file with a comment, an empty line, an inline comment, and a repeated key. -/
def sampleLines : List Line :=
  [.comment '#' [' ', 'r', 'u', 'n'], .entry [] ['a'] [' '] [' '] ['1'] [' '] (some ('#', [' ', 'x', '=', '2'])), .blank,
    .entry [' '] ['b'] [] [] [] [] none, .entry [] ['a'] [] [] ['-', '3'] [] none]

theorem sample_ok : ∀ l ∈ sampleLines, l.Ok ['#'] := by
  have hw : ∀ s : Str, s.all (fun c => isSpace c && decide (c ≠ '\n')) = true → White s := by
    intro s h c hc
    have := List.all_eq_true.1 h c hc
    simpa using this
  have ht : ∀ s : Str, s.all (fun c => decide (c ≠ '=' ∧ c ∉ ['#'] ∧ c ≠ '\n') && !isSpace c) = true → Word ['#'] s := by
    intro s h
    have h' : ∀ c ∈ s, (c ≠ '=' ∧ c ∉ ['#'] ∧ c ≠ '\n') ∧ isSpace c = false := by
      intro c hc
      have := List.all_eq_true.1 h c hc
      simpa using this
    exact ⟨fun c hc => (h' c hc).1, fun c hc => (h' c (List.mem_of_mem_head? hc)).2,
      fun c hc => (h' c (List.mem_of_getLast? hc)).2⟩
  intro l hl
  simp only [sampleLines, List.mem_cons, List.not_mem_nil, or_false] at hl
  rcases hl with rfl | rfl | rfl | rfl | rfl
  · exact ⟨by decide, by decide⟩
  · refine ⟨hw _ (by decide), hw _ (by decide), hw _ (by decide), hw _ (by decide), ht _ (by decide), ht _ (by decide), ?_⟩
    intro m r h; cases h; exact ⟨by decide, by decide⟩
  · trivial
  · exact ⟨hw _ (by decide), hw _ (by decide), hw _ (by decide), hw _ (by decide), ht _ (by decide), ht _ (by decide), nofun⟩
  · exact ⟨hw _ (by decide), hw _ (by decide), hw _ (by decide), hw _ (by decide), ht _ (by decide), ht _ (by decide), nofun⟩

example : ∃ d, parseConfig ['#'] (joinWith '\n' (sampleLines.map Line.text)) = .ok d ∧ d.get? ['a'] = some ['-', '3'] ∧
    d.get? ['b'] = some [] ∧ d.get? ['x'] = none := by
  obtain ⟨d, h1, h2, _⟩ := c42_parse hash_markers sampleLines sample_ok
  exact ⟨d, h1, by rw [h2]; decide, by rw [h2]; decide, by rw [h2]; decide⟩

example : parseConfig ['#'] [' ', '\n'] = .error .value :=
  c42_not_blank ['#'] hash_markers [' '] (by intro c hc; rw [List.mem_singleton] at hc; subst hc; decide) (by decide) []

/-! ## C45 -/

section Lists

variable {R : Type} [Field R]

theorem allSome_ok {α : Type} : ∀ {l : List (Option α)} {xs : List α}, List.Forall₂ (fun o x => o = some x) l xs →
    allSome l = some xs
  | _, _, .nil => rfl
  | _, _, .cons h hs => by rw [h, allSome, allSome_ok hs]

theorem bracket_trim {ts : Str} (hne : ts ≠ []) (h : ∀ c ∈ ts, c ≠ '[' ∧ c ≠ ']') :
    stripBrackets ('[' :: ts ++ [']']) = ts := by
  unfold stripBrackets
  have := stripBy_pad (p := fun c => c = '[' || c = ']') (a := ['[']) (s := ts) (b := [']']) (by simp) (by simp)
    ⟨fun c hc => by simp [h c (List.mem_of_mem_head? hc)], fun c hc => by simp [h c (List.mem_of_getLast? hc)]⟩
  simpa using this

theorem join_mem {d : Char} : ∀ {ps : List Str} {c : Char}, c ∈ joinWith d ps → c = d ∨ ∃ p ∈ ps, c ∈ p
  | [], _, h => by cases h
  | [p], c, h => .inr ⟨p, by simp, h⟩
  | p :: q :: ps, c, h => by
    rw [joinWith, List.mem_append, List.mem_cons] at h
    rcases h with h | h | h
    · exact .inr ⟨p, by simp, h⟩
    · exact .inl h
    · rcases join_mem h with h | ⟨r, hr, h⟩
      · exact .inl h
      · exact .inr ⟨r, by simp [hr], h⟩

/-- **C45**, for all items that can be converted to numbers: `[item, item, …]` reads as the list of these numbers, whatever
spaces and quotes are around the items. -/
theorem c45_list (N : Numbers R) (items : List Str) (xs : List R) (hne : joinWith ',' items ≠ [])
    (hc : ∀ t ∈ items, ∀ c ∈ t, c ≠ ',' ∧ c ≠ '[' ∧ c ≠ ']')
    (h : List.Forall₂ (fun t x => cast N (stripItem t) = some x) items xs) :
    convert N .list ('[' :: joinWith ',' items ++ [']']) = .list xs := by
  have hb : stripBrackets ('[' :: joinWith ',' items ++ [']']) = joinWith ',' items := by
    apply bracket_trim hne
    intro c hcm
    rcases join_mem hcm with rfl | ⟨t, ht, hct⟩
    · decide
    · exact (hc t ht c hct).2
  have hi : items ≠ [] := by rintro rfl; exact hne rfl
  have hs : stringlist N ('[' :: joinWith ',' items ++ [']']) = some xs := by
    unfold stringlist
    rw [if_pos ⟨rfl, by rw [List.getLast?_concat]⟩, hb, if_neg hne, splitOn_join hi (fun p hp hcp => (hc p hp _ hcp).1 rfl)]
    apply allSome_ok
    rw [List.forall₂_map_left_iff]
    exact h
  unfold convert
  simp only [hs]

/-- An integer with spaces and quotes around it. -/
def paddedInt (p : Str × Int × Str) : Str := p.1 ++ showInt p.2.1 ++ p.2.2

theorem digit_plain {c : Char} (h : isDigit c = true) : isSpace c = false ∧ c ≠ '\'' ∧ c ≠ ',' ∧ c ≠ '[' ∧ c ≠ ']' ∧ c ≠ '_' ∧
    c ≠ '-' ∧ c ≠ '+' := by
  refine ⟨digit_not_space h, ?_, ?_, ?_, ?_, ?_, ?_, ?_⟩ <;> (rintro rfl; revert h; decide)

theorem showInt_plain {z : Int} {c : Char} (h : c ∈ showInt z) : isSpace c = false ∧ c ≠ '\'' ∧ c ≠ ',' ∧ c ≠ '[' ∧ c ≠ ']' := by
  have hd : ∀ n, c ∈ showNat n → isSpace c = false ∧ c ≠ '\'' ∧ c ≠ ',' ∧ c ≠ '[' ∧ c ≠ ']' := by
    intro n hc
    have := digit_plain ((showNat_digits n).2 c hc)
    tauto
  unfold showInt at h
  split at h
  · rcases List.mem_cons.1 h with rfl | h
    · decide
    · exact hd _ h
  · exact hd _ h

theorem space_blank : isSpace ' ' = true := by decide

theorem numeral_show (n : Nat) : numeralDigits (showNat n) = some (showNat n) := by
  unfold numeralDigits
  have hs : splitOn '_' (showNat n) = [showNat n] :=
    splitOn_none (fun h => (digit_plain ((showNat_digits n).2 _ h)).2.2.2.2.2.1 rfl)
  rw [hs, if_pos]
  · simp
  · have h1 := (showNat_digits n).1
    have h2 := (showNat_digits n).2
    simp only [List.all_cons, List.all_nil, Bool.and_true, Bool.and_eq_true, List.all_eq_true]
    exact ⟨by cases h : showNat n <;> simp_all, h2⟩

theorem takeSign_show (n : Nat) : takeSign (showNat n) = (false, showNat n) := by
  cases h : showNat n with
  | nil => rfl
  | cons c s =>
    have := digit_plain ((showNat_digits n).2 c (by rw [h]; simp))
    unfold takeSign
    split
    · next h => cases h; exact absurd rfl this.2.2.2.2.2.2.1
    · next h => cases h; exact absurd rfl this.2.2.2.2.2.2.2
    · rfl

/-- `int(str(z))` is `z`. -/
theorem pyInt_show (z : Int) : pyInt (showInt z) = some z := by
  have hstrip : strip (showInt z) = showInt z := by
    rw [strip_eq]
    exact stripBy_trimmed ⟨fun c hc => (showInt_plain (List.mem_of_mem_head? hc)).1,
      fun c hc => (showInt_plain (List.mem_of_getLast? hc)).1⟩
  unfold pyInt
  rw [hstrip]
  unfold showInt
  by_cases h : z < 0
  · rw [if_pos h]
    show (numeralDigits (showNat z.natAbs)).map _ = _
    rw [numeral_show, Option.map_some, showNat_val]
    simp only [if_true]
    congr 1; omega
  · rw [if_neg h, takeSign_show]
    show (numeralDigits (showNat z.natAbs)).map _ = _
    rw [numeral_show, Option.map_some, showNat_val]
    simp only [Bool.false_eq_true, if_false]
    congr 1; omega

theorem strip_padded {a b : Str} {z : Int} (ha : ∀ c ∈ a, c = ' ' ∨ c = '\'') (hb : ∀ c ∈ b, c = ' ' ∨ c = '\'') :
    stripItem (a ++ showInt z ++ b) = showInt z := by
  unfold stripItem
  have key : ∀ c ∈ showInt z, (decide (c = ' ') || decide (c = '\'')) = false := by
    intro c hc
    have := showInt_plain hc
    have h1 : c ≠ ' ' := by rintro rfl; rw [space_blank] at this; exact absurd this.1 (by decide)
    simp [h1, this.2.1]
  exact stripBy_pad (fun c hc => by simpa using ha c hc) (fun c hc => by simpa using hb c hc)
    ⟨fun c hc => key c (List.mem_of_mem_head? hc), fun c hc => key c (List.mem_of_getLast? hc)⟩

theorem join_ne {d : Char} {p : Str} {ps : List Str} (h : p ≠ []) : joinWith d (p :: ps) ≠ [] := by
  cases ps with
  | nil => rw [joinWith]; exact h
  | cons q ps => rw [joinWith]; simp

/-- **C45**: a list of integers, written with commas between them, in brackets, with any spaces and quotes around the
integers, reads as exactly these integers. -/
theorem c45_integers (N : Numbers R) (items : List (Str × Int × Str)) (hne : items ≠ [])
    (hp : ∀ p ∈ items, (∀ c ∈ p.1, c = ' ' ∨ c = '\'') ∧ (∀ c ∈ p.2.2, c = ' ' ∨ c = '\'')) :
    convert N .list ('[' :: joinWith ',' (items.map paddedInt) ++ [']']) =
      .list (items.map (fun p => ((p.2.1 : Int) : R))) := by
  apply c45_list
  · cases items with
    | nil => exact absurd rfl hne
    | cons p ps =>
      rw [List.map_cons]
      apply join_ne
      have : showInt p.2.1 ≠ [] := by
        intro h
        have h1 := pyInt_show p.2.1
        rw [h] at h1
        exact absurd h1 (by simp [pyInt, strip, takeSign, numeralDigits, splitOn])
      intro h
      simp [paddedInt, this] at h
  · intro t ht c hc
    obtain ⟨p, hpm, rfl⟩ := List.mem_map.1 ht
    simp only [paddedInt, List.mem_append] at hc
    rcases hc with (hc | hc) | hc
    · rcases (hp p hpm).1 c hc with rfl | rfl <;> decide
    · exact (showInt_plain hc).2.2
    · rcases (hp p hpm).2 c hc with rfl | rfl <;> decide
  · rw [List.forall₂_map_left_iff, List.forall₂_map_right_iff, List.forall₂_same]
    intro p hpm
    rw [paddedInt, strip_padded (hp p hpm).1 (hp p hpm).2]
    unfold cast
    rw [pyInt_show]

/-- **C45**: empty brackets read as the empty list. -/
theorem c45_empty (N : Numbers R) : convert N .list ['[', ']'] = .list [] := by
  unfold convert stringlist
  rw [if_pos (by decide), if_pos (by decide)]

/-- **C45** fails for brackets around spaces: the text is left as it is, unless the empty text is a number. -/
theorem c45_not_spaces (N : Numbers R) (h : cast N [] = none) (n : Nat) :
    convert N .list ('[' :: List.replicate (n + 1) ' ' ++ [']']) = .text ('[' :: List.replicate (n + 1) ' ' ++ [']']) := by
  have hb : stripBrackets ('[' :: List.replicate (n + 1) ' ' ++ [']']) = List.replicate (n + 1) ' ' := by
    apply bracket_trim (by simp)
    intro c hc
    rw [List.mem_replicate] at hc
    rw [hc.2]; decide
  have hi : stripItem (List.replicate (n + 1) ' ') = [] := by
    have := stripBy_pad (p := fun c => decide (c = ' ') || decide (c = '\'')) (a := List.replicate (n + 1) ' ') (s := [])
      (b := []) (by intro c hc; rw [List.mem_replicate] at hc; simp [hc.2]) (by simp) ⟨by simp, by simp⟩
    unfold stripItem
    simpa using this
  have hs : stringlist N ('[' :: List.replicate (n + 1) ' ' ++ [']']) = none := by
    unfold stringlist
    rw [if_pos ⟨rfl, by rw [List.getLast?_concat]⟩, hb, if_neg (by simp), splitOn_none (by simp [List.mem_replicate])]
    simp [hi, h, allSome]
  unfold convert
  simp only [hs]

/-- No numbers but integers. -/
def integers : Numbers Rat := ⟨fun _ => none, fun _ => none, fun x _ => x⟩

/-- `[1, -20,'3']`. -/
example : convert integers .list ('[' :: joinWith ',' [['1'], [' ', '-', '2', '0'], ['\'', '3', '\'']] ++ [']']) = .list [1, -20, 3] := by
  have h := c45_integers integers [([], 1, []), ([' '], -20, []), (['\''], 3, ['\''])] (by simp) (by decide)
  have e : [(([] : Str), (1 : Int), ([] : Str)), ([' '], -20, []), (['\''], 3, ['\''])].map paddedInt =
      [['1'], [' ', '-', '2', '0'], ['\'', '3', '\'']] := by decide
  rw [e] at h
  rw [h]
  norm_num

end Lists

end Eprem.Config
