import Verif.Props.Config
import Verif.Props.Aliased

/-!
# Parameter values (C43, C44, C75)
-/

namespace Eprem.Config

open Eprem Eprem.Symbolic

variable {R : Type} [Field R] [DecidableEq R]

/-! ## Evaluation of default values -/

theorem evaluate_composite {E : Env R} {s : Str} (h : Composite E s) (n : Nat) :
    evaluate E (n + 1) s = resolve E.numbers (evaluate E n) s := by
  obtain ⟨h1, h2, h3, h4, h5⟩ := h
  simp only [evaluate, h1, h2, h3, h4, h5, if_false]

theorem evaluate_defined {E : Env R} {p d : Str} (h : DefinedBy E p d) (n : Nat) :
    evaluate E (n + 1) p = evaluate E n d := by
  obtain ⟨h1, h2, h3, t, h4, h5⟩ := h
  simp only [evaluate, h1, h2, h3, h4, h5, if_false, Bool.false_eq_true]

theorem Evaluates.defined {E : Env R} {p d : Str} {v : Val R} (h : DefinedBy E p d) (hd : Evaluates E d v) :
    Evaluates E p v := by
  obtain ⟨n, hn⟩ := hd
  refine ⟨n + 1, fun m hm => ?_⟩
  obtain ⟨m, rfl⟩ : ∃ k, m = k + 1 := ⟨m - 1, by omega⟩
  rw [evaluate_defined h]
  exact hn m (by omega)

theorem Evaluates.default {E : Env R} {p : Str} {v : Val R} (h : Evaluates E p v) (hp : p ∈ E.reference.keys) :
    ∃ n, ∀ m, n ≤ m → getDefault E m p = .ok v := by
  obtain ⟨n, hn⟩ := h
  exact ⟨n, fun m hm => by unfold getDefault; rw [if_pos hp, hn m hm]⟩

/-- The text of a number other than zero. -/
theorem Evaluates.number {E : Env R} {s : Str} {x : R} (h : cast E.numbers s = some x) (h0 : x ≠ 0) :
    Evaluates E s (.num x) := by
  refine ⟨1, fun m hm => ?_⟩
  obtain ⟨m, rfl⟩ : ∃ k, m = k + 1 := ⟨m - 1, by omega⟩
  have : truthyCast E.numbers s = some x := by simp [truthyCast, h, h0]
  simp only [evaluate, this]

/-- A constant. -/
theorem Evaluates.constant {E : Env R} {s : Str} {x : R} (h1 : truthyCast E.numbers s = none) (h2 : s ≠ nProcs)
    (h3 : s ≠ third) (h4 : E.reference.get? s = none) (h5 : E.basetypes s = some x) : Evaluates E s (.num x) := by
  refine ⟨1, fun m hm => ?_⟩
  obtain ⟨m, rfl⟩ : ∃ k, m = k + 1 := ⟨m - 1, by omega⟩
  simp only [evaluate, h1, h2, h3, h4, h5, if_false]

/-- A parameter whose default value is given directly. -/
theorem Evaluates.given {E : Env R} {p d : Str} {t : Ty} (h1 : truthyCast E.numbers p = none) (h2 : p ≠ nProcs)
    (h3 : p ≠ third) (h4 : E.reference.get? p = some (t, d)) (h5 : isType t (convert E.numbers t d) = true) :
    Evaluates E p (convert E.numbers t d) := by
  refine ⟨1, fun m hm => ?_⟩
  obtain ⟨m, rfl⟩ : ∃ k, m = k + 1 := ⟨m - 1, by omega⟩
  simp only [evaluate, h1, h2, h3, h4, h5, if_false, if_true]

theorem word_config {c : Char} (h : c ∈ configDot ∨ isWord c = true) :
    c ≠ '+' ∧ c ≠ '-' ∧ c ≠ '*' ∧ c ≠ '/' ∧ c ≠ '[' ∧ c ≠ ']' := by
  rcases h with h | h
  · simp only [configDot, List.mem_cons, List.not_mem_nil, or_false] at h
    rcases h with rfl | rfl | rfl | rfl | rfl | rfl | rfl <;> decide
  · refine ⟨?_, ?_, ?_, ?_, ?_, ?_⟩ <;> (rintro rfl; revert h; decide)

theorem structMember_chars {s : Str} (h : structMember s = true) : ∀ c ∈ s, c ∈ configDot ∨ isWord c = true := by
  unfold structMember at h
  rw [Bool.and_eq_true] at h
  obtain ⟨h1, h2⟩ := h
  intro c hc
  rw [← List.take_append_drop 7 s, List.mem_append] at hc
  rcases hc with hc | hc
  · exact .inl (by rw [← eq_of_beq h1]; exact hc)
  · exact .inr (List.all_eq_true.1 h2 c hc)

/-- A text with an operator is no member of the structure of parameters, in brackets or not. -/
theorem not_member {s : Str} {c : Char} (hc : c ∈ s) (h : c = '+' ∨ c = '-' ∨ c = '*' ∨ c = '/') :
    structMember s = false ∧ structMember (stripBrackets s) = false := by
  have hb : c ∈ stripBrackets s := by
    refine mem_stripBy hc ?_
    rcases h with rfl | rfl | rfl | rfl <;> decide
  constructor
  all_goals
    by_contra hm
    rw [Bool.not_eq_false] at hm
  · have := word_config (structMember_chars hm c hc); tauto
  · have := word_config (structMember_chars hm c hb); tauto

theorem resolve_sum {N : Numbers R} {rec : Str → Except Err (Val R)} {s : Str} {c : Char} (hc : c ∈ s)
    (h : c = '+' ∨ c = '-' ∨ c = '*' ∨ c = '/') : resolve N rec s = match computeSum rec s with
      | .error e => .error e
      | .ok (some x) => if x = 0 then resolveProduct N rec s else .ok (.num x)
      | .ok none => resolveProduct N rec s := by
  obtain ⟨h1, h2⟩ := not_member hc h
  unfold resolve
  rw [if_neg (by simp [h1]), if_neg (by simp [h2])]
  rfl

theorem evalParts_two {rec : Str → Except Err (Val R)} {s t : Str} {v w : Val R} (hs : rec (strip s) = .ok v)
    (ht : rec (strip t) = .ok w) : evalParts rec [s, t] = .ok [v, w] := by
  simp only [evalParts, hs, ht]

theorem computeSum_plus {rec : Str → Except Err (Val R)} {s t : Str} (hs : '+' ∉ s) (ht : '+' ∉ t) {x y : R}
    (hx : rec (strip s) = .ok (.num x)) (hy : rec (strip t) = .ok (.num y)) :
    computeSum rec (s ++ '+' :: t) = .ok (some (x + y)) := by
  unfold computeSum
  rw [if_pos (by simp), splitOn_append hs, splitOn_none ht]
  unfold sumParts
  rw [evalParts_two hx hy]
  simp only [one_mul]

theorem computeSum_minus {rec : Str → Except Err (Val R)} {s t : Str} (hs : '-' ∉ s) (ht : '-' ∉ t)
    (hp : '+' ∉ s ∧ '+' ∉ t) {x y : R}
    (hx : rec (strip s) = .ok (.num x)) (hy : rec (strip t) = .ok (.num y)) :
    computeSum rec (s ++ '-' :: t) = .ok (some (x - y)) := by
  unfold computeSum
  rw [if_neg (by simp [hp.1, hp.2]), if_pos (by simp), splitOn_append hs, splitOn_none ht]
  unfold sumParts
  rw [evalParts_two hx hy]
  simp only [neg_one_mul, sub_eq_add_neg]

/-- **C44**: a default value `s + t`, in which the two terms have numbers as values, is the sum of these numbers, if the sum
is not zero. -/
theorem c44_sum_partial {E : Env R} {p s t : Str} {x y : R} (hp : DefinedBy E p (s ++ '+' :: t))
    (hd : Composite E (s ++ '+' :: t)) (hs : '+' ∉ s) (ht : '+' ∉ t)
    (hx : Evaluates E (strip s) (.num x)) (hy : Evaluates E (strip t) (.num y)) (h0 : x + y ≠ 0) :
    Evaluates E p (.num (x + y)) := by
  obtain ⟨n, hn⟩ := hx
  obtain ⟨k, hk⟩ := hy
  refine Evaluates.defined hp ⟨max n k + 1, fun m hm => ?_⟩
  obtain ⟨m, rfl⟩ : ∃ k, m = k + 1 := ⟨m - 1, by omega⟩
  rw [evaluate_composite hd, resolve_sum (c := '+') (by simp) (by simp),
    computeSum_plus hs ht (hn m (by omega)) (hk m (by omega))]
  simp only [h0, if_false]

/-- **C44**: a default value `s - t` is the difference of the values of the two terms, if it is not zero. -/
theorem c44_difference_partial {E : Env R} {p s t : Str} {x y : R} (hp : DefinedBy E p (s ++ '-' :: t))
    (hd : Composite E (s ++ '-' :: t)) (hs : '-' ∉ s ∧ '+' ∉ s) (ht : '-' ∉ t ∧ '+' ∉ t)
    (hx : Evaluates E (strip s) (.num x)) (hy : Evaluates E (strip t) (.num y)) (h0 : x - y ≠ 0) :
    Evaluates E p (.num (x - y)) := by
  obtain ⟨n, hn⟩ := hx
  obtain ⟨k, hk⟩ := hy
  refine Evaluates.defined hp ⟨max n k + 1, fun m hm => ?_⟩
  obtain ⟨m, rfl⟩ : ∃ k, m = k + 1 := ⟨m - 1, by omega⟩
  rw [evaluate_composite hd, resolve_sum (c := '-') (by simp) (by simp),
    computeSum_minus hs.1 ht.1 ⟨hs.2, ht.2⟩ (hn m (by omega)) (hk m (by omega))]
  simp only [h0, if_false]

/-- **C44** fails for sums that are zero: the default value cannot be computed. -/
theorem c44_not_zero {E : Env R} {p s t : Str} {x : R} (hp : DefinedBy E p (s ++ '+' :: t))
    (hd : Composite E (s ++ '+' :: t)) (hs : '+' ∉ s) (ht : '+' ∉ t)
    (ho : ∀ c ∈ s ++ t, c ≠ '*' ∧ c ≠ '/') (hk : p ∈ E.reference.keys)
    (hx : Evaluates E (strip s) (.num x)) (hy : Evaluates E (strip t) (.num (-x))) :
    ∃ n, ∀ m, n ≤ m → getDefault E m p = .error .type := by
  obtain ⟨n, hn⟩ := hx
  obtain ⟨k, hk'⟩ := hy
  refine ⟨max n k + 2, fun m hm => ?_⟩
  obtain ⟨m, rfl⟩ : ∃ k, m = k + 2 := ⟨m - 2, by omega⟩
  unfold getDefault
  have h1 : ¬ ('*' ∈ s ++ '+' :: t ∨ '/' ∈ s ++ '+' :: t) := by
    simp only [List.mem_append, List.mem_cons, not_or]
    have a := fun c hc => ho c (List.mem_append_left t hc)
    have b := fun c hc => ho c (List.mem_append_right s hc)
    exact ⟨⟨fun h => (a _ h).1 rfl, by decide, fun h => (b _ h).1 rfl⟩,
      ⟨fun h => (a _ h).2 rfl, by decide, fun h => (b _ h).2 rfl⟩⟩
  rw [if_pos hk, evaluate_defined hp, evaluate_composite hd, resolve_sum (c := '+') (by simp) (by simp),
    computeSum_plus hs ht (hn m (by omega)) (hk' m (by omega))]
  simp only [add_neg_cancel, if_true]
  unfold resolveProduct
  rw [if_neg h1]

/-- **C44** fails for three terms: only the first two of them count. -/
theorem c44_not_three {E : Env R} {p s t u : Str} {x y z : R} (hp : DefinedBy E p (s ++ '+' :: (t ++ '+' :: u)))
    (hd : Composite E (s ++ '+' :: (t ++ '+' :: u))) (hs : '+' ∉ s) (ht : '+' ∉ t) (hu : '+' ∉ u)
    (hx : Evaluates E (strip s) (.num x)) (hy : Evaluates E (strip t) (.num y)) (hz : Evaluates E (strip u) (.num z))
    (h0 : x + y ≠ 0) : Evaluates E p (.num (x + y)) := by
  obtain ⟨n, hn⟩ := hx
  obtain ⟨k, hk⟩ := hy
  obtain ⟨l, hl⟩ := hz
  refine Evaluates.defined hp ⟨max n (max k l) + 1, fun m hm => ?_⟩
  obtain ⟨m, rfl⟩ : ∃ k, m = k + 1 := ⟨m - 1, by omega⟩
  have : computeSum (evaluate E m) (s ++ '+' :: (t ++ '+' :: u)) = .ok (some (x + y)) := by
    unfold computeSum
    rw [if_pos (by simp), splitOn_append hs, splitOn_append ht, splitOn_none hu]
    unfold sumParts
    simp only [evalParts, hn m (by omega), hk m (by omega), hl m (by omega), one_mul]
  rw [evaluate_composite hd, resolve_sum (c := '+') (by simp) (by simp), this]
  simp only [h0, if_false]

/-- **C44** fails for a term that is the number zero: `s + 0` cannot be computed. -/
theorem c44_not_zero_term {E : Env R} {s : Str} (hd : Composite E s) (hm : structMember s = false)
    (hb : structMember (stripBrackets s) = false) (ho : ∀ c ∈ s, c ≠ '+' ∧ c ≠ '-' ∧ c ≠ '*' ∧ c ≠ '/') (n : Nat) :
    evaluate E (n + 1) s = .error .type := by
  rw [evaluate_composite hd]
  unfold resolve
  rw [if_neg (by simp [hm]), if_neg (by simp [hb])]
  have : computeSum (evaluate E n) s = .ok none := by
    unfold computeSum
    rw [if_neg (fun h => (ho _ h).1 rfl), if_neg (fun h => (ho _ h).2.1 rfl)]
  rw [this]
  simp only
  unfold resolveProduct
  rw [if_neg (by rintro (h | h); exacts [(ho _ h).2.2.1 rfl, (ho _ h).2.2.2 rfl])]

theorem dropConfig_word : ∀ {a : Str}, a.all isWord = true → dropConfig 0 a = a
  | [], _ => rfl
  | c :: s, h => by
    rw [dropConfig, if_neg, dropConfig_word (by simp at h; simpa using h.2)]
    intro hc
    have : '.' ∈ c :: s := List.mem_of_mem_take (i := 7) (by rw [hc]; decide)
    have := List.all_eq_true.1 h _ this
    revert this; decide

theorem dropConfig_member {a : Str} (h : a.all isWord = true) : dropConfig 0 (configDot ++ a) = a := by
  have : dropConfig 0 (configDot ++ a) = dropConfig 0 a := by
    simp [configDot, dropConfig]
  rw [this, dropConfig_word h]

/-- **C44**, the terms: `config.a` has the value of the parameter `a`. -/
theorem c44_member {E : Env R} {a : Str} {v : Val R} (h : a.all isWord = true) (hc : Composite E (configDot ++ a))
    (ha : Evaluates E a v) : Evaluates E (configDot ++ a) v := by
  obtain ⟨n, hn⟩ := ha
  refine ⟨n + 1, fun m hm => ?_⟩
  obtain ⟨m, rfl⟩ : ∃ k, m = k + 1 := ⟨m - 1, by omega⟩
  rw [evaluate_composite hc]
  unfold resolve
  rw [if_pos, dropConfig_member h, hn m (by omega)]
  unfold structMember
  have h1 : (configDot ++ a).take 7 = configDot := by simp [configDot]
  have h2 : (configDot ++ a).drop 7 = a := by simp [configDot]
  rw [h1, h2, h]; rfl

/-- A list with one such member has the list with its value. -/
theorem c44_list {E : Env R} {a : Str} {x : R} (h : a.all isWord = true)
    (hc : Composite E ('[' :: (configDot ++ a) ++ [']'])) (ha : Evaluates E a (.num x)) :
    Evaluates E ('[' :: (configDot ++ a) ++ [']']) (.list [x]) := by
  obtain ⟨n, hn⟩ := ha
  refine ⟨n + 1, fun m hm => ?_⟩
  obtain ⟨m, rfl⟩ : ∃ k, m = k + 1 := ⟨m - 1, by omega⟩
  have hb : stripBrackets ('[' :: (configDot ++ a) ++ [']']) = configDot ++ a := by
    apply bracket_trim (by simp [configDot])
    intro c hcm
    have := word_config (c := c) (by
      rcases List.mem_append.1 hcm with h1 | h1
      · exact .inl h1
      · exact .inr (List.all_eq_true.1 h c h1))
    tauto
  have h1 : (configDot ++ a).take 7 = configDot := by simp [configDot]
  have h2 : (configDot ++ a).drop 7 = a := by simp [configDot]
  have hm1 : structMember (configDot ++ a) = true := by
    unfold structMember; rw [h1, h2, h]; rfl
  have hm2 : structMember ('[' :: (configDot ++ a) ++ [']']) = false := by
    unfold structMember
    rw [Bool.and_eq_false_iff]; left
    simp [configDot]
  rw [evaluate_composite hc]
  unfold resolve
  rw [if_neg (Bool.not_eq_true _ ▸ hm2), hb, if_pos hm1, dropConfig_member h, hn m (by omega)]

/-! ## C43: the values at run time -/

omit [Field R] [DecidableEq R] in
theorem get_update (d : Dict Str (Val R)) (items : List (Str × Val R)) (h : (items.map Prod.fst).Nodup) (k : Str) :
    (updateAll d items).get? k = ((items.find? (fun p => p.1 = k)).map Prod.snd).or (d.get? k) := by
  induction items generalizing d with
  | nil => rfl
  | cons p ps ih =>
    rw [List.map_cons, List.nodup_cons] at h
    unfold updateAll at ih ⊢
    rw [List.foldl_cons, ih _ h.2, Dict.get?_set]
    by_cases hp : p.1 = k
    · have : ps.find? (fun p => decide (p.1 = k)) = none := by
        rw [List.find?_eq_none]
        intro q hq
        simp only [decide_eq_true_eq]
        intro hqk
        exact h.1 (List.mem_map.2 ⟨q, hq, hqk.trans hp.symm⟩)
      simp [this, hp]
    · simp [hp, Ne.symm hp]

theorem allDefaults_ok {E : Env R} {n : Nat} : ∀ {ks : List Str} {l : List (Str × Val R)}, allDefaults E n ks = .ok l →
    l.map Prod.fst = ks ∧ ∀ p ∈ l, getDefault E n p.1 = .ok p.2
  | [], l, h => by cases h; simp
  | k :: ks, l, h => by
    rw [allDefaults] at h
    split at h
    · cases h
    next v hv =>
      split at h
      · cases h
      next l' hl =>
        cases h
        obtain ⟨h1, h2⟩ := allDefaults_ok hl
        refine ⟨by simp [h1], ?_⟩
        intro p hp
        rcases List.mem_cons.1 hp with rfl | hp
        · exact hv
        · exact h2 p hp

theorem allDefaults_total {E : Env R} {n : Nat} : ∀ {ks : List Str}, (∀ k ∈ ks, ∃ v, getDefault E n k = .ok v) →
    ∃ l, allDefaults E n ks = .ok l
  | [], _ => ⟨[], rfl⟩
  | k :: ks, h => by
    obtain ⟨v, hv⟩ := h k (by simp)
    obtain ⟨l, hl⟩ := allDefaults_total (ks := ks) (fun k' hk => h k' (by simp [hk]))
    exact ⟨(k, v) :: l, by rw [allDefaults, hv]; simp only [hl]⟩

theorem allDefaults_find {E : Env R} {n : Nat} {ks : List Str} {l : List (Str × Val R)} (h : allDefaults E n ks = .ok l)
    (k : Str) : (k ∈ ks → ∃ v, getDefault E n k = .ok v ∧ (l.find? (fun p => p.1 = k)).map Prod.snd = some v) ∧
      (k ∉ ks → l.find? (fun p => p.1 = k) = none) := by
  obtain ⟨h1, h2⟩ := allDefaults_ok h
  constructor
  · intro hk
    rw [← h1] at hk
    obtain ⟨p, hp, hpk⟩ := List.mem_map.1 hk
    have : (l.find? (fun p => decide (p.1 = k))).isSome := by
      rw [List.find?_isSome]; exact ⟨p, hp, by simpa using hpk⟩
    obtain ⟨q, hq⟩ := Option.isSome_iff_exists.1 this
    have hqm := List.mem_of_find?_eq_some hq
    have hqk := List.find?_some hq
    simp only [decide_eq_true_eq] at hqk
    exact ⟨q.2, by rw [← hqk]; exact h2 q hqm, by rw [hq]; rfl⟩
  · intro hk
    rw [List.find?_eq_none]
    intro p hp
    simp only [decide_eq_true_eq]
    intro hpk
    exact hk (by rw [← h1]; exact List.mem_map.2 ⟨p, hp, hpk⟩)

omit [DecidableEq R] in
theorem user_keys (E : Env R) (cfg : Dict Str Str) (hw : E.reference.WF) :
    ((userValues E cfg).map Prod.fst).Nodup := by
  have : ((userValues E cfg).map Prod.fst).Sublist E.reference.keys := by
    unfold userValues Dict.keys
    generalize E.reference = ref
    induction ref with
    | nil => exact List.Sublist.slnil
    | cons p ps ih =>
      rw [List.filterMap_cons]
      split
      · exact ih.trans (List.sublist_cons_self _ _)
      next q hq =>
        cases hc : Dict.get? cfg p.1 with
        | none => rw [hc] at hq; cases hq
        | some s => rw [hc] at hq; cases hq; exact ih.cons₂ _
  exact this.nodup hw

omit [DecidableEq R] in
theorem user_find (E : Env R) (cfg : Dict Str Str) (hw : E.reference.WF) (k : Str) :
    ((userValues E cfg).find? (fun p => p.1 = k)).map Prod.snd =
      match E.reference.get? k with
      | none => none
      | some (t, _) => (cfg.get? k).map (convert E.numbers t) := by
  have hnd := user_keys E cfg hw
  cases hr : E.reference.get? k with
  | none =>
    simp only
    rw [Option.map_eq_none_iff, List.find?_eq_none]
    intro p hp
    simp only [decide_eq_true_eq]
    rintro rfl
    unfold userValues at hp
    obtain ⟨q, hq, hqp⟩ := List.mem_filterMap.1 hp
    cases hc : Dict.get? cfg q.1 with
    | none => rw [hc] at hqp; cases hqp
    | some s =>
      rw [hc] at hqp
      cases hqp
      exact Dict.get?_eq_none.1 hr (List.mem_map.2 ⟨q, hq, rfl⟩)
  | some td =>
    obtain ⟨t, d⟩ := td
    simp only
    have hmem : (k, t, d) ∈ E.reference := Dict.mem_of_get? hr
    cases hc : cfg.get? k with
    | none =>
      rw [Option.map_none, Option.map_eq_none_iff, List.find?_eq_none]
      intro p hp
      simp only [decide_eq_true_eq]
      rintro rfl
      unfold userValues at hp
      obtain ⟨q, hq, hqp⟩ := List.mem_filterMap.1 hp
      cases hc' : Dict.get? cfg q.1 with
      | none => rw [hc'] at hqp; cases hqp
      | some s =>
        rw [hc'] at hqp
        cases hqp
        rw [hc] at hc'
        cases hc'
    | some s =>
      have hin : (k, convert E.numbers t s) ∈ userValues E cfg := by
        unfold userValues
        rw [List.mem_filterMap]
        exact ⟨(k, t, d), hmem, by rw [hc]; rfl⟩
      have hsome : ((userValues E cfg).find? (fun p => decide (p.1 = k))).isSome := by
        rw [List.find?_isSome]; exact ⟨_, hin, by simp⟩
      obtain ⟨q, hq⟩ := Option.isSome_iff_exists.1 hsome
      have hqk := List.find?_some hq
      simp only [decide_eq_true_eq] at hqk
      have hqm := List.mem_of_find?_eq_some hq
      have : Dict.get? (userValues E cfg) k = some (convert E.numbers t s) := Dict.get?_of_mem (d := userValues E cfg) hnd hin
      have h2 : Dict.get? (userValues E cfg) k = some q.2 := Dict.get?_of_mem (d := userValues E cfg) hnd (by rw [← hqk]; exact hqm)
      rw [this] at h2
      rw [hq, Option.map_some, Option.map_some, Option.some.inj h2]

/-- The value of a known parameter in the file. -/
def fileValue (E : Env R) (cfg : Option (Dict Str Str)) (k : Str) : Option (Val R) :=
  match cfg with
  | none => none
  | some c => ((userValues E c).find? (fun p => decide (p.1 = k))).map Prod.snd

/-- **C43**: the values at run time.  A known parameter that the file mentions has the value in the file, converted to the
type of the parameter; another known parameter has its default value; any other name has the local value, if there is one. -/
theorem c43_values {E : Env R} {n : Nat} {loc : List (Str × Val R)} {cfg : Option (Dict Str Str)}
    {d : Dict Str (Val R)} (hw : E.reference.WF) (hl : (loc.map Prod.fst).Nodup) (h : initValues E n loc cfg = .ok d) :
    (∀ k t def_ c s, E.reference.get? k = some (t, def_) → cfg = some c → c.get? k = some s →
      d.get? k = some (convert E.numbers t s)) ∧
    (∀ k t def_, E.reference.get? k = some (t, def_) → (∀ c, cfg = some c → c.get? k = none) →
      ∃ v, getDefault E n k = .ok v ∧ d.get? k = some v) ∧
    (∀ k, E.reference.get? k = none → d.get? k = Dict.get? loc k) := by
  unfold initValues at h
  split at h
  · cases h
  next defaults hdef =>
    have hnd : (defaults.map Prod.fst).Nodup := by rw [(allDefaults_ok hdef).1]; exact hw
    have hinit : ∀ k, (updateAll (updateAll [] loc) defaults).get? k =
        ((defaults.find? (fun p => p.1 = k)).map Prod.snd).or ((loc.find? (fun p => p.1 = k)).map Prod.snd) := by
      intro k
      rw [get_update _ _ hnd, get_update _ _ hl]
      simp [Dict.get?]
    have hloc : ∀ k, (loc.find? (fun p => decide (p.1 = k))).map Prod.snd = Dict.get? loc k := by
      intro k
      have := get_update [] loc hl k
      rw [show updateAll [] loc = Dict.ofItems loc from rfl, Dict.ofItems_nodup loc hl] at this
      rw [this]; simp [Dict.get?]
    have hval : ∀ k, d.get? k = (fileValue E cfg k).or
          (((defaults.find? (fun p => decide (p.1 = k))).map Prod.snd).or (Dict.get? loc k)) := by
      intro k
      cases cfg with
      | none => cases h; rw [hinit, hloc]; rfl
      | some c => cases h; rw [get_update _ _ (user_keys E c hw), hinit, hloc]; rfl
    refine ⟨?_, ?_, ?_⟩
    · rintro k t d' c s hk rfl hs
      rw [hval]
      unfold fileValue
      simp only
      rw [user_find E c hw, hk]
      simp [hs]
    · intro k t d' hk hc
      have hmem : k ∈ E.reference.keys := Dict.get?_isSome.1 ⟨_, hk⟩
      obtain ⟨v, hv, hf⟩ := (allDefaults_find hdef k).1 hmem
      refine ⟨v, hv, ?_⟩
      rw [hval, hf]
      cases cfg with
      | none => rfl
      | some c =>
        unfold fileValue
        simp only
        rw [user_find E c hw, hk]
        simp [hc c rfl]
    · intro k hk
      have hmem : k ∉ E.reference.keys := Dict.get?_eq_none.1 hk
      rw [hval, (allDefaults_find hdef k).2 hmem]
      cases cfg with
      | none => simp [fileValue]
      | some c =>
        unfold fileValue
        simp only
        rw [user_find E c hw, hk]
        simp

/-- **C43**: the interface can be created, whatever the file says, if and only if all default values can be computed. -/
theorem c43_total {E : Env R} {n : Nat} {loc : List (Str × Val R)} {cfg : Option (Dict Str Str)} :
    (∃ d, initValues E n loc cfg = .ok d) ↔ ∀ k ∈ E.reference.keys, ∃ v, getDefault E n k = .ok v := by
  constructor
  · rintro ⟨d, h⟩ k hk
    unfold initValues at h
    split at h
    · cases h
    next l hl =>
      obtain ⟨v, hv, _⟩ := (allDefaults_find hl k).1 hk
      exact ⟨v, hv⟩
  · intro h
    obtain ⟨l, hl⟩ := allDefaults_total h
    unfold initValues
    rw [hl]
    cases cfg with
    | none => exact ⟨_, rfl⟩
    | some c => exact ⟨_, rfl⟩

theorem pyInt_none {s : Str} (h : ∀ c ∈ s, isDigit c = false) : pyInt s = none := by
  have key : ∀ ds : Str, (∀ c ∈ ds, isDigit c = false) → numeralDigits ds = none := by
    intro ds hd
    unfold numeralDigits
    rw [if_neg]
    intro hall
    have hh := splitOn_head '_' ds
    cases hs : splitOn '_' ds with
    | nil => exact splitOn_ne _ _ hs
    | cons p ps =>
      rw [hs] at hall hh
      have hp := (List.all_eq_true.1 hall) p (by simp)
      rw [Bool.and_eq_true] at hp
      cases p with
      | nil => simp at hp
      | cons c p =>
        have hc := List.all_eq_true.1 hp.2 c (by simp)
        have hm : c ∈ ds := by
          have : c ∈ List.takeWhile (fun c => c ≠ '_') ds := by
            rw [← hh]; simp
          exact (List.takeWhile_subset _) this
        rw [hd c hm] at hc
        cases hc
  have hstrip : ∀ c ∈ strip s, isDigit c = false := fun c hc => h c (stripBy_mem (by rwa [strip_eq] at hc))
  have hsign : ∀ t : Str, ∀ c ∈ (takeSign t).2, c ∈ t := by
    intro t c hc
    unfold takeSign at hc
    split at hc
    · exact List.mem_cons_of_mem _ hc
    · exact List.mem_cons_of_mem _ hc
    · exact hc
  simp only [pyInt, key _ (fun c hc => hstrip c (hsign _ c hc)), Option.map_none]

/-- **C43**, conversion of the text in the file: a text parameter keeps its text; an integer parameter has the integer written
in decimal digits; a real parameter has the number that the text denotes.  Text that denotes no number is kept as it is. -/
theorem c43_conversion (N : Numbers R) : (∀ s, convert N .str s = .text s) ∧
    (∀ z : Int, convert N .int (showInt z) = .num z) ∧
    (∀ s x, N.toFloat s = some x → convert N .float s = .num x) ∧
    (∀ s, N.toFloat s = none → convert N .float s = .text s) ∧
    (∀ s, (∀ c ∈ s, isDigit c = false) → convert N .int s = .text s) := by
  refine ⟨fun s => rfl, fun z => ?_, fun s x h => ?_, fun s h => ?_, fun s h => ?_⟩
  · simp only [convert, pyInt_show]
  · simp only [convert, h]
  · simp only [convert, h]
  · simp only [convert, pyInt_none h]

/-- **C43**: what the file says about unknown parameters has no effect. -/
theorem c43_unknown {E : Env R} {n : Nat} {loc : List (Str × Val R)} {c c' : Dict Str Str}
    (h : ∀ k ∈ E.reference.keys, c.get? k = c'.get? k) : initValues E n loc (some c) = initValues E n loc (some c') := by
  have : userValues E c = userValues E c' := by
    unfold userValues
    apply List.filterMap_congr
    intro p hp
    rw [h p.1 (List.mem_map.2 ⟨p, hp, rfl⟩)]
  unfold initValues
  simp only [this]

theorem truthy_iff (v : Val R) : truthy v = true ↔ IsSet v := by
  cases v <;> simp [truthy, IsSet]

instance (v : Val R) : Decidable (IsSet v) := decidable_of_iff _ (truthy_iff v)

/-- **C43**, look-up: a parameter has its value and unit, by its name and by each of its aliases; an angle is in degrees if
the parameter `useDegrees` is set. -/
theorem c43_lookup {d : Dict Str (Val R)} (hw : d.WF) (units : Str → Option Str) (gs : List (Finset Str))
    (hgs : gs.Pairwise Disjoint) (hsep : ∀ k ∈ d.keys, ∀ k' ∈ d.keys, ∀ g ∈ gs, k ∈ g → k' ∈ g → k = k')
    {u : Val R} (hu : d.get? useDegrees = some u) {k : Str} {v : Val R} (hk : d.get? k = some v) :
    ∀ a, (a = k ∨ ∃ g ∈ gs, k ∈ g ∧ a ∈ g) → getParameter (interface d units gs) a =
      .ok (if units k = some rad ∧ IsSet u then some deg else units k, v) := by
  have key := Aliased.c15_lookup_groups (d.map (fun p => (p.1, units p.1, p.2))) gs hgs (by
    rw [List.map_map]; exact hw) (by
    intro p hp q hq g hg h1 h2
    obtain ⟨p', hp', rfl⟩ := List.mem_map.1 hp
    obtain ⟨q', hq', rfl⟩ := List.mem_map.1 hq
    exact hsep p'.1 (List.mem_map.2 ⟨p', hp', rfl⟩) q'.1 (List.mem_map.2 ⟨q', hq', rfl⟩) g hg h1 h2)
  have hval : ∀ {k : Str} {v : Val R}, d.get? k = some v →
      (k, units k, v) ∈ d.map (fun p => (p.1, units p.1, p.2)) := fun h => List.mem_map.2 ⟨_, Dict.mem_of_get? h, rfl⟩
  have hdeg : (interface d units gs).getItem useDegrees = .ok (units useDegrees, u) := (key _ (hval hu)).1
  intro a ha
  have hget : (interface d units gs).getItem a = .ok (units k, v) := by
    rcases ha with rfl | ⟨g, hg, hkg, hag⟩
    · exact (key _ (hval hk)).1
    · exact (key _ (hval hk)).2 g hg hkg a hag
  unfold getParameter
  rw [hget]
  simp only [hdeg, truthy_iff]
  split <;> rfl

/-! ## C75: defaults defined by other parameters -/

/-- **C75** fails: a parameter that the file does not mention has the same value as without the file, even if its default
value is defined by a parameter that the file does mention. -/
theorem c75_not_followed {E : Env R} {n : Nat} {loc : List (Str × Val R)} {c : Dict Str Str}
    {d d' : Dict Str (Val R)} (hw : E.reference.WF) (hl : (loc.map Prod.fst).Nodup)
    (h : initValues E n loc (some c) = .ok d) (h' : initValues E n loc none = .ok d') {k : Str} (hk : c.get? k = none) :
    d.get? k = d'.get? k := by
  obtain ⟨-, a2, a3⟩ := c43_values hw hl h
  obtain ⟨-, b2, b3⟩ := c43_values hw hl h'
  cases hr : E.reference.get? k with
  | none => rw [a3 k hr, b3 k hr]
  | some td =>
    obtain ⟨t, def_⟩ := td
    obtain ⟨v, hv, h1⟩ := a2 k t def_ hr (by rintro c' hc; cases hc; exact hk)
    obtain ⟨v', hv', h2⟩ := b2 k t def_ hr (by rintro c' hc; cases hc)
    rw [hv] at hv'
    cases hv'
    rw [h1, h2]

end Eprem.Config
