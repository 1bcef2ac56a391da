import Verif.Spec.Measurable
import Mathlib.Tactic.Ring
import Mathlib.Data.List.Forall2

/-!
# Parsing measurable input (C41)
-/

namespace Eprem.Measurable

open Eprem Eprem.Symbolic Eprem.Metric

variable {R : Type} {toFloat : Name → Option R}

theorem readable_ok {s : Name} : readable s = .ok () ↔ UnitText s := by
  unfold readable UnitText
  by_cases h : s = Symbolic.one
  · simp [h]
  · rw [if_neg h]
    cases he : exprOfString false s with
    | error e => simp [h]
    | ok e => simp

theorem wrap_num (xs : List R) (u : Name) :
    wrapMeasurable (xs.map .num) u false = flatResult xs u ∧
    wrapMeasurable (xs.map .num) u true = pairResult (xs.map (fun x => (x, u))) := by
  simp [wrapMeasurable, flatResult, pairResult]

theorem all_num (xs : List R) : (xs.map (Obj.num : R → Obj R)).all Obj.isNum = true := by
  simp [Obj.isNum]

/-- The result of a parse, with or without distribution. -/
def result (d : Bool) (xs : List R) (u : Name) : List (Item R) :=
  if d then pairResult (xs.map (fun x => (x, u))) else flatResult xs u

theorem wrap_result (d : Bool) (xs : List R) (u : Name) : wrapMeasurable (xs.map .num) u d = result d xs u := by
  cases d
  · exact (wrap_num xs u).1
  · exact (wrap_num xs u).2

theorem parse_two (toFloat : Name → Option R) (d : Bool) {l : List (Obj R)} (h : 2 ≤ l.length) : parse toFloat d (.seq l) =
    if l.all Obj.isSeq then
      match parseAll toFloat d l with
      | .error e => .error e
      | .ok parsed => if d then .ok parsed.flatten else combine parsed sameUnit
    else if 1 < l.countP Obj.isUnit then .error .parsingValue
    else if 1 < l.countP Obj.isStr then parseStrings toFloat l
    else parseUnit l d := by
  match l, h with
  | x :: y :: l, _ => rw [parse]; rfl

theorem parseUnit_nums (d : Bool) (xs : List R) : parseUnit (xs.map .num) d = .ok (result d xs Symbolic.one) := by
  unfold parseUnit
  rw [if_pos (all_num xs), wrap_result]

theorem parseUnit_unit (d : Bool) (xs : List R) {o : Obj R} {u : Name} (hu : IsUnitOf o u) :
    parseUnit (xs.map .num ++ [o]) d = .ok (result d xs u) := by
  have hn : o.isNum = false := by cases hu <;> rfl
  have hd : withUnit (xs.map .num ++ [o]) u d = .ok (result d xs u) := by
    unfold withUnit
    rw [List.dropLast_concat, if_pos (all_num xs), wrap_result]
  unfold parseUnit
  rw [if_neg (by simp [hn]), List.getLast?_concat]
  cases hu with
  | text s h => simp only [readable_ok.2 h]; exact hd
  | object s => exact hd

theorem count_nums (xs : List R) : (xs.map (Obj.num : R → Obj R)).countP Obj.isUnit = 0 ∧
    (xs.map (Obj.num : R → Obj R)).countP Obj.isStr = 0 := by
  constructor
  all_goals
    rw [List.countP_eq_zero]
    intro x hx
    obtain ⟨y, _, rfl⟩ := List.mem_map.1 hx
    simp [Obj.isUnit, Obj.isStr]

theorem flat_parse (d : Bool) {x : Obj R} {xs : List R} {u : Name} (h : Flat toFloat x xs u) :
    parse toFloat d x = .ok (result d xs u) := by
  cases h with
  | number x => rw [parse]; cases d <;> rfl
  | text s x hs h => rw [parse, if_neg hs]; simp only [h]; cases d <;> rfl
  | range xs h => rw [parse, if_neg h, wrap_result]
  | numbers xs h =>
    match xs, h with
    | [x], _ => rw [List.map_singleton, parse, parse]; cases d <;> rfl
    | x :: y :: l, _ =>
      rw [parse_two _ _ (by simp), if_neg (by simp [Obj.isSeq]), if_neg (by rw [(count_nums _).1]; omega),
        if_neg (by rw [(count_nums _).2]; omega), parseUnit_nums]
  | unit xs h o u hu =>
    have h0 : xs.length ≠ 0 := fun h0 => h (List.length_eq_zero_iff.1 h0)
    have hs : o.isSeq = false := by cases hu <;> rfl
    rw [parse_two _ _ (by simp; omega), if_neg (by simp [hs]), if_neg, if_neg, parseUnit_unit d xs hu]
    · rw [List.countP_append, (count_nums _).2]; cases hu <;> simp [Obj.isStr]
    · rw [List.countP_append, (count_nums _).1]; cases hu <;> simp [Obj.isUnit]
  | listUnit xs o u hu =>
    have hs : o.isSeq = false := by cases hu <;> rfl
    have hn : o.isNum = false := by cases hu <;> rfl
    have hw : withUnit [.seq (xs.map .num), o] u d = .ok (result d xs u) := by
      unfold withUnit
      rw [if_neg (by simp [Obj.isNum])]
      simp only [wrap_result]
    rw [parse_two _ _ (by simp), if_neg (by simp [hs]), if_neg, if_neg]
    · unfold parseUnit
      rw [if_neg (by simp [hn])]
      simp only [List.getLast?_cons_cons, List.getLast?_singleton]
      cases hu with
      | text s h => simp only [readable_ok.2 h]; exact hw
      | object s => exact hw
    · cases hu <;> simp [List.countP_cons, Obj.isStr]
    · cases hu <;> simp [List.countP_cons, Obj.isUnit]
  | rangeUnit xs o u hu =>
    have hs : o.isSeq = false := by cases hu <;> rfl
    have hn : o.isNum = false := by cases hu <;> rfl
    have hw : withUnit [.range xs, o] u d = .ok (result d xs u) := by
      unfold withUnit
      rw [if_neg (by simp [Obj.isNum])]
      simp only [wrap_result]
    rw [parse_two _ _ (by simp), if_neg (by simp [hs]), if_neg, if_neg]
    · unfold parseUnit
      rw [if_neg (by simp [hn])]
      simp only [List.getLast?_cons_cons, List.getLast?_singleton]
      cases hu with
      | text s h => simp only [readable_ok.2 h]; exact hw
      | object s => exact hw
    · cases hu <;> simp [List.countP_cons, Obj.isStr]
    · cases hu <;> simp [List.countP_cons, Obj.isUnit]

theorem floats_numerals {l : List (Obj R)} {xs : List R} (h : List.Forall₂ (Numeral toFloat) l xs) :
    floats toFloat l = .ok xs := by
  induction h with
  | nil => rfl
  | cons hx _ ih =>
    cases hx with
    | number x => rw [floats, ih]
    | text s x h => rw [floats]; simp only [h, ih]

theorem floats_ok : ∀ {l : List (Obj R)} {xs : List R}, floats toFloat l = .ok xs → List.Forall₂ (Numeral toFloat) l xs
  | [], xs, h => by cases h; exact .nil
  | .num x :: l, xs, h => by
    rw [floats] at h
    split at h
    · cases h
    next ys hy => cases h; exact .cons (.number x) (floats_ok hy)
  | .str s :: l, xs, h => by
    rw [floats] at h
    split at h
    · cases h
    next x hx =>
      split at h
      · cases h
      next ys hy => cases h; exact .cons (.text s x hx) (floats_ok hy)
  | .none :: l, xs, h => by cases h
  | .unit _ :: l, xs, h => by cases h
  | .range _ :: l, xs, h => by cases h
  | .seq _ :: l, xs, h => by cases h

theorem numeral_seq {x : Obj R} {v : R} (h : Numeral toFloat x v) : x.isSeq = false ∧ x.isUnit = false := by
  cases h <;> exact ⟨rfl, rfl⟩

theorem count_numerals {l : List (Obj R)} {xs : List R} (h : List.Forall₂ (Numeral toFloat) l xs) :
    l.countP Obj.isUnit = 0 ∧ l.countP Obj.isSeq = 0 := by
  induction h with
  | nil => exact ⟨rfl, rfl⟩
  | cons hx _ ih =>
    obtain ⟨h1, h2⟩ := numeral_seq hx
    simp [List.countP_cons, h1, h2, ih]

theorem floats_concat {l : List (Obj R)} {xs : List R} {u : Name} (h : List.Forall₂ (Numeral toFloat) l xs)
    (hu : toFloat u = none) : floats toFloat (l ++ [.str u]) = .error true := by
  induction h with
  | nil => simp [floats, hu]
  | cons hx _ ih =>
    cases hx with
    | number x => rw [List.cons_append, floats, ih]
    | text s x h => rw [List.cons_append, floats]; simp only [h, ih]

theorem not_all_seq {l : List (Obj R)} (h : l.countP Obj.isSeq < l.length) : l.all Obj.isSeq = false := by
  by_contra hc
  rw [Bool.not_eq_false, List.all_eq_true] at hc
  have := List.countP_eq_length.2 hc
  omega

theorem combine_same {rs : List (List R)} {u : Name} (h : rs ≠ []) :
    combine (rs.map (fun xs => flatResult xs u)) sameUnit = .ok (flatResult rs.flatten u) := by
  have h1 : (rs.map (fun xs => flatResult xs u)).filterMap List.getLast? =
      rs.map (fun _ => (Item.obj (.str u) : Item R)) := by
    induction rs with
    | nil => rfl
    | cons r rs ih =>
      rw [List.map_cons, List.filterMap_cons]
      have : (flatResult r u).getLast? = some (Item.obj (.str u)) := by simp [flatResult]
      rw [this]
      cases rs with
      | nil => rfl
      | cons a rs => simp only [List.map_cons] at ih ⊢; rw [ih (by simp)]
  have h2 : (rs.map (fun xs => flatResult xs u)).flatMap List.dropLast =
      rs.flatten.map (fun x => (Item.obj (.num x) : Item R)) := by
    clear h h1
    induction rs with
    | nil => rfl
    | cons r rs ih =>
      rw [List.map_cons, List.flatMap_cons, ih, List.flatten_cons, List.map_append, flatResult, List.dropLast_concat]
  unfold combine
  rw [h1]
  cases rs with
  | nil => exact absurd rfl h
  | cons r rs =>
    simp only [List.map_cons]
    rw [if_neg (by simp [sameUnit])]
    simp only [List.map_cons] at h2
    rw [h2]; rfl

theorem parseAll_ok {d : Bool} : ∀ (ps : List (Obj R × List (Item R))), (∀ p ∈ ps, parse toFloat d p.1 = .ok p.2) →
    parseAll toFloat d (ps.map Prod.fst) = .ok (ps.map Prod.snd)
  | [], _ => rfl
  | p :: ps, h => by
    rw [List.map_cons, parseAll, h p (by simp)]
    simp only
    rw [parseAll_ok ps (fun q hq => h q (by simp [hq]))]
    rfl

theorem parseAll_inv {d : Bool} : ∀ {l : List (Obj R)} {rs : List (List (Item R))}, parseAll toFloat d l = .ok rs →
    List.Forall₂ (fun x r => parse toFloat d x = .ok r) l rs
  | [], rs, h => by rw [parseAll] at h; cases h; exact .nil
  | x :: l, rs, h => by
    rw [parseAll] at h
    split at h
    · cases h
    next r hr =>
      split at h
      · cases h
      next rs' hrs => cases h; exact .cons hr (parseAll_inv hrs)

/-- **C41**, documented input without distribution: the numbers, followed by the unit. -/
theorem c41_parse {x : Obj R} {xs : List R} {u : Name} (h : Reads toFloat x xs u) :
    parse toFloat false x = .ok (flatResult xs u) := by
  induction h with
  | flat h => exact flat_parse false h
  | texts l xs h hs =>
    have hl : 2 ≤ l.length := le_trans hs (List.countP_le_length ..)
    obtain ⟨h1, h2⟩ := count_numerals h
    rw [parse_two _ _ hl, if_neg (by rw [not_all_seq (by omega)]; simp), if_neg (by omega), if_pos hs]
    unfold parseStrings
    rw [floats_numerals h]
    exact parseUnit_nums false xs
  | textsUnit l xs u h hs hu hn =>
    have hl : 1 ≤ l.length := le_trans hs (List.countP_le_length ..)
    obtain ⟨h1, h2⟩ := count_numerals h
    rw [parse_two _ _ (by simp; omega), if_neg, if_neg, if_pos]
    · unfold parseStrings
      rw [floats_concat h hn]
      simp only [List.dropLast_concat, floats_numerals h, List.getLast?_concat, Option.toList]
      exact parseUnit_unit false xs (.text u hu)
    · rw [List.countP_append]; simp [Obj.isStr] at hs ⊢; omega
    · rw [List.countP_append, h1]; simp [List.countP_cons, Obj.isUnit]
    · rw [not_all_seq]; · simp
      rw [List.countP_append, h2]; simp [List.countP_cons, Obj.isSeq]
  | wrap x xs u h ih => rw [parse, ih]
  | parts ps u hl hs h ih =>
    rw [parse_two _ _ (by simpa using hl), if_pos (by simpa using fun a b hab => hs (a, b) hab)]
    have := parseAll_ok (toFloat := toFloat) (d := false) (ps.map (fun p => (p.1, flatResult p.2 u))) (by
      intro q hq
      obtain ⟨p, hp, rfl⟩ := List.mem_map.1 hq
      exact ih p hp)
    rw [List.map_map, List.map_map] at this
    have e1 : ps.map (Prod.fst ∘ fun p : Obj R × List R => (p.1, flatResult p.2 u)) = ps.map Prod.fst := rfl
    have e2 : ps.map (Prod.snd ∘ fun p : Obj R × List R => (p.1, flatResult p.2 u)) =
        (ps.map Prod.snd).map (fun xs => flatResult xs u) := by rw [List.map_map]; rfl
    rw [e1, e2] at this
    simp only [this, Bool.false_eq_true, if_false]
    apply combine_same
    intro h0
    rw [List.map_eq_nil_iff] at h0
    rw [h0] at hl; simp at hl

/-- **C41**, documented input with distribution: pairs of each number and its unit; the units of parts may differ. -/
theorem c41_distribute {x : Obj R} {ps : List (R × Name)} (h : Distributes toFloat x ps) :
    parse toFloat true x = .ok (pairResult ps) := by
  induction h with
  | flat h => exact flat_parse true h
  | wrap x ps h ih => rw [parse, ih]
  | parts ps hl hs h ih =>
    rw [parse_two _ _ (by simpa using hl), if_pos (by simpa using fun a b hab => hs (a, b) hab)]
    have := parseAll_ok (toFloat := toFloat) (d := true) (ps.map (fun p => (p.1, pairResult p.2))) (by
      intro q hq
      obtain ⟨p, hp, rfl⟩ := List.mem_map.1 hq
      exact ih p hp)
    rw [List.map_map, List.map_map] at this
    have e1 : ps.map (Prod.fst ∘ fun p : Obj R × List (R × Name) => (p.1, pairResult p.2)) = ps.map Prod.fst := rfl
    have e2 : ps.map (Prod.snd ∘ fun p : Obj R × List (R × Name) => (p.1, pairResult p.2)) =
        (ps.map Prod.snd).map pairResult := by rw [List.map_map]; rfl
    rw [e1, e2] at this
    simp only [this, if_true]
    congr 1
    unfold pairResult
    rw [List.map_flatten]

/-- **C41**, redundant lists do not matter, to any depth. -/
theorem c41_enclosed (d : Bool) (x : Obj R) (n : Nat) : parse toFloat d (enclosed n x) = parse toFloat d x := by
  induction n with
  | zero => rfl
  | succ n ih =>
    show parse toFloat d (.seq [enclosed n x]) = _
    rw [parse, ih]

/-- Stripping all redundant lists first, as the code does, is the same as stripping them one at a time, as the model does. -/
theorem parse_unwrap (toFloat : Name → Option R) (d : Bool) : ∀ x : Obj R, parse toFloat d (unwrap x) = parse toFloat d x
  | .seq [x] => by rw [unwrap, parse, parse_unwrap toFloat d x]
  | .seq [] => rfl
  | .seq (_ :: _ :: _) => rfl
  | .none => rfl
  | .num _ => rfl
  | .str _ => rfl
  | .unit _ => rfl
  | .range _ => rfl

/-- **C41**, parts with different units are rejected. -/
theorem c41_conflict (ps : List (Obj R × List R × Name)) (hl : 2 ≤ ps.length) (hs : ∀ p ∈ ps, p.1.isSeq = true)
    (h : ∀ p ∈ ps, Reads toFloat p.1 p.2.1 p.2.2) (hd : ∃ p ∈ ps, ∃ q ∈ ps, p.2.2 ≠ q.2.2) :
    parse toFloat false (.seq (ps.map Prod.fst)) = .error .parsingValue := by
  rw [parse_two _ _ (by simpa using hl), if_pos (by simpa using fun a b c hab => hs (a, b, c) hab)]
  have := parseAll_ok (toFloat := toFloat) (d := false) (ps.map (fun p => (p.1, flatResult p.2.1 p.2.2))) (by
    intro q hq
    obtain ⟨p, hp, rfl⟩ := List.mem_map.1 hq
    exact c41_parse (h p hp))
  rw [List.map_map, List.map_map] at this
  have e1 : ps.map (Prod.fst ∘ fun p : Obj R × List R × Name => (p.1, flatResult p.2.1 p.2.2)) = ps.map Prod.fst := rfl
  rw [e1] at this
  simp only [this, Bool.false_eq_true, if_false]
  have h1 : (ps.map (Prod.snd ∘ fun p : Obj R × List R × Name => (p.1, flatResult p.2.1 p.2.2))).filterMap List.getLast? =
      ps.map (fun p => Item.obj (.str p.2.2)) := by
    rw [List.filterMap_map]
    have : (List.getLast? ∘ Prod.snd ∘ fun p : Obj R × List R × Name => (p.1, flatResult p.2.1 p.2.2)) =
        fun p => some (Item.obj (.str p.2.2)) := by
      funext p; simp [flatResult]
    rw [this]
    exact congrFun List.filterMap_eq_map ps
  unfold combine
  rw [h1]
  match ps, hd with
  | p :: ps, hd =>
    simp only [List.map_cons]
    rw [if_pos]
    rw [List.any_map, List.any_eq_true]
    by_contra hc
    have hall : ∀ q ∈ p :: ps, q.2.2 = p.2.2 := by
      intro q hq
      rcases List.mem_cons.1 hq with rfl | hq
      · rfl
      · by_contra hne
        exact hc ⟨q, hq, by simp [sameUnit, hne]⟩
    obtain ⟨a, ha, b, hb, hab⟩ := hd
    exact hab ((hall a ha).trans (hall b hb).symm)

theorem conflict_or_same (ps : List (Obj R × List R × Name)) :
    (∃ p ∈ ps, ∃ q ∈ ps, p.2.2 ≠ q.2.2) ∨ ∃ u, ∀ p ∈ ps, p.2.2 = u := by
  by_cases h : ∃ p ∈ ps, ∃ q ∈ ps, p.2.2 ≠ q.2.2
  · exact .inl h
  · right
    cases ps with
    | nil => exact ⟨[], nofun⟩
    | cons a ps =>
      refine ⟨a.2.2, fun p hp => ?_⟩
      by_contra hc
      exact h ⟨p, hp, a, by simp, hc⟩

theorem collect_reads : ∀ {l : List (Obj R)} {rs : List (List (Item R))},
    List.Forall₂ (fun x r => parse toFloat false x = .ok r) l rs →
    (∀ x ∈ l, ∀ r, parse toFloat false x = .ok r → ∃ xs u, Reads toFloat x xs u ∧ r = flatResult xs u) →
    ∃ ps : List (Obj R × List R × Name), ps.map Prod.fst = l ∧ ∀ p ∈ ps, Reads toFloat p.1 p.2.1 p.2.2
  | _, _, .nil, _ => ⟨[], rfl, nofun⟩
  | _, _, .cons (a := x) (l₁ := l) hx hl, h => by
    obtain ⟨xs, u, hr, -⟩ := h x (by simp) _ hx
    obtain ⟨ps, h1, h2⟩ := collect_reads hl (fun y hy => h y (by simp [hy]))
    refine ⟨(x, xs, u) :: ps, by rw [List.map_cons, h1], fun p hp => ?_⟩
    rcases List.mem_cons.1 hp with rfl | hp
    · exact hr
    · exact h2 p hp

theorem nums_of_all : ∀ {l : List (Obj R)}, l.all Obj.isNum = true → ∃ xs : List R, l = xs.map .num
  | [], _ => ⟨[], rfl⟩
  | .num x :: l, h => by
    obtain ⟨xs, rfl⟩ := nums_of_all (l := l) (by simpa [Obj.isNum] using h)
    exact ⟨x :: xs, rfl⟩
  | .none :: l, h => by simp [Obj.isNum] at h
  | .str _ :: l, h => by simp [Obj.isNum] at h
  | .unit _ :: l, h => by simp [Obj.isNum] at h
  | .range _ :: l, h => by simp [Obj.isNum] at h
  | .seq _ :: l, h => by simp [Obj.isNum] at h

/-- A sequence that is not made of sequences, and whose first member is a list or range of numbers next to at most one other
object, if it is a list or range at all. -/
theorem parseUnit_reads {l : List (Obj R)} (h2 : 2 ≤ l.length)
    (hl : ∀ v rest, l = .seq v :: rest → rest.length ≤ 1 ∧ v.all Obj.isNum = true)
    (hr : ∀ v rest, l = .range v :: rest → rest.length ≤ 1) {r : List (Item R)} (h : parseUnit l false = .ok r) :
    ∃ xs u, Flat toFloat (.seq l) xs u ∧ r = flatResult xs u := by
  have key : ∀ (o : Obj R) (u : Name), l.getLast? = some o → IsUnitOf o u → withUnit l u false = .ok r →
      ∃ xs u, Flat toFloat (.seq l) xs u ∧ r = flatResult xs u := by
    intro o u ho hu hw
    have hlast : l = l.dropLast ++ [o] := (List.dropLast_append_getLast? o ho).symm
    unfold withUnit at hw
    split at hw
    next hn =>
      obtain ⟨xs, hx⟩ := nums_of_all hn
      rw [hx, wrap_result] at hw
      cases hw
      rw [hx] at hlast
      refine ⟨xs, u, ?_, rfl⟩
      rw [hlast]
      refine .unit xs ?_ o u hu
      rintro rfl
      rw [hlast] at h2
      simp at h2
    next hn =>
      split at hw
      next values rest =>
        obtain ⟨hlen, hv⟩ := hl values rest rfl
        obtain ⟨xs, rfl⟩ := nums_of_all hv
        match rest, hlen, h2, ho with
        | [b], _, _, ho =>
          simp only [List.getLast?_cons_cons, List.getLast?_singleton, Option.some.injEq] at ho
          subst ho
          rw [wrap_result] at hw
          cases hw
          exact ⟨xs, u, .listUnit xs b u hu, rfl⟩
      next values rest =>
        have hlen := hr values rest rfl
        match rest, hlen, h2, ho with
        | [b], _, _, ho =>
          simp only [List.getLast?_cons_cons, List.getLast?_singleton, Option.some.injEq] at ho
          subst ho
          rw [wrap_result] at hw
          cases hw
          exact ⟨values, u, .rangeUnit values b u hu, rfl⟩
      · cases hw
  unfold parseUnit at h
  split at h
  next hn =>
    obtain ⟨xs, rfl⟩ := nums_of_all hn
    rw [wrap_result] at h
    cases h
    refine ⟨xs, _, .numbers xs ?_, rfl⟩
    rintro rfl
    simp at h2
  next hn =>
    split at h
    next s hs =>
      split at h
      · cases h
      next he => exact key _ s hs (.text s (readable_ok.1 he)) h
    next s hs => exact key _ s hs (.object s) h
    · cases h

theorem floats_last {l : List (Obj R)} {xs : List R} {o : Obj R} (h : floats toFloat l = .ok xs)
    (h' : floats toFloat (l ++ [o]) = .error true) : ∃ u, o = .str u ∧ toFloat u = none := by
  have hl := floats_ok h
  clear h
  induction hl with
  | nil =>
    cases o with
    | str s =>
      simp only [List.nil_append, floats] at h'
      cases hs : toFloat s with
      | none => exact ⟨s, rfl, hs⟩
      | some x => simp [hs] at h'
    | _ => simp [floats] at h'
  | cons hx _ ih =>
    cases hx with
    | number x =>
      rw [List.cons_append, floats] at h'
      split at h'
      next e he => exact ih (by rw [he]; exact h')
      · cases h'
    | text s x hs =>
      rw [List.cons_append, floats] at h'
      simp only [hs] at h'
      split at h'
      next e he => exact ih (by rw [he]; exact h')
      · cases h'

theorem parseStrings_reads {l : List (Obj R)} (hs : 1 < l.countP Obj.isStr) {r : List (Item R)}
    (h : parseStrings toFloat l = .ok r) : ∃ xs u, Reads toFloat (.seq l) xs u ∧ r = flatResult xs u := by
  unfold parseStrings at h
  split at h
  next xs hx =>
    rw [parseUnit_nums] at h
    cases h
    exact ⟨xs, _, .texts l xs (floats_ok hx) hs, rfl⟩
  · cases h
  next hx =>
    split at h
    · cases h
    · cases h
    next xs hd =>
      cases ho : l.getLast? with
      | none =>
        rw [List.getLast?_eq_none_iff] at ho
        subst ho; simp at hs
      | some o =>
        have hlast : l = l.dropLast ++ [o] := (List.dropLast_append_getLast? o ho).symm
        rw [hlast] at hx
        obtain ⟨u, rfl, hu⟩ := floats_last hd hx
        rw [ho] at h
        replace h : parseUnit (xs.map .num ++ [.str u]) false = .ok r := h
        have hread : UnitText u := by
          unfold parseUnit at h
          rw [if_neg (by simp [Obj.isNum]), List.getLast?_concat] at h
          simp only at h
          split at h
          · cases h
          next he => exact readable_ok.1 he
        rw [parseUnit_unit false xs (.text u hread)] at h
        cases h
        refine ⟨xs, u, ?_, rfl⟩
        rw [hlast]
        refine .textsUnit _ xs u (floats_ok hd) ?_ hread hu
        rw [hlast, List.countP_append] at hs
        simp [Obj.isStr] at hs ⊢
        omega

/-- **C41**, completeness: whatever is accepted without distribution is one of the documented forms, and gives its numbers
and its unit — provided that no list of values beside a unit has members other than numbers or is beside other values. -/
theorem c41_sound_partial {x : Obj R} (hx : Regular x) {r : List (Item R)} (h : parse toFloat false x = .ok r) :
    ∃ xs u, Reads toFloat x xs u ∧ r = flatResult xs u := by
  induction hx generalizing r with
  | leaf x hs =>
    cases x with
    | none => rw [parse] at h; cases h
    | num x => rw [parse] at h; cases h; exact ⟨[x], _, .flat (.number x), rfl⟩
    | str s =>
      rw [parse] at h
      split at h
      · cases h
      next hne =>
        split at h
        · cases h
        next x hx => cases h; exact ⟨[x], _, .flat (.text s x hne hx), rfl⟩
    | unit s => rw [parse] at h; cases h
    | range l =>
      rw [parse] at h
      split at h
      · cases h
      next hne => rw [wrap_result] at h; cases h; exact ⟨l, _, .flat (.range l hne), rfl⟩
    | seq l => cases hs
  | seq l hm hl hr ih0 =>
    have ih : ∀ y ∈ l, ∀ r, parse toFloat false y = .ok r → ∃ xs u, Reads toFloat y xs u ∧ r = flatResult xs u :=
      fun y hy r hr => ih0 y hy hr
    clear ih0
    match l, hm, hl, hr, h, ih with
    | [], _, _, _, h, _ => rw [parse] at h; cases h
    | [y], _, _, _, h, ih =>
      rw [parse] at h
      obtain ⟨xs, u, h1, h2⟩ := ih y (by simp) r h
      exact ⟨xs, u, .wrap y xs u h1, h2⟩
    | y :: z :: l, _, hl, hr, h, ih =>
      have hp := h
      rw [parse_two _ _ (by simp)] at h
      by_cases hall : (y :: z :: l).all Obj.isSeq = true
      · rw [if_pos hall] at h
        split at h
        · cases h
        next parsed hparsed =>
          obtain ⟨ps, h1, h2⟩ := collect_reads (parseAll_inv hparsed) ih
          have hlen : 2 ≤ ps.length := by
            have := congrArg List.length h1
            simp at this; omega
          have hseq : ∀ p ∈ ps, p.1.isSeq = true := by
            intro p hp
            exact List.all_eq_true.1 hall p.1 (h1 ▸ List.mem_map_of_mem (f := Prod.fst) hp)
          rcases conflict_or_same ps with hd | ⟨u, hu⟩
          · have := c41_conflict ps hlen hseq h2 hd
            rw [h1, hp] at this
            cases this
          · have hR := Reads.parts (toFloat := toFloat) (ps.map (fun p => (p.1, p.2.1))) u (by simpa using hlen)
              (by
                intro q hq
                obtain ⟨p, hp, rfl⟩ := List.mem_map.1 hq
                exact hseq p hp)
              (by
                intro q hq
                obtain ⟨p, hp, rfl⟩ := List.mem_map.1 hq
                have := h2 p hp
                rw [hu p hp] at this
                exact this)
            rw [List.map_map] at hR
            have e1 : ps.map (Prod.fst ∘ fun p : Obj R × List R × Name => (p.1, p.2.1)) = ps.map Prod.fst := rfl
            rw [e1, h1] at hR
            refine ⟨_, u, hR, ?_⟩
            have := c41_parse hR
            rw [hp] at this
            cases this
            rfl
      · rw [if_neg hall] at h
        split at h
        · cases h
        · split at h
          next hs => exact parseStrings_reads hs h
          · obtain ⟨xs, u, h1, h2⟩ := parseUnit_reads (toFloat := toFloat) (by simp) (hl (by simpa using hall)) hr h
            exact ⟨xs, u, .flat h1, h2⟩

/-! ### Rejected input -/

/-- **C41**, empty input, missing input and text that is no number are rejected with the documented exceptions; two unit
objects are rejected wherever they are. -/
theorem c41_rejected (d : Bool) :
    parse toFloat d (.seq []) = .error .parsingValue ∧ parse toFloat d (.range []) = .error .parsingValue ∧
    parse toFloat d (.str []) = .error .parsingValue ∧ parse toFloat d .none = .error .parsingType ∧
    (∀ s, s ≠ [] → toFloat s = none → parse toFloat d (.str s) = .error .parsingType) ∧
    (∀ l : List (Obj R), 1 < l.countP Obj.isUnit → parse toFloat d (.seq l) = .error .parsingValue) := by
  refine ⟨by rw [parse], by rw [parse, if_pos rfl], by rw [parse, if_pos rfl], by rw [parse], ?_, ?_⟩
  · intro s hs h
    rw [parse, if_neg hs]
    simp only [h]
  · intro l h
    rw [parse_two _ _ (le_trans h (List.countP_le_length ..)), if_neg, if_pos h]
    intro hall
    obtain ⟨x, hx, hu⟩ := List.countP_pos_iff.1 (lt_trans Nat.zero_lt_one h)
    have := List.all_eq_true.1 hall x hx
    cases x <;> simp_all [Obj.isSeq, Obj.isUnit]

/-- **C41**, two different units in one list of numbers are rejected: numbers, one of which is text that is no number, with
a last text that is no number either. -/
theorem c41_two_units (d : Bool) (l l' : List (Obj R)) (xs ys : List R) (s t : Name)
    (hl : List.Forall₂ (Numeral toFloat) l xs) (hl' : List.Forall₂ (Numeral toFloat) l' ys) (hs : toFloat s = none) :
    parse toFloat d (.seq (l ++ .str s :: (l' ++ [.str t]))) = .error .parsingValue := by
  have hbad : ∀ rest : List (Obj R), floats toFloat (l ++ .str s :: rest) = .error true := by
    intro rest
    clear hl'
    induction hl with
    | nil => simp [floats, hs]
    | cons hx _ ih =>
      cases hx with
      | number x => rw [List.cons_append, floats, ih]
      | text s x h => rw [List.cons_append, floats]; simp only [h, ih]
  obtain ⟨h1, h2⟩ := count_numerals hl
  obtain ⟨h3, h4⟩ := count_numerals hl'
  rw [parse_two _ _ (by simp; omega), if_neg, if_neg, if_pos]
  · unfold parseStrings
    rw [hbad]
    have : (l ++ Obj.str s :: (l' ++ [Obj.str t])).dropLast = l ++ Obj.str s :: l' := by
      rw [show l ++ Obj.str s :: (l' ++ [Obj.str t]) = (l ++ Obj.str s :: l') ++ [Obj.str t] by simp, List.dropLast_concat]
    simp only [this, hbad]
  · simp [List.countP_append, List.countP_cons, Obj.isStr]; omega
  · simp [List.countP_append, List.countP_cons, Obj.isUnit, h1, h3]
  · simp [Obj.isSeq]

/-! ### Where the property fails -/

/-- **C41** fails for values beside a list of values: `parse([(1, 2), 5, 'm'])` drops the 5, whatever the numbers. -/
theorem c41_not_values (xs : List R) (ys : List R) (hy : ys ≠ []) (u : Name) (hu : UnitText u) :
    parse toFloat false (.seq (.seq (xs.map .num) :: ys.map .num ++ [.str u])) = .ok (flatResult xs u) := by
  have h0 : ys.length ≠ 0 := fun h0 => hy (List.length_eq_zero_iff.1 h0)
  obtain ⟨h1, h2⟩ := count_nums ys
  rw [parse_two _ _ (by simp), if_neg (by simp [Obj.isSeq]), if_neg, if_neg]
  · unfold parseUnit
    rw [if_neg (by simp [Obj.isNum]), List.getLast?_concat]
    simp only [readable_ok.2 hu]
    unfold withUnit
    rw [List.dropLast_concat, if_neg (by simp [Obj.isNum])]
    simp only [List.cons_append, wrap_result]
    rfl
  · simp [List.countP_append, List.countP_cons, Obj.isStr, h2]
  · simp [List.countP_append, List.countP_cons, Obj.isUnit, h1]

/-- **C41** fails for values that are no numbers: `parse([('a', None), 'm'])` returns the values as they are. -/
theorem c41_not_numbers (l : List (Obj R)) (u : Name) (hu : UnitText u) :
    parse toFloat false (.seq [.seq l, .str u]) = .ok (l.map .obj ++ [.obj (.str u)]) := by
  rw [parse_two _ _ (by simp), if_neg (by simp [Obj.isSeq]), if_neg (by simp [List.countP_cons, Obj.isUnit]),
    if_neg (by simp [List.countP_cons, Obj.isStr])]
  unfold parseUnit
  rw [if_neg (by simp [Obj.isNum])]
  simp only [List.getLast?_cons_cons, List.getLast?_singleton, readable_ok.2 hu]
  unfold withUnit
  rw [if_neg (by simp [Obj.isNum])]
  rfl

/-- **C41** fails for numbers given as text with `distribute=True`: the unit is not distributed, and the result is that
without distribution. -/
theorem c41_not_distributed (l : List (Obj R)) (xs : List R) (u : Name) (h : List.Forall₂ (Numeral toFloat) l xs)
    (hs : 0 < l.countP Obj.isStr) (hu : UnitText u) (hn : toFloat u = none) :
    parse toFloat true (.seq (l ++ [.str u])) = .ok (flatResult xs u) := by
  have hl : 1 ≤ l.length := le_trans hs (List.countP_le_length ..)
  have key : 1 < (l ++ [Obj.str u]).countP Obj.isStr := by
    rw [List.countP_append]; simp [Obj.isStr] at hs ⊢; omega
  obtain ⟨h1, h2⟩ := count_numerals h
  have := c41_parse (Reads.textsUnit l xs u h hs hu hn)
  have hunit : ¬ 1 < (l ++ [Obj.str u]).countP Obj.isUnit := by
    rw [List.countP_append, h1]; simp [Obj.isUnit]
  have hseq : ¬ (l ++ [Obj.str u]).all Obj.isSeq = true := by simp [Obj.isSeq]
  rw [parse_two _ _ (by simp; omega), if_neg hseq, if_neg hunit, if_pos key] at this ⊢
  exact this

/-- **C41** fails for numbers given as text followed by a unit object: a plain `TypeError` leaves the function, unlike for a
unit given as text. -/
theorem c41_not_unit_object (d : Bool) (l : List (Obj R)) (xs : List R) (u : Name)
    (h : List.Forall₂ (Numeral toFloat) l xs) (hs : 1 < l.countP Obj.isStr) :
    parse toFloat d (.seq (l ++ [.unit u])) = .error .type := by
  have hl : 2 ≤ l.length := le_trans hs (List.countP_le_length ..)
  obtain ⟨h1, h2⟩ := count_numerals h
  rw [parse_two _ _ (by simp; omega), if_neg (by simp [Obj.isSeq]), if_neg, if_pos]
  · have : floats toFloat (l ++ [.unit u]) = .error false := by
      clear hs hl h1 h2
      induction h with
      | nil => simp [floats]
      | cons hx _ ih =>
        cases hx with
        | number x => rw [List.cons_append, floats, ih]
        | text s x h => rw [List.cons_append, floats]; simp only [h, ih]
    unfold parseStrings
    rw [this]
  · rw [List.countP_append]; simp [Obj.isStr] at hs ⊢; omega
  · rw [List.countP_append, h1]; simp [Obj.isUnit]

/-- **C41** fails for the unit `'1'` after numbers given as text: it is read as one more number. -/
theorem c41_not_one (x : R) (one : toFloat Symbolic.one = some x) (l : List (Obj R)) (xs : List R)
    (h : List.Forall₂ (Numeral toFloat) l xs) (hs : 0 < l.countP Obj.isStr) :
    parse toFloat false (.seq (l ++ [.str Symbolic.one])) = .ok (flatResult (xs ++ [x]) Symbolic.one) := by
  refine c41_parse (.texts _ _ ?_ ?_)
  · exact List.rel_append h (.cons (.text _ _ one) .nil)
  · rw [List.countP_append]; simp [Obj.isStr] at hs ⊢; omega

/-! ### Examples -/

/-- `float` on some strings. -/
def sampleFloat (s : Name) : Option ℚ :=
  if s = c! "1" then some 1 else if s = c! "1.1" then some 1.1 else if s = c! "2.3" then some 2.3 else none

theorem unit_text {s : Name} (h : (exprOfString false s).toOption.isSome = true) : UnitText s := by
  cases he : exprOfString false s with
  | error e => rw [he] at h; cases h
  | ok e => exact .inr ⟨e, he⟩

theorem metre_text : UnitText (c! "m") := unit_text (by decide +kernel)
theorem speed_text : UnitText (c! "m / s") := unit_text (by decide +kernel)
theorem inverse_text : UnitText (c! "m s^-1") := unit_text (by decide +kernel)

/-- `[1.1, 2.3, 'm']`. -/
def sample (u : Name) : Obj ℚ := .seq [.num 1.1, .num 2.3, .str u]

theorem sample_reads {u : Name} (h : UnitText u) : Reads sampleFloat (sample u) [1.1, 2.3] u :=
  .flat (.unit [1.1, 2.3] (by simp) (.str u) u (.text u h))

/-- `[[1.1, 2.3, 'm'], [[3, 'm']]]`. -/
example : parse sampleFloat false (.seq [sample (c! "m"), .seq [.seq [.num 3, .str (c! "m")]]]) =
    .ok (flatResult [1.1, 2.3, 3] (c! "m")) :=
  c41_parse (.parts [(sample (c! "m"), [1.1, 2.3]), (.seq [.seq [.num 3, .str (c! "m")]], [3])] (c! "m") (by simp)
    (by simp [sample, Obj.isSeq]) (by
      intro p hp
      simp only [List.mem_cons, List.not_mem_nil, or_false] at hp
      rcases hp with rfl | rfl
      · exact sample_reads metre_text
      · exact .wrap _ _ _ (.flat (.unit [3] (by simp) (.str _) _ (.text _ metre_text)))))

/-- `['1.1', 2.3, 'm']`. -/
example : parse sampleFloat false (.seq [.str (c! "1.1"), .num 2.3, .str (c! "m")]) = .ok (flatResult [1.1, 2.3] (c! "m")) :=
  c41_parse (.textsUnit [.str (c! "1.1"), .num 2.3] [1.1, 2.3] (c! "m") (.cons (.text _ _ rfl) (.cons (.number _) .nil))
    (by decide) metre_text rfl)

/-- `[[1.1, 2.3, 'm'], [3, 's']]` is rejected, but may be distributed. -/
example : parse sampleFloat false (.seq [sample (c! "m"), sample (c! "m / s")]) = .error .parsingValue ∧
    parse sampleFloat true (.seq [sample (c! "m"), sample (c! "m / s")]) =
      .ok (pairResult [(1.1, c! "m"), (2.3, c! "m"), (1.1, c! "m / s"), (2.3, c! "m / s")]) := by
  constructor
  · exact c41_conflict [(sample (c! "m"), [1.1, 2.3], c! "m"), (sample (c! "m / s"), [1.1, 2.3], c! "m / s")] (by simp)
      (by simp [sample, Obj.isSeq])
      (by
        intro p hp
        simp only [List.mem_cons, List.not_mem_nil, or_false] at hp
        rcases hp with rfl | rfl
        · exact sample_reads metre_text
        · exact sample_reads speed_text)
      ⟨_, List.mem_cons_self .., _, List.mem_cons_of_mem _ (List.mem_singleton_self _), by decide⟩
  · exact c41_distribute (.parts [(sample (c! "m"), [(1.1, c! "m"), (2.3, c! "m")]),
        (sample (c! "m / s"), [(1.1, c! "m / s"), (2.3, c! "m / s")])] (by simp) (by simp [sample, Obj.isSeq]) (by
      intro p hp
      simp only [List.mem_cons, List.not_mem_nil, or_false] at hp
      rcases hp with rfl | rfl
      · exact .flat (.unit [1.1, 2.3] (by simp) (.str _) _ (.text _ metre_text))
      · exact .flat (.unit [1.1, 2.3] (by simp) (.str _) _ (.text _ speed_text))))

/-- Equal units with different texts are rejected, too. -/
example : parse sampleFloat false (.seq [sample (c! "m / s"), sample (c! "m s^-1")]) = .error .parsingValue :=
  c41_conflict [(sample (c! "m / s"), [1.1, 2.3], c! "m / s"), (sample (c! "m s^-1"), [1.1, 2.3], c! "m s^-1")] (by simp)
      (by simp [sample, Obj.isSeq])
      (by
        intro p hp
        simp only [List.mem_cons, List.not_mem_nil, or_false] at hp
        rcases hp with rfl | rfl
        · exact sample_reads speed_text
        · exact sample_reads inverse_text)
      ⟨_, List.mem_cons_self .., _, List.mem_cons_of_mem _ (List.mem_singleton_self _), by decide⟩

/-- The list of a list of numbers and a unit is regular. -/
example : Regular (R := ℚ) (.seq [.seq [.num 1, .num 2], .str (c! "m")]) := by
  refine .seq _ ?_ ?_ ?_
  · intro x hx
    simp only [List.mem_cons, List.not_mem_nil, or_false] at hx
    rcases hx with rfl | rfl
    · refine .seq _ ?_ ?_ ?_
      · intro x hx
        simp only [List.mem_cons, List.not_mem_nil, or_false] at hx
        rcases hx with rfl | rfl <;> exact .leaf _ rfl
      · intro _ v rest h; cases h
      · intro v rest h; cases h
    · exact .leaf _ rfl
  · intro _ v rest h
    cases h
    exact ⟨by simp, rfl⟩
  · intro v rest h; cases h

/-- `[1.1, 'm', 2.3, 's']` is rejected. -/
example : parse sampleFloat false (.seq [.num 1.1, .str (c! "m"), .num 2.3, .str (c! "s")]) = .error .parsingValue :=
  c41_two_units false [.num 1.1] [.num 2.3] [1.1] [2.3] (c! "m") (c! "s") (.cons (.number _) .nil) (.cons (.number _) .nil)
    rfl

/-- `['1.1', '2.3', 'm']` with `distribute=True`. -/
example : parse sampleFloat true (.seq [.str (c! "1.1"), .str (c! "2.3"), .str (c! "m")]) =
    .ok (flatResult [1.1, 2.3] (c! "m")) :=
  c41_not_distributed [.str (c! "1.1"), .str (c! "2.3")] [1.1, 2.3] _ (.cons (.text _ _ rfl) (.cons (.text _ _ rfl) .nil))
    (by decide) metre_text rfl

end Eprem.Measurable
