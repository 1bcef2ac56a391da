import Verif.Model.Collections
import Verif.Lemmas.MetricConvert
import Verif.Props.Symbolic

/-!
# C120: expressions as sequences and sets of terms
-/

namespace Eprem.Symbolic

/-- The numbers of a term are exact in double precision. -/
def ExactTerm (t : Term) : Prop := fl t.exp = t.exp ∧ fl t.coeff = t.coeff

theorem termEq_exact {t u : Term} (ht : ExactTerm t) (hu : ExactTerm u) : termEq t u = true ↔ t = u := by
  constructor
  · intro h
    simp only [termEq, decide_eq_true_eq, ht.1, ht.2, hu.1, hu.2] at h
    cases t; cases u; simp_all
  · rintro rfl
    exact Metric.termEq_refl t

/-! ## Sequences -/

theorem listItem_inside {α : Type} (l : List α) (i : Nat) (h : i < l.length) :
    listItem l i = some l[i] ∧ listItem l ((i : Int) - l.length) = some l[i] := by
  unfold listItem
  constructor
  · rw [if_pos (by omega), Int.toNat_natCast, List.getElem?_eq_getElem h]
  · rw [if_neg (by omega), if_pos (by omega), show ((i : Int) - l.length + l.length).toNat = i by omega,
      List.getElem?_eq_getElem h]

/-- **C120**: the term at position `i` is found at `i` and, counted from the end, at `i - len(e)`; there is none at or beyond
`len(e)`.  Missing: positions before the first one (see `c120_item_wraps`). -/
theorem c120_item_partial (e : List Term) (i : Nat) :
    (∀ h : i < e.length, getTerm e i = some e[i] ∧ getTerm e ((i : Int) - e.length) = some e[i]) ∧
    (e.length ≤ i → getTerm e i = none) := by
  constructor
  · intro h
    unfold getTerm
    constructor
    · rw [if_neg (by omega), if_neg (by omega)]
      exact (listItem_inside e i h).1
    · rw [if_neg (by omega), if_pos (by omega), show (i : Int) - e.length + e.length = i by omega]
      exact (listItem_inside e i h).1
  · intro h
    unfold getTerm
    split
    · rfl
    · rw [if_neg (by omega)]
      unfold listItem
      rw [if_pos (by omega)]
      exact List.getElem?_eq_none (by omega)

/-- **C120**, violated: the positions from `-2 len(e)` to `-len(e) - 1`, at which a sequence has nothing, give the terms
once more; only before them is there an `IndexError`. -/
theorem c120_item_wraps (e : List Term) (i : Nat) (h : i < e.length) :
    getTerm e ((i : Int) - 2 * e.length) = some e[i] ∧ listItem e ((i : Int) - 2 * e.length) = none ∧
    getTerm e (-2 * (e.length : Int) - 1 - i) = none := by
  refine ⟨?_, ?_, ?_⟩
  · unfold getTerm
    rw [if_neg (by omega), if_pos (by omega), show (i : Int) - 2 * e.length + e.length = i - e.length by omega]
    exact (listItem_inside e i h).2
  · unfold listItem
    rw [if_neg (by omega), if_neg (by omega)]
  · unfold getTerm
    rw [if_neg (by omega), if_pos (by omega)]
    unfold listItem
    rw [if_neg (by omega), if_neg (by omega)]

/-- `a^2 b` -/
def sampleExpr : List Term := [⟨1, "a".toList, 2⟩, ⟨1, "b".toList, 1⟩]

example : getTerm sampleExpr (-1) = some ⟨1, "b".toList, 1⟩ ∧ getTerm sampleExpr (-3) = some ⟨1, "b".toList, 1⟩ ∧
    getTerm sampleExpr (-4) = some ⟨1, "a".toList, 2⟩ ∧ getTerm sampleExpr (-5) = none ∧ getTerm sampleExpr 2 = none := by
  decide

/-- **C120**: `t in e` and `e.count(t)` are about the terms that are equal to `t`. -/
theorem c120_contains (e : List Term) (t : Term) :
    (hasTerm e t = true ↔ ∃ u ∈ e, termEq u t = true) ∧ (hasTerm e t = true ↔ 0 < countTerm e t) := by
  have h1 : hasTerm e t = true ↔ ∃ u ∈ e, termEq u t = true := by simp [hasTerm, List.any_eq_true]
  refine ⟨h1, h1.trans ?_⟩
  unfold countTerm
  rw [List.length_pos_iff_exists_mem]
  simp only [List.mem_filter]

/-- **C120**: a canonical expression has a term at most once. -/
theorem c120_count (e : List Term) (he : Canonical e) (t : Term) : countTerm e t ≤ 1 := by
  have hp : e.Pairwise (fun a b => a.base ≠ b.base) := List.pairwise_map.1 he.nodup
  have hs : (e.filter (fun u => termEq u t)).Pairwise (fun a b => a.base ≠ b.base) := hp.sublist List.filter_sublist
  unfold countTerm
  match hl : e.filter (fun u => termEq u t) with
  | [] => simp
  | [_] => simp
  | a :: b :: l =>
    rw [hl] at hs
    have ha : a ∈ e.filter (fun u => termEq u t) := by rw [hl]; simp
    have hb : b ∈ e.filter (fun u => termEq u t) := by rw [hl]; simp
    have ha' := (List.mem_filter.1 ha).2
    have hb' := (List.mem_filter.1 hb).2
    simp only [termEq, decide_eq_true_eq] at ha' hb'
    exact absurd (ha'.1.trans hb'.1.symm) ((List.pairwise_cons.1 hs).1 b (by simp))

example : Canonical sampleExpr ∧ countTerm sampleExpr ⟨1, "a".toList, 2⟩ = 1 ∧ hasTerm sampleExpr ⟨1, "a".toList, 1⟩ = false := by
  refine ⟨?_, by decide +kernel, by decide +kernel⟩
  obtain ⟨r, h1, h2⟩ := c02_reduce_canonical sampleExpr (by simp [sampleExpr]) (by
    intro t ht
    simp only [sampleExpr, List.mem_cons, List.not_mem_nil, or_false] at ht
    rcases ht with rfl | rfl <;> decide)
  have : reduce sampleExpr = .ok sampleExpr := by decide +kernel
  rw [this, Except.ok.injEq] at h1
  exact h1 ▸ h2

theorem indexFrom_spec (e : List Term) (t : Term) : ∀ fuel i, i ≤ e.length → e.length < i + fuel →
    (∀ k, indexFrom e t fuel i = some k ↔ i ≤ k ∧ ∃ h : k < e.length, termEq e[k] t = true ∧
      ∀ j (hj : j < k), i ≤ j → termEq e[j] t = false)
  | 0, i, _, h2, _ => by omega
  | fuel + 1, i, h1, h2, k => by
    unfold indexFrom
    by_cases hi : i < e.length
    · rw [((c120_item_partial e i).1 hi).1]
      simp only
      by_cases ht : termEq e[i] t = true
      · rw [if_pos ht]
        constructor
        · intro h
          cases h
          exact ⟨le_refl _, hi, ht, fun j hj hij => by omega⟩
        · rintro ⟨hik, hk, _, h4⟩
          rcases Nat.lt_or_ge i k with hlt | hge
          · exact absurd ht (by rw [h4 i hlt (le_refl _)]; simp)
          · rw [Nat.le_antisymm hge hik]
      · rw [if_neg ht]
        rw [indexFrom_spec e t fuel (i + 1) hi (by omega) k]
        constructor
        · rintro ⟨hik, hk, h3, h4⟩
          refine ⟨by omega, hk, h3, fun j hj hij => ?_⟩
          rcases Nat.eq_or_lt_of_le hij with rfl | hlt
          · simpa using ht
          · exact h4 j hj hlt
        · rintro ⟨hik, hk, h3, h4⟩
          refine ⟨?_, hk, h3, fun j hj hij => h4 j hj (by omega)⟩
          rcases Nat.eq_or_lt_of_le hik with rfl | hlt
          · exact absurd h3 ht
          · exact hlt
    · rw [(c120_item_partial e i).2 (by omega)]
      constructor
      · intro h; cases h
      · rintro ⟨hik, hk, _⟩; omega

/-- **C120**: `e.index(t)` is the position of the first term equal to `t`, and there is none exactly if `t in e` is false. -/
theorem c120_index (e : List Term) (t : Term) :
    (∀ k, indexTerm e t = some k ↔ ∃ h : k < e.length, termEq e[k] t = true ∧ ∀ j (hj : j < k), termEq e[j] t = false) ∧
    (indexTerm e t = none ↔ hasTerm e t = false) := by
  have key := fun k => indexFrom_spec e t (e.length + 1) 0 (Nat.zero_le _) (by omega) k
  have h1 : ∀ k, indexTerm e t = some k ↔ ∃ h : k < e.length, termEq e[k] t = true ∧
      ∀ j (hj : j < k), termEq e[j] t = false := fun k => by
    rw [indexTerm, key k]
    constructor
    · rintro ⟨_, hk, h3, h4⟩; exact ⟨hk, h3, fun j hj => h4 j hj (Nat.zero_le _)⟩
    · rintro ⟨hk, h3, h4⟩; exact ⟨Nat.zero_le _, hk, h3, fun j hj _ => h4 j hj⟩
  refine ⟨h1, ?_⟩
  constructor
  · intro hn
    cases hc : hasTerm e t with
    | false => rfl
    | true =>
      exfalso
      have hex : ∃ k, ∃ h : k < e.length, termEq e[k] t = true := by
        obtain ⟨u, hu, hut⟩ := (c120_contains e t).1.1 hc
        obtain ⟨k, hk, rfl⟩ := List.mem_iff_getElem.1 hu
        exact ⟨k, hk, hut⟩
      classical
      obtain ⟨hk, h3⟩ := Nat.find_spec hex
      have := (h1 (Nat.find hex)).2 ⟨hk, h3, fun j hj => by
        have hm := Nat.find_min hex hj
        by_contra hf
        exact hm ⟨by omega, by simpa using hf⟩⟩
      rw [hn] at this
      cases this
  · intro hc
    cases hi : indexTerm e t with
    | none => rfl
    | some k =>
      obtain ⟨hk, h3, _⟩ := (h1 k).1 hi
      have : hasTerm e t = true := (c120_contains e t).1.2 ⟨e[k], List.getElem_mem hk, h3⟩
      rw [hc] at this
      cases this

example : indexTerm sampleExpr ⟨1, "b".toList, 1⟩ = some 1 ∧ indexTerm sampleExpr ⟨1, "c".toList, 1⟩ = none := by
  decide +kernel

/-! ## Sets -/

theorem any_sameEntry {hash : Term → Int} {s : List Term} (hs : ∀ u ∈ s, ExactTerm u) {t : Term} (ht : ExactTerm t) :
    s.any (fun u => sameEntry hash u t) = true ↔ t ∈ s := by
  rw [List.any_eq_true]
  constructor
  · rintro ⟨u, hu, h⟩
    unfold sameEntry at h
    rw [Bool.and_eq_true] at h
    rw [← (termEq_exact (hs u hu) ht).1 h.2]
    exact hu
  · intro h
    exact ⟨t, h, by unfold sameEntry; simp [Metric.termEq_refl]⟩

theorem mem_asSet_aux (hash : Term → Int) : ∀ (ts s : List Term), (∀ t ∈ ts, ExactTerm t) → (∀ t ∈ s, ExactTerm t) → ∀ t,
    t ∈ ts.foldl (fun s t => if s.any (fun u => sameEntry hash u t) then s else s ++ [t]) s ↔ t ∈ s ∨ t ∈ ts
  | [], s, _, _, t => by simp
  | x :: ts, s, h1, h2, t => by
    rw [List.foldl_cons]
    have hx := h1 x (List.mem_cons_self)
    by_cases hm : s.any (fun u => sameEntry hash u x) = true
    · rw [if_pos hm, mem_asSet_aux hash ts s (fun t ht => h1 t (List.mem_cons_of_mem _ ht)) h2]
      have hxs := (any_sameEntry h2 hx).1 hm
      constructor
      · rintro (h | h)
        · exact .inl h
        · exact .inr (List.mem_cons_of_mem _ h)
      · rintro (h | h)
        · exact .inl h
        · rcases List.mem_cons.1 h with rfl | h
          · exact .inl hxs
          · exact .inr h
    · rw [if_neg hm, mem_asSet_aux hash ts (s ++ [x]) (fun t ht => h1 t (List.mem_cons_of_mem _ ht)) (fun t ht => by
        rcases List.mem_append.1 ht with h | h
        · exact h2 t h
        · rw [List.mem_singleton.1 h]; exact hx)]
      simp only [List.mem_append, List.mem_singleton, List.mem_cons]
      tauto

theorem mem_asSet (hash : Term → Int) {ts : List Term} (h : ∀ t ∈ ts, ExactTerm t) (t : Term) : t ∈ asSet hash ts ↔ t ∈ ts := by
  have := mem_asSet_aux hash ts [] h (fun t h => nomatch h) t
  simpa [asSet] using this

theorem mem_setMinus (hash : Term → Int) {a b : List Term} (ha : ∀ t ∈ a, ExactTerm t) (hb : ∀ t ∈ b, ExactTerm t) (t : Term) :
    t ∈ setMinus hash (asSet hash a) (asSet hash b) ↔ t ∈ a ∧ t ∉ b := by
  unfold setMinus
  rw [List.mem_filter, mem_asSet hash ha]
  constructor
  · rintro ⟨h1, h2⟩
    refine ⟨h1, fun h => ?_⟩
    have := (any_sameEntry (hash := hash) (s := asSet hash b) (fun u hu => hb u ((mem_asSet hash hb u).1 hu)) (ha t h1)).2
      ((mem_asSet hash hb t).2 h)
    rw [this] at h2
    cases h2
  · rintro ⟨h1, h2⟩
    refine ⟨h1, ?_⟩
    cases hc : (asSet hash b).any (fun u => sameEntry hash u t) with
    | false => rfl
    | true =>
      exact absurd ((mem_asSet hash hb t).1 ((any_sameEntry (fun u hu => hb u ((mem_asSet hash hb u).1 hu)) (ha t h1)).1 hc)) h2

/-- **C120**: for expressions whose numbers are exact in double precision, `a.difference(b)` has the terms of `a` that `b`
does not have; the symmetric difference those that one of the two has; the split difference one set for each; whatever the
hash function is.  Missing: other numbers (see `c120_difference_inexact`). -/
theorem c120_difference_partial (hash : Term → Int) (a b : List Term) (ha : ∀ t ∈ a, ExactTerm t) (hb : ∀ t ∈ b, ExactTerm t) :
    (∃ s, difference hash a b false false = [s] ∧ ∀ t, t ∈ s ↔ t ∈ a ∧ t ∉ b) ∧
    (∃ s, difference hash a b true false = [s] ∧ ∀ t, t ∈ s ↔ (t ∈ a ∧ t ∉ b) ∨ (t ∈ b ∧ t ∉ a)) ∧
    ∀ sym, ∃ s r, difference hash a b sym true = [s, r] ∧ (∀ t, t ∈ s ↔ t ∈ a ∧ t ∉ b) ∧ ∀ t, t ∈ r ↔ t ∈ b ∧ t ∉ a := by
  refine ⟨⟨_, rfl, fun t => mem_setMinus hash ha hb t⟩, ⟨_, rfl, fun t => ?_⟩, fun sym => ⟨_, _, rfl,
    fun t => mem_setMinus hash ha hb t, fun t => mem_setMinus hash hb ha t⟩⟩
  rw [List.mem_append, mem_setMinus hash ha hb, mem_setMinus hash hb ha]

/-- **C120**: two such expressions are equal exactly if their symmetric difference is empty. -/
theorem c120_difference_equal (hash : Term → Int) (a b : List Term) (ca : Canonical a) (cb : Canonical b) (wa : WF a) (wb : WF b)
    (ha : ∀ t ∈ a, ExactTerm t) (hb : ∀ t ∈ b, ExactTerm t) :
    exprEq a b = true ↔ difference hash a b true false = [[]] := by
  obtain ⟨s, h1, h2⟩ := (c120_difference_partial hash a b ha hb).2.1
  rw [h1]
  have hempty : [s] = [[]] ↔ ∀ t, t ∈ a ↔ t ∈ b := by
    constructor
    · intro h t
      have hs : s = [] := by simpa using h
      rw [hs] at h2
      have := h2 t
      simp only [List.not_mem_nil, false_iff, not_or, not_and, not_not] at this
      exact ⟨this.1, this.2⟩
    · intro h
      have : s = [] := List.eq_nil_iff_forall_not_mem.2 (fun t ht => by
        rcases (h2 t).1 ht with ⟨x, y⟩ | ⟨x, y⟩
        · exact y ((h t).1 x)
        · exact y ((h t).2 x))
      rw [this]
  rw [hempty]
  have na : a.Nodup := List.Nodup.of_map _ ca.nodup
  have nb : b.Nodup := List.Nodup.of_map _ cb.nodup
  constructor
  · intro h t
    exact (exprEq_perm h (fun t ht u hu h => (termEq_exact (ha t ht) (hb u hu)).1 h)).mem_iff
  · intro h
    have hp : a.Perm b := (List.perm_ext_iff_of_nodup na nb).2 h
    have := c03_reduce_perm a b hp wa
    rw [ca.reduce_self wa.bases, cb.reduce_self wb.bases, Except.ok.injEq] at this
    rw [this]
    exact exprEq_refl b

/-- `a^2 b` and `b c` -/
example : (∀ t ∈ sampleExpr, ExactTerm t) ∧ (∀ t ∈ [⟨1, "b".toList, 1⟩, ⟨1, "c".toList, 1⟩], ExactTerm t) ∧
    difference (fun _ => 0) sampleExpr [⟨1, "b".toList, 1⟩, ⟨1, "c".toList, 1⟩] true false =
      [[⟨1, "a".toList, 2⟩, ⟨1, "c".toList, 1⟩]] := by
  unfold ExactTerm
  decide +kernel

/-- **C120**: equal expressions, with numbers that are exact in double precision, have the same hash.  Missing: other
numbers (see `c120_difference_inexact`). -/
theorem c120_hash_partial (a b : List Term) (ca : Canonical a) (cb : Canonical b) (wa : WF a) (wb : WF b)
    (ha : ∀ t ∈ a, ExactTerm t) (hb : ∀ t ∈ b, ExactTerm t) : exprEq a b = true ↔ hashedTerms a = hashedTerms b := by
  constructor
  · intro h
    have hp := exprEq_perm h (fun t ht u hu h => (termEq_exact (ha t ht) (hb u hu)).1 h)
    have := c03_reduce_perm a b hp wa
    rw [ca.reduce_self wa.bases, cb.reduce_self wb.bases, Except.ok.injEq] at this
    rw [this]
  · intro h
    have hinj : Function.Injective (fun t : Term => (t.coeff, t.base, t.exp)) := by
      rintro ⟨_, _, _⟩ ⟨_, _, _⟩ h
      simp only [Prod.mk.injEq] at h
      obtain ⟨rfl, rfl, rfl⟩ := h
      rfl
    rw [List.map_injective_iff.2 hinj h]
    exact exprEq_refl b

/-- A number that rounds to the same double as 1/3. -/
def nearThird : Rat := 3333333333333333 / 10000000000000000

/-- The two terms. -/
def thirdPower : Term := ⟨1, "a".toList, 1 / 3⟩
def nearPower : Term := ⟨1, "a".toList, nearThird⟩

/-- **C120**, violated: the expressions `a^1/3` and `a^0.3333333333333333` are equal, but have different hashes, and unless
the hashes of their terms happen to agree, each is in the difference. -/
theorem c120_difference_inexact :
    exprOfString false "a^1/3".toList = .ok [thirdPower] ∧
    exprOfString false "a^0.3333333333333333".toList = .ok [nearPower] ∧
    exprEq [thirdPower] [nearPower] = true ∧ hashedTerms [thirdPower] ≠ hashedTerms [nearPower] ∧
    ∀ hash : Term → Int, hash thirdPower ≠ hash nearPower →
      difference hash [thirdPower] [nearPower] false false = [[thirdPower]] := by
  refine ⟨by decide +kernel, by decide +kernel, by decide +kernel, by decide +kernel, fun hash h => ?_⟩
  simp [difference, setMinus, asSet, sameEntry, Ne.symm h]

/-! ## Applying a function to the bases -/

theorem NamesOnly.intExp {e : List Term} (h : NamesOnly e) {t : Term} (ht : t ∈ e) : t.exp = (t.exp.num : Rat) ∧ t.exp.num ≠ 0 := by
  have := Rat.num_div_den t.exp
  rw [(h.exp t ht).1] at this
  have h2 : t.exp = (t.exp.num : Rat) := by rw [← this]; simp
  refine ⟨h2, fun h0 => (h.exp t ht).2 ?_⟩
  rw [h2, h0]; rfl

theorem applyLoop_spec {update : Str → Except Err (List Term)} {g : Str → List Term} : ∀ (ts acc : List Term), NamesOnly acc →
    (∀ t ∈ ts, update t.base = .ok (g t.base) ∧ NamesOnly (g t.base) ∧ t.exp = (t.exp.num : Rat) ∧ t.exp.num ≠ 0 ∧
      ∀ u ∈ g t.base, |u.exp.num * t.exp.num| < 2 ^ 53) →
    ∃ r, applyLoop update acc ts = .ok r ∧ NamesOnly r ∧
      ∀ ρ, Positive ρ → value ρ r = value ρ acc * (ts.map (fun t => value ρ (g t.base) ^ t.exp.num)).prod
  | [], acc, hacc, _ => ⟨acc, rfl, hacc, fun ρ _ => by simp⟩
  | t :: ts, acc, hacc, h => by
    obtain ⟨h1, h2, h3, h4, h5⟩ := h t List.mem_cons_self
    obtain ⟨p, e1, n1, _, v1⟩ := c04_names_pow (g t.base) h2 t.exp.num h4 h5
    obtain ⟨m, e2, n2, _, v2⟩ := c04_names_mul acc p hacc n1
    obtain ⟨r, e3, n3, v3⟩ := applyLoop_spec ts m n2 (fun u hu => h u (List.mem_cons_of_mem _ hu))
    rw [← h3] at e1
    refine ⟨r, ?_, n3, fun ρ hρ => ?_⟩
    · simp only [applyLoop, h1, e1, e2, e3, bind, Except.bind]
    · rw [v3 ρ hρ, v2 ρ hρ, v1 ρ hρ, List.map_cons, List.prod_cons, mul_assoc]

/-- **C120**: `e.apply(update)`, for products of integer powers of names and a function that gives such products: the
symbols are replaced.  Missing: numerical coefficients (see `c120_apply_coefficient`). -/
theorem c120_apply_partial {update : Str → Except Err (List Term)} {g : Str → List Term} (e : List Term) (he : NamesOnly e)
    (hone : ∀ t ∈ e, t.base ≠ one)
    (h : ∀ t ∈ e, update t.base = .ok (g t.base) ∧ NamesOnly (g t.base) ∧ ∀ u ∈ g t.base, |u.exp.num * t.exp.num| < 2 ^ 53) :
    ∃ r, applyTo update e = .ok r ∧ NamesOnly r ∧ ∀ ρ, Positive ρ → value ρ r = value (fun b => value ρ (g b)) e := by
  cases e with
  | nil => exact absurd rfl he.nonempty
  | cons t ts =>
    obtain ⟨h1, h2, h5⟩ := h t List.mem_cons_self
    obtain ⟨h3, h4⟩ := he.intExp (t := t) List.mem_cons_self
    obtain ⟨p, e1, n1, _, v1⟩ := c04_names_pow (g t.base) h2 t.exp.num h4 h5
    rw [← h3] at e1
    obtain ⟨r, e2, n2, v2⟩ := applyLoop_spec (update := update) (g := g) ts p n1 (fun u hu => by
      obtain ⟨x, y, z⟩ := h u (List.mem_cons_of_mem _ hu)
      obtain ⟨x1, x2⟩ := he.intExp (t := u) (List.mem_cons_of_mem _ hu)
      exact ⟨x, y, x1, x2, z⟩)
    refine ⟨r, by simp only [applyTo, h1, e1, e2, bind, Except.bind], n2, fun ρ hρ => ?_⟩
    rw [v2 ρ hρ, v1 ρ hρ, ← List.prod_cons, ← List.map_cons (f := fun t : Term => value ρ (g t.base) ^ t.exp.num)]
    unfold value
    congr 1
    apply List.map_congr_left
    intro u hu
    unfold Term.val
    rw [he.coeff u hu, if_neg (hone u hu), (he.intExp hu).1]
    push_cast
    rw [Real.rpow_intCast, one_mul]
    rfl

/-- Symbols replaced by squares of upper-case letters. -/
def sampleUpdate (b : Str) : Except Err (List Term) := .ok [⟨1, b.map Char.toUpper, 2⟩]

example : applyTo sampleUpdate sampleExpr = .ok [⟨1, "A".toList, 4⟩, ⟨1, "B".toList, 2⟩] := by decide +kernel

/-- **C120**, violated: `apply` loses the numerical coefficient of an expression, and asks the function for the base `1`. -/
theorem c120_apply_coefficient :
    exprOfString false "2 a".toList = .ok [⟨2, one, 1⟩, ⟨1, "a".toList, 1⟩] ∧
    applyTo (fun b => exprOfString false b) [⟨2, one, 1⟩, ⟨1, "a".toList, 1⟩] = .ok [⟨1, "a".toList, 1⟩] := by
  decide +kernel

end Eprem.Symbolic
