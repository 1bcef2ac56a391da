import Verif.Lemmas.Algebra
import Verif.Lemmas.Fuel

/-!
# Properties C01-C07: symbolic expressions
-/

namespace Eprem.Symbolic

/-! ## Concrete data for the examples -/

/-- `2a`, `b^-1/2`, `3/4`, `a^-1`: a list of terms with a repeated symbol. -/
def demo : List Term := [⟨2, ['a'], 1⟩, ⟨1, ['b'], -1/2⟩, ⟨3/4, one, 1⟩, ⟨1, ['a'], 2⟩]

theorem demo_wf : WF demo := by
  intro t ht
  simp only [demo, List.mem_cons, List.not_mem_nil, or_false] at ht
  rcases ht with rfl | rfl | rfl | rfl <;> (refine ⟨?_, ?_, ?_⟩ <;> decide +kernel)

theorem validName_of (ls ds : Str) (h : ls ≠ [] ∧ (∀ x ∈ ls, isLetter x = true) ∧ (∀ x ∈ ds, isDigit x = true) ∧
    ¬ ['s', 'q', 'r', 't'] <+: ls) : ValidName (ls ++ ds) := ⟨ls, ds, rfl, h.1, h.2.1, h.2.2.1, h.2.2.2⟩

/-- `m^2 s^-1` -/
def unitA : List Term := [⟨1, ['m'], 2⟩, ⟨1, ['s'], -1⟩]
/-- `kg m^-2` -/
def unitB : List Term := [⟨1, ['k', 'g'], 1⟩, ⟨1, ['m'], -2⟩]

theorem unitA_names : NamesOnly unitA := by
  refine ⟨by decide, by decide +kernel, by decide +kernel, ?_⟩
  intro t ht
  simp only [unitA, List.mem_cons, List.not_mem_nil, or_false] at ht
  rcases ht with rfl | rfl
  · exact Or.inl (validName_of ['m'] [] (by decide))
  · exact Or.inl (validName_of ['s'] [] (by decide))

theorem unitB_names : NamesOnly unitB := by
  refine ⟨by decide, by decide +kernel, by decide +kernel, ?_⟩
  intro t ht
  simp only [unitB, List.mem_cons, List.not_mem_nil, or_false] at ht
  rcases ht with rfl | rfl
  · exact Or.inl (validName_of ['k', 'g'] [] (by decide))
  · exact Or.inl (validName_of ['m'] [] (by decide))

/-! ## C01: reduction preserves the value -/

/-- **C01.** Reduction of a non-empty list of terms succeeds, and the kept terms multiply out to the same
number for every assignment of positive values. -/
theorem c01_reduce_value (ts : List Term) (hne : ts ≠ []) (hw : WF ts) :
    ∃ r, reduce ts = .ok r ∧ ∀ ρ, Positive ρ → value ρ r = value ρ ts := by
  obtain ⟨r, vs, _, _, hr, hc, he⟩ := reduce_ok hne hw
  exact ⟨r, hr, fun ρ hρ => value_congr ρ hρ _ _ hc he⟩

example : demo ≠ [] ∧ WF demo := ⟨by simp [demo], demo_wf⟩
example : reduce demo = .ok [⟨3/2, one, 1⟩, ⟨1, ['a'], 3⟩, ⟨1, ['b'], -1/2⟩] := by decide +kernel

/-! ## C02: canonical form -/

/-- **C02.** Reduction produces the canonical form described by `Canonical`. -/
theorem c02_reduce_canonical (ts : List Term) (hne : ts ≠ []) (hw : WF ts) :
    ∃ r, reduce ts = .ok r ∧ Canonical r := by
  obtain ⟨r, vs, hp, hr', hr, _, _⟩ := reduce_ok hne hw
  exact ⟨r, hr, hr' ▸ assemble_canonical hp (coefOf_ne_zero hw)⟩

/-- **C02 (uniqueness).** Two canonical expressions with the same value under every positive assignment are
the same list of terms: the canonical form is a normal form. -/
theorem c02_canonical_unique (a b : List Term) (ha : Canonical a) (hb : Canonical b) (wa : WF a) (wb : WF b)
    (h : ∀ ρ, Positive ρ → value ρ a = value ρ b) : a = b :=
  canonical_unique ha hb wa wb h

example : ∃ r, reduce demo = .ok r ∧ Canonical r := c02_reduce_canonical demo (by simp [demo]) demo_wf

/-! ## C03: order, grouping, idempotence, equality -/

/-- **C03 (order).** The reduced form does not depend on the order of the factors. -/
theorem c03_reduce_perm (a b : List Term) (h : a.Perm b) (hw : WF a) : reduce a = reduce b := by
  by_cases hne : a = []
  · subst hne; rw [h.nil_eq]
  · have hb : b ≠ [] := fun e => hne (by rw [e] at h; exact h.eq_nil)
    exact reduce_congr hne hb hw.bases (fun t ht => hw.bases t (h.mem_iff.2 ht)) (coefOf_perm h)
      (fun x _ => expOf_perm x h)

/-- reduce each group, then reduce the concatenation of the results -/
def reduceGroups (gs : List (List Term)) : Except Err (List Term) := do
  let rs ← gs.mapM reduce
  reduce rs.flatten

/-- **C03 (grouping).** Reducing groups of factors first, and then the product of the results, gives the same
expression as reducing all factors at once. -/
theorem c03_reduce_groups (gs : List (List Term)) (hne : gs ≠ []) (hg : ∀ g ∈ gs, g ≠ [] ∧ WF g) :
    reduceGroups gs = reduce gs.flatten := by
  have key : ∀ gs : List (List Term), (∀ g ∈ gs, g ≠ [] ∧ WF g) →
      ∃ rs, gs.mapM reduce = .ok rs ∧ rs.length = gs.length ∧ WF rs.flatten ∧ WF gs.flatten ∧
        (rs ≠ [] → rs.flatten ≠ []) ∧ (gs ≠ [] → gs.flatten ≠ []) ∧
        coefOf rs.flatten = coefOf gs.flatten ∧ ∀ b, b ≠ one → expOf b rs.flatten = expOf b gs.flatten := by
    intro gs
    induction gs with
    | nil => intro _; exact ⟨[], rfl, rfl, by simp [WF], by simp [WF], by simp, by simp, rfl, by simp⟩
    | cons g gs ih =>
      intro hg
      obtain ⟨rs, h1, h2, h3, h4, h5, h6, h7, h8⟩ := ih (fun g' h' => hg g' (by simp [h']))
      obtain ⟨hgne, hgw⟩ := hg g (by simp)
      obtain ⟨r, _, _, _, hr, _, _⟩ := reduce_ok hgne hgw
      obtain ⟨_, hwr, hrne, hc, he, _, _⟩ := reduce_spec hgne hgw hr
      refine ⟨r :: rs, ?_, by simp [h2], ?_, ?_, ?_, ?_, ?_, ?_⟩
      · rw [List.mapM_cons, hr, h1]; rfl
      · simpa using hwr.append h3
      · simpa using hgw.append h4
      · intro _; simp [hrne]
      · intro _; simp [hgne]
      · simp [hc, h7]
      · intro b hb; simp [he b hb, h8 b hb]
  obtain ⟨rs, h1, h2, h3, h4, h5, h6, h7, h8⟩ := key gs hg
  have hrs : rs ≠ [] := by
    intro e; rw [e] at h2
    exact hne (List.length_eq_zero_iff.1 h2.symm)
  unfold reduceGroups
  rw [h1]
  exact reduce_congr (h5 hrs) (h6 hne) h3.bases h4.bases h7 h8

/-- **C03 (idempotence).** Reducing a reduced expression changes nothing. -/
theorem c03_reduce_idempotent (ts r : List Term) (hw : WF ts) (h : reduce ts = .ok r) : reduce r = .ok r := by
  have hne : ts ≠ [] := by rintro rfl; simp [reduce] at h
  exact (reduce_spec hne hw h).2.2.2.2.2.2

/-- **C03 (equality).** For reduced expressions whose numbers are exact in double precision, `==` holds exactly
when the two expressions have the same value under every positive assignment of the symbols. -/
theorem c03_eq_iff (a b : List Term) (ha : Canonical a) (hb : Canonical b) (wa : WF a) (wb : WF b)
    (fa : ∀ t ∈ a, fl t.exp = t.exp ∧ fl t.coeff = t.coeff) (fb : ∀ t ∈ b, fl t.exp = t.exp ∧ fl t.coeff = t.coeff) :
    exprEq a b = true ↔ ∀ ρ, Positive ρ → value ρ a = value ρ b := by
  constructor
  · intro h
    have hp := exprEq_perm h (by
      intro t ht u hu h
      simp only [termEq, decide_eq_true_eq, (fa t ht).1, (fa t ht).2, (fb u hu).1, (fb u hu).2] at h
      cases t; cases u; simp_all)
    have := c03_reduce_perm a b hp wa
    rw [ha.reduce_self wa.bases, hb.reduce_self wb.bases, Except.ok.injEq] at this
    intro ρ _; rw [this]
  · intro h
    rw [canonical_unique ha hb wa wb h]
    exact exprEq_refl b

/-- **C03 (what the user sees).** Expressions built from the same factors in any order compare equal. -/
theorem c03_same_factors_equal (a b : List Term) (h : a.Perm b) (hw : WF a) (hne : a ≠ []) :
    ∃ r s, reduce a = .ok r ∧ reduce b = .ok s ∧ exprEq r s = true := by
  obtain ⟨r, _, _, _, hr, _, _⟩ := reduce_ok hne hw
  exact ⟨r, r, hr, by rw [← c03_reduce_perm a b h hw, hr], exprEq_refl r⟩

example : demo.Perm demo.reverse ∧ WF demo := ⟨demo.reverse_perm.symm, demo_wf⟩
example : reduceGroups [demo, demo.take 2, demo.drop 3] =
    .ok [⟨3, one, 1⟩, ⟨1, ['a'], 6⟩, ⟨1, ['b'], -1⟩] := by decide +kernel
example : ∀ g ∈ [demo, demo], g ≠ [] ∧ WF g := by
  intro g hg
  have : g = demo := by simpa using hg
  subst this; exact ⟨by simp [demo], demo_wf⟩

/-! ## C04: algebra -/

/-- **C04 (commutativity).** `a * b` and `b * a` give the same result for all expressions, without any
restriction on their numbers. -/
theorem c04_mul_comm (a b : List Term) (ha : a ≠ []) (hb : b ≠ []) (wa : WF a) (wb : WF b) :
    exprMul a b = exprMul b a := by
  unfold exprMul
  simp only [ha, hb, if_false]
  rw [c03_reduce_perm (a ++ b) (b ++ a) List.perm_append_comm (wa.append wb)]

/-- **C04 (associativity, partial).** `(a * b) * c = a * (b * c)` when the three reduced products survive
being printed.  Missing: products whose numbers do not, for which the law fails (`c04_mul_inexact`). -/
theorem c04_mul_assoc_partial (a b c ab bc abc : List Term) (ha : a ≠ []) (hb : b ≠ []) (hc : c ≠ [])
    (wa : WF a) (wb : WF b) (wc : WF c)
    (h1 : reduce (a ++ b) = .ok ab) (h2 : reduce (b ++ c) = .ok bc) (h3 : reduce (a ++ b ++ c) = .ok abc)
    (x1 : Exact ab) (x2 : Exact bc) (x3 : Exact abc) :
    (exprMul a b >>= fun x => exprMul x c) = .ok abc ∧ (exprMul b c >>= fun x => exprMul a x) = .ok abc := by
  obtain ⟨_, w1, n1, c1, e1, _, _⟩ := reduce_spec (by simp [hb]) (wa.append wb) h1
  obtain ⟨_, w2, n2, c2, e2, _, _⟩ := reduce_spec (by simp [hb]) (wb.append wc) h2
  have wabc := (wa.append wb).append wc
  constructor
  · rw [exprMul_eq hb (wa.append wb) h1 x1]
    apply exprMul_eq hc (w1.append wc) _ x3
    rw [← h3]
    exact reduce_congr (by simp [hc]) (by simp [hc]) (w1.append wc).bases wabc.bases
      (by simp only [coefOf_append, c1]) (fun x hx => by simp only [expOf_append, e1 x hx])
  · rw [exprMul_eq hc (wb.append wc) h2 x2]
    apply exprMul_eq n2 (wa.append w2) _ x3
    rw [← h3]
    exact reduce_congr (by simp [ha]) (by simp [hc]) (wa.append w2).bases wabc.bases
      (by simp only [coefOf_append, c2, mul_assoc]) (fun x hx => by simp only [expOf_append, e2 x hx, add_assoc])

/-- **C04 (self-division).** Dividing any expression by itself gives the number 1. -/
theorem c04_div_self (a : List Term) (ha : a ≠ []) (wa : WF a) : exprDiv a a = .ok [⟨1, one, 1⟩] := by
  have hone : Canonical [⟨1, one, 1⟩] := by
    refine ⟨by simp, by simp, ?_, ?_, ?_, ?_, ?_⟩
    · intro t ht hb; simp at ht; subst ht; exact absurd rfl hb
    · intro t ht hb; simp at ht; subst ht; exact ⟨rfl, one_ne_zero⟩
    · intro i hi _; simp at hi; omega
    · intro t ht _ h; simp at h
    · intro i j hi hj hij; simp at hi hj; omega
  have hr : reduce (a ++ a.map Term.inv) = .ok [⟨1, one, 1⟩] := by
    rw [← hone.reduce_self (by simp [one])]
    apply reduce_congr (by simp [ha]) (by simp) (wa.append wa.inv).bases (by simp [one])
    · rw [coefOf_append, coefOf_inv, mul_inv_cancel₀ (coefOf_ne_zero wa)]; simp
    · intro x hx
      have : ¬ one = x := fun e => hx e.symm
      rw [expOf_append, expOf_inv]; simp [expOf_cons, this]
  refine exprDiv_eq ha wa wa hr ?_
  intro t ht
  simp at ht; subst ht
  exact ⟨one_ne_zero, one_ne_zero, Or.inl ⟨rfl, rfl⟩, by decide, fl_one, by decide, fun _ => Or.inl rfl⟩

/-- **C04 (cancellation, partial).** `(a * b) / b = a` for a reduced printable `a` and a printable product. -/
theorem c04_mul_div_cancel_partial (a b ab : List Term) (ca : Canonical a) (wa : WF a) (xa : Exact a)
    (hb : b ≠ []) (wb : WF b) (h : reduce (a ++ b) = .ok ab) (x : Exact ab) :
    (exprMul a b >>= fun p => exprDiv p b) = .ok a := by
  obtain ⟨_, w1, n1, c1, e1, _, _⟩ := reduce_spec (by simp [hb]) (wa.append wb) h
  rw [exprMul_eq hb (wa.append wb) h x]
  apply exprDiv_eq hb w1 wb _ xa
  rw [← ca.reduce_self wa.bases]
  apply reduce_congr (by simp [n1]) ca.nonempty (w1.append wb.inv).bases wa.bases
  · rw [coefOf_append, coefOf_inv, c1, coefOf_append, mul_assoc, mul_inv_cancel₀ (coefOf_ne_zero wb), mul_one]
  · intro y hy
    rw [expOf_append, expOf_inv, e1 y hy, expOf_append]; ring

/-- **C04 (powers, partial).** `(a * b)**n = a**n * b**n` for every non-zero integer `n` for which all the
powers are exact in double precision and printable. -/
theorem c04_pow_mul_partial (a b ab an bn abn : List Term) (n : Int) (hn : n ≠ 0) (ha : a ≠ []) (hb : b ≠ [])
    (wa : WF a) (wb : WF b)
    (h1 : reduce (a ++ b) = .ok ab) (h2 : reduce (a.map (Term.ipow n)) = .ok an)
    (h3 : reduce (b.map (Term.ipow n)) = .ok bn) (h4 : reduce (an ++ bn) = .ok abn)
    (x1 : Exact ab) (x2 : Exact an) (x3 : Exact bn) (x4 : Exact abn)
    (pa : ∀ t ∈ a, PowExact n t) (pb : ∀ t ∈ b, PowExact n t) (pab : ∀ t ∈ ab, PowExact n t) :
    (exprMul a b >>= fun p => exprPow p n) = .ok abn ∧
    (exprPow a n >>= fun x => exprPow b n >>= fun y => exprMul x y) = .ok abn := by
  obtain ⟨_, w1, n1, c1, e1, _, _⟩ := reduce_spec (by simp [hb]) (wa.append wb) h1
  obtain ⟨_, w2, n2, c2, e2, _, _⟩ := reduce_spec (by simpa using ha) (wa.ipow hn) h2
  obtain ⟨_, w3, n3, c3, e3, _, _⟩ := reduce_spec (by simpa using hb) (wb.ipow hn) h3
  constructor
  · rw [exprMul_eq hb (wa.append wb) h1 x1]
    apply exprPow_eq hn n1 w1 pab _ x4
    rw [← h4]
    apply reduce_congr (by simpa using n1) (by simp [n2]) (w1.ipow hn).bases (w2.append w3).bases
    · rw [coefOf_ipow, c1, coefOf_append, coefOf_append, c2, c3, coefOf_ipow, coefOf_ipow, mul_zpow]
    · intro x hx
      rw [expOf_ipow, e1 x hx, expOf_append, expOf_append, e2 x hx, e3 x hx, expOf_ipow, expOf_ipow]; ring
  · rw [exprPow_eq hn ha wa pa h2 x2]
    show (exprPow b n >>= fun y => exprMul an y) = .ok abn
    rw [exprPow_eq hn hb wb pb h3 x3]
    exact exprMul_eq n3 (w2.append w3) h4 x4

/-- **C04 (units: product).** For products of integer powers of names, as in unit strings, `*` is exact,
without any further condition. -/
theorem c04_names_mul (a b : List Term) (ha : NamesOnly a) (hb : NamesOnly b) :
    ∃ r, exprMul a b = .ok r ∧ NamesOnly r ∧ Canonical r ∧
      ∀ ρ, Positive ρ → value ρ r = value ρ a * value ρ b := by
  have hw := ha.wf.append hb.wf
  have hne : a ++ b ≠ [] := by simp [hb.nonempty]
  obtain ⟨r, _, _, _, hr, hc, he⟩ := reduce_ok hne hw
  have hN : NamesOnly r := reduce_names hne
    (by intro t ht; rcases List.mem_append.1 ht with h | h; exacts [ha.coeff t h, hb.coeff t h])
    (by intro t ht; rcases List.mem_append.1 ht with h | h; exacts [ha.exp t h, hb.exp t h])
    (by intro t ht; rcases List.mem_append.1 ht with h | h
        exacts [(ha.base t h).imp id And.left, (hb.base t h).imp id And.left]) hr
  refine ⟨r, exprMul_eq hb.nonempty hw hr hN.exact, hN, (reduce_spec hne hw hr).1, ?_⟩
  intro ρ hρ
  rw [← value_append]; exact value_congr ρ hρ _ _ hc he

/-- **C04 (units: quotient).** -/
theorem c04_names_div (a b : List Term) (ha : NamesOnly a) (hb : NamesOnly b) :
    ∃ r, exprDiv a b = .ok r ∧ NamesOnly r ∧ Canonical r ∧
      ∀ ρ, Positive ρ → value ρ r = value ρ a / value ρ b := by
  have hw := ha.wf.append hb.wf.inv
  have hne : a ++ b.map Term.inv ≠ [] := by simp [hb.nonempty]
  obtain ⟨r, _, _, _, hr, hc, he⟩ := reduce_ok hne hw
  have hN : NamesOnly r := reduce_names hne
    (by intro t ht
        rcases List.mem_append.1 ht with h | h
        · exact ha.coeff t h
        · obtain ⟨u, hu, rfl⟩ := List.mem_map.1 h
          simp [Term.inv, hb.coeff u hu])
    (by intro t ht
        rcases List.mem_append.1 ht with h | h
        · exact ha.exp t h
        · obtain ⟨u, hu, rfl⟩ := List.mem_map.1 h
          simpa [Term.inv] using hb.exp u hu)
    (by intro t ht
        rcases List.mem_append.1 ht with h | h
        · exact (ha.base t h).imp id And.left
        · obtain ⟨u, hu, rfl⟩ := List.mem_map.1 h
          exact (hb.base u hu).imp id And.left) hr
  refine ⟨r, exprDiv_eq hb.nonempty ha.wf hb.wf hr hN.exact, hN, (reduce_spec hne hw hr).1, ?_⟩
  intro ρ hρ
  rw [div_eq_mul_inv, ← value_inv ρ hρ, ← value_append]; exact value_congr ρ hρ _ _ hc he

/-- **C04 (units: power).** Powers are exact as long as the exponents are below 2^53. -/
theorem c04_names_pow (a : List Term) (ha : NamesOnly a) (n : Int) (hn : n ≠ 0)
    (hb : ∀ t ∈ a, |t.exp.num * n| < 2 ^ 53) :
    ∃ r, exprPow a n = .ok r ∧ NamesOnly r ∧ Canonical r ∧
      ∀ ρ, Positive ρ → value ρ r = value ρ a ^ n := by
  have hw := ha.wf.ipow hn
  have hne : a.map (Term.ipow n) ≠ [] := by simpa using ha.nonempty
  have hint : ∀ t ∈ a, t.exp = (t.exp.num : Rat) := by
    intro t ht
    have := Rat.num_div_den t.exp
    rw [(ha.exp t ht).1] at this
    rw [← this]; simp
  obtain ⟨r, _, _, _, hr, hc, he⟩ := reduce_ok hne hw
  have hpe : ∀ t ∈ a, PowExact n t := by
    intro t ht
    have hb' := hb t ht
    refine ⟨?_, by rw [ha.coeff t ht]; exact fl_one, ?_, by rw [ha.coeff t ht, one_zpow]; exact fl_one⟩
    · rw [hint t ht]
      apply fl_int
      rw [abs_mul] at hb'
      have : 1 ≤ |n| := Int.one_le_abs hn
      have h0 := abs_nonneg t.exp.num
      nlinarith
    · rw [hint t ht]
      have := fl_int (t.exp.num * n) hb'
      push_cast at this; exact this
  have hN : NamesOnly r := reduce_names hne
    (by intro t ht
        obtain ⟨u, hu, rfl⟩ := List.mem_map.1 ht
        simp [Term.ipow, ha.coeff u hu])
    (by intro t ht
        obtain ⟨u, hu, rfl⟩ := List.mem_map.1 ht
        have hn' : (n : Rat) ≠ 0 := by exact_mod_cast hn
        refine ⟨?_, mul_ne_zero (ha.exp u hu).2 hn'⟩
        simp only [Term.ipow]
        rw [hint u hu, ← Int.cast_mul]; rfl)
    (by intro t ht
        obtain ⟨u, hu, rfl⟩ := List.mem_map.1 ht
        exact (ha.base u hu).imp id And.left) hr
  refine ⟨r, exprPow_eq hn ha.nonempty ha.wf hpe hr hN.exact, hN, (reduce_spec hne hw hr).1, ?_⟩
  intro ρ hρ
  rw [← value_ipow ρ hρ]; exact value_congr ρ hρ _ _ hc he

/-- **C04 (units: laws).** The laws of algebra hold without condition on products of integer powers of names. -/
theorem c04_names_laws (a b c : List Term) (ha : NamesOnly a) (hb : NamesOnly b) (hc : NamesOnly c) (ca : Canonical a) :
    (exprMul a b >>= fun x => exprMul x c) = (exprMul b c >>= fun x => exprMul a x) ∧
    (exprMul a b >>= fun x => exprDiv x b) = .ok a ∧
    (exprDiv a b >>= fun x => exprMul x b) = .ok a := by
  obtain ⟨ab, h1, n1, k1, v1⟩ := c04_names_mul a b ha hb
  obtain ⟨bc, h2, n2, k2, v2⟩ := c04_names_mul b c hb hc
  obtain ⟨x, h3, n3, k3, v3⟩ := c04_names_mul ab c n1 hc
  obtain ⟨y, h4, n4, k4, v4⟩ := c04_names_mul a bc ha n2
  obtain ⟨z, h5, n5, k5, v5⟩ := c04_names_div ab b n1 hb
  obtain ⟨d, h6, n6, k6, v6⟩ := c04_names_div a b ha hb
  obtain ⟨w, h7, n7, k7, v7⟩ := c04_names_mul d b n6 hb
  have hbv : ∀ ρ, Positive ρ → value ρ b ≠ 0 := by
    intro ρ hρ
    rw [value_eq ρ hρ]
    have : (coefOf b : ℝ) ≠ 0 := by exact_mod_cast coefOf_ne_zero hb.wf
    exact mul_ne_zero this (Real.exp_pos _).ne'
  rw [h1, h2, h6]
  refine ⟨?_, ?_, ?_⟩
  · show exprMul ab c = exprMul a bc
    rw [h3, h4, canonical_unique k3 k4 n3.wf n4.wf (fun ρ hρ => by rw [v3 ρ hρ, v4 ρ hρ, v1 ρ hρ, v2 ρ hρ, mul_assoc])]
  · show exprDiv ab b = .ok a
    rw [h5, canonical_unique k5 ca n5.wf ha.wf (fun ρ hρ => by
      rw [v5 ρ hρ, v1 ρ hρ, mul_div_assoc, div_self (hbv ρ hρ), mul_one])]
  · show exprMul d b = .ok a
    rw [h7, canonical_unique k7 ca n7.wf ha.wf (fun ρ hρ => by
      rw [v7 ρ hρ, v6 ρ hρ, div_mul_cancel₀ _ (hbv ρ hρ)])]

example : NamesOnly unitA ∧ NamesOnly unitB ∧ (∀ t ∈ unitA, |t.exp.num * 3| < 2 ^ 53) :=
  ⟨unitA_names, unitB_names, by decide +kernel⟩
example : exprMul unitA unitB = .ok [⟨1, ['k', 'g'], 1⟩, ⟨1, ['s'], -1⟩] := by decide +kernel
example : exprPow unitA 3 = .ok [⟨1, ['m'], 6⟩, ⟨1, ['s'], -3⟩] := by decide +kernel

/-- **C04 (the code violates it).** `(a/12) * a` is computed as `2 a^2`: the intermediate result is printed as
`(1/12)*(a^2)` and read back with a one-digit denominator.  So multiplication does not in general multiply. -/
theorem c04_mul_inexact :
    exprMul [⟨1/12, one, 1⟩, ⟨1, ['a'], 1⟩] [⟨1, ['a'], 1⟩] = .ok [⟨2, one, 1⟩, ⟨1, ['a'], 2⟩] := by
  decide +kernel

/-- **C04 (the code violates it).** `((3 a) ** -1) ** -1 ≠ 3 a`: the reciprocal `1/3` is rounded to a float whose
exact fraction is then printed and read back with a one-digit denominator. -/
theorem c04_pow_inexact :
    exprPow [⟨3, one, 1⟩, ⟨1, ['a'], 1⟩] (-1) ≠ .ok [⟨1/3, one, 1⟩, ⟨1, ['a'], -1⟩] := by
  decide +kernel

/-! ## C05: the parser -/

/-- **C05.** For every well-written syntax tree with positive coefficients, parsing its text succeeds and the terms
multiply out to the number the tree denotes. -/
theorem c05_parse_denotes (x : Expr) (hx : x.Ok 1) (hp : x.Pos) :
    ∃ ts, parse false x.text = .ok ts ∧ ∀ ρ, Positive ρ → value ρ ts = x.denote ρ id := by
  refine ⟨_, parse_text x hx, fun ρ hρ => ?_⟩
  rw [value_append, value_unit, mul_one, Expr.value_flat ρ hρ 1 x hx hp none, actOp_none]
  simp

/-- **C05 (expressions).** Building an expression from the text gives a canonical list of terms with that value. -/
theorem c05_expression_denotes (x : Expr) (hx : x.Ok 1) (hp : x.Pos) :
    ∃ r, exprOfString false x.text = .ok r ∧ Canonical r ∧ ∀ ρ, Positive ρ → value ρ r = x.denote ρ id := by
  have hw : WF (x.flat 1 none ++ [⟨1, one, 1⟩]) :=
    (Expr.flat_wf 1 one_ne_zero x hx none).append (by
      intro t ht; simp at ht; subst ht; exact ⟨one_ne_zero, by simp [one], one_ne_zero⟩)
  obtain ⟨r, hr, hv⟩ := c01_reduce_value _ (by simp) hw
  refine ⟨r, ?_, (reduce_spec (by simp) hw hr).1, ?_⟩
  · rw [exprOfString, if_neg (Expr.text_ne_nil 1 x hx), parse_text x hx]; exact hr
  · intro ρ hρ
    rw [hv ρ hρ, value_append, value_unit, mul_one, Expr.value_flat ρ hρ 1 x hx hp none, actOp_none]
    simp

/-- **C05 (totality).** On every string whatsoever the parser terminates: the model's recursion bound is never
what stops it. -/
theorem c05_parse_total (strict : Bool) (s : Str) : parse strict s ≠ .error .fuel := parse_noFuel strict s

/-- **C05 (strict mode).** Strict (NIST) mode only rejects strings: when it accepts, the result is the same. -/
theorem c05_strict_agrees (s : Str) (ts : List Term) (h : parse true s = .ok ts) : parse false s = .ok ts :=
  parse_strict h

/-- `2 a^3 / (b 4c^-1)^2 * d1` as a syntax tree -/
def demoExpr : Expr :=
  .cons (.const (.int false ['2']) none) (.juxt 0)
  (.cons (.var none ['a'] [] (some (.int false ['3']))) (.div 1 1)
  (.cons (.group (.cons (.var none ['b'] [] none) (.juxt 0)
      (.one (.var (some (.int false ['4'])) ['c'] [] (some (.int true ['1']))))) (some (.int false ['2']))) (.mul 1 1)
  (.one (.var none ['d'] ['1'] none))))

example : demoExpr.Ok 1 ∧ demoExpr.Pos := by
  have f2 : fl 2 = 2 := by decide +kernel
  have d2 : ((2 : Rat)).den = 1 := rfl
  constructor
  · simp [demoExpr, Expr.Ok, Atom.Ok, OptOk, Lit.Ok, Digits, isDigit, isLetter, Lit.value, litOr1, natVal, digitVal,
      signed, PowOk, powVal, Lit.signedExp, LooksLikeExp, f2, d2]
  · simp [demoExpr, Expr.Pos, Atom.Pos, Lit.value, litOr1, natVal, digitVal, signed]

example : demoExpr.text = ['2', ' ', 'a', '^', '3', ' ', '/', ' ', '(', 'b', ' ', '4', 'c', '^', '-', '1', ')', '^', '2',
    ' ', '*', ' ', 'd', '1'] := by decide

example : exprOfString false demoExpr.text =
    .ok [⟨1/8, one, 1⟩, ⟨1, ['a'], 3⟩, ⟨1, ['c'], 2⟩, ⟨1, ['d', '1'], 1⟩, ⟨1, ['b'], -2⟩] := by decide +kernel

/-- `km^2/s/2 m` as a syntax tree: without blanks around the slashes -/
def slashExpr : Expr :=
  .cons (.var none ['k', 'm'] [] (some (.int false ['2']))) (.div 0 0) (.cons (.var none ['s'] [] none) (.div 0 0)
  (.cons (.const (.int false ['2']) none) (.juxt 0) (.one (.var none ['m'] [] none))))

example : slashExpr.Ok 1 ∧ slashExpr.Pos := by
  have f2 : fl 2 = 2 := by decide +kernel
  have d2 : ((2 : Rat)).den = 1 := rfl
  constructor
  · simp [slashExpr, Expr.Ok, Atom.Ok, OptOk, Lit.Ok, Digits, isDigit, isLetter, Lit.value, litOr1, natVal, digitVal,
      signed, PowOk, powVal, Lit.signedExp, LooksLikeExp, f2, d2, Atom.isBareName, Atom.isBareGroup, Expr.text, Atom.text]
  · simp [slashExpr, Expr.Pos, Atom.Pos, Lit.value, litOr1, natVal, digitVal, signed]

example : slashExpr.text = "km^2/s/2 m".toList ∧ exprOfString false slashExpr.text =
    .ok [⟨1/2, one, 1⟩, ⟨1, ['k', 'm'], 2⟩, ⟨1, ['m'], 1⟩, ⟨1, ['s'], -1⟩] := by decide +kernel

example : parse true ['a', ' ', '/', ' ', 'b', ' ', '*', ' ', 'c'] = .error .productError := by decide +kernel
example : parse true ['a', ' ', '/', ' ', 'b'] ≠ .error .productError := by decide +kernel

/-- **C05 (the empty text).** The empty text gives an expression without terms. -/
theorem c05_empty (strict : Bool) : exprOfString strict [] = .ok [] := rfl

/-- **C05 (the code violates it outside the grammar).** A multi-digit denominator is split: `1/12` is read as
the product of `1/1` and `2`. -/
theorem c05_multidigit_denominator : exprOfString false ['1', '/', '1', '2'] = .ok [⟨2, one, 1⟩] := by decide +kernel

/-- **C05 (the code violates it outside the grammar).** `a^1/12` is read as `2 a`. -/
theorem c05_multidigit_exponent :
    exprOfString false ['a', '^', '1', '/', '1', '2'] = .ok [⟨2, one, 1⟩, ⟨1, ['a'], 1⟩] := by decide +kernel

/-- **C05 (the code violates it outside the grammar).** The number `1e-3` is read as `-3` times a symbol `e`. -/
theorem c05_signed_exponent :
    exprOfString false ['1', 'e', '-', '3'] = .ok [⟨-3, one, 1⟩, ⟨1, ['e'], 1⟩] := by decide +kernel

/-- **C05 (the code violates it outside the grammar).** Zero is read as one. -/
theorem c05_zero : exprOfString false ['0'] = .ok [⟨1, one, 1⟩] := by decide +kernel

/-- **C05 (the code violates it outside the grammar).** `a^0` is read as `a`. -/
theorem c05_zero_exponent : exprOfString false ['a', '^', '0'] = .ok [⟨1, ['a'], 1⟩] := by decide +kernel

/-! ## C06: printing and reading back -/

/-- **C06 (partial).** Reading back a printed term gives the reduced form of that term, for the terms described by
`Printable`.  Missing: denominators of two or more digits and coefficients that are not doubles, for which the code
fails (`c06_print_bad_denominator`, `c06_print_inexact`). -/
theorem c06_print_parse_partial (t : Term) (h : Printable t) :
    exprOfString false (formatTerm t) = reduce [t] := by
  rw [← termExpr_text h]
  obtain ⟨h1, h2⟩ := termExpr_flat h
  exact exprOfString_text (termExpr_ok h) [t] (by simp) (by simpa using h.base_ne) (by simpa using h1) h2

/-- **C06 (partial).** In particular a printed symbol reads back as exactly the same coefficient, base and exponent. -/
theorem c06_print_parse_symbol_partial (t : Term) (h : Printable t) (hb : t.base ≠ one) (hc : t.coeff = 1) :
    exprOfString false (formatTerm t) = .ok [t] := by
  rw [c06_print_parse_partial t h]
  have : Canonical [t] := by
    refine ⟨by simp, by simp, ?_, ?_, ?_, ?_, ?_⟩
    · intro u hu _; simp at hu; subst hu; exact ⟨hc, h.exp⟩
    · intro u hu h1; simp at hu; subst hu; exact absurd h1 hb
    · intro i hi _; simp at hi; omega
    · intro u hu _ h; simp at h
    · intro i j hi hj hij; simp at hi hj; omega
  exact this.reduce_self (by simpa using h.base_ne)

/-- **C06 (partial).** A printed number reads back as that number. -/
theorem c06_print_parse_number_partial (c : Rat) (h0 : c ≠ 0) (hd : c.den ≤ 9) (hf : fl c = c) :
    exprOfString false (formatTerm ⟨c, one, 1⟩) = .ok [⟨c, one, 1⟩] := by
  have h : Printable ⟨c, one, 1⟩ := ⟨h0, one_ne_zero, Or.inl ⟨rfl, rfl⟩, hd, hf, (by decide : (1 : Rat).den ≤ 9), fun hE => by
    obtain ⟨x, ds, h1, h2, _⟩ := hE
    simp [one] at h1; rw [← h1.1] at h2; simp at h2⟩
  rw [c06_print_parse_partial _ h]
  have : Canonical [⟨c, one, 1⟩] := by
    refine ⟨by simp, by simp, ?_, ?_, ?_, ?_, ?_⟩
    · intro u hu h1; simp at hu; subst hu; exact absurd rfl h1
    · intro u hu h1; simp at hu; subst hu; exact ⟨rfl, h0⟩
    · intro i hi _; simp at hi; omega
    · intro u hu _ h; simp at h
    · intro i j hi hj hij; simp at hi hj; omega
  exact this.reduce_self (by simp [one])

/-- **C06 (lists, partial).** The form in which `Expression` arithmetic re-reads its own result. -/
theorem c06_terms_round_trip_partial (ts : List Term) (hne : ts ≠ []) (h : Exact ts) : exprOfTerms ts = reduce ts :=
  exprOfTerms_printable ts hne h

example : Printable ⟨-3/4, ['k', 'm'], 5/2⟩ := by
  refine ⟨by decide +kernel, by decide +kernel, Or.inr (validName_of ['k', 'm'] [] (by decide)), by decide +kernel,
    by decide +kernel, by decide +kernel, ?_⟩
  intro _; right; decide +kernel

example : formatTerm ⟨-3/4, ['k', 'm'], 5/2⟩ = ['(', '-', '3', '/', '4', ')', 'k', 'm', '^', '5', '/', '2'] := by
  decide +kernel

/-- **C06 (the code violates it).** `a^(1/12)` prints as `a^1/12` and reads back as `2 a`. -/
theorem c06_print_bad_denominator :
    exprOfString false (formatTerm ⟨1, ['a'], 1/12⟩) = .ok [⟨2, one, 1⟩, ⟨1, ['a'], 1⟩] := by decide +kernel

/-- **C06 (the code violates it).** The number `1/3` prints as `1/3` and reads back as a different number. -/
theorem c06_print_inexact :
    exprOfString false (formatTerm ⟨1/3, one, 1⟩) = .ok [⟨6004799503160661/18014398509481984, one, 1⟩] := by
  decide +kernel

/-! ## C07: parenthesised groups -/

/-- **C07 (partial).** For strings with no `)` before the first `(`: the reported bounds are exactly those of the first
group, and nothing is reported exactly when that group is never closed.  Missing: a `)` before the first `(`
(`c07_early_close`). -/
theorem c07_find_bounds_partial (s : Str) (h : NoEarlyClose s) :
    (∀ i e, findBounds s = some (i, e) ↔ IsFirstGroup s i e) ∧
    (findBounds s = none ↔ ¬ ∃ i e, IsFirstGroup s i e) := by
  have key : ∀ i e, findBounds s = some (i, e) ↔ IsFirstGroup s i e := by
    intro i e
    have := findBoundsAux_outside s 0 0 h i e
    simpa [findBounds] using this
  refine ⟨key, ?_⟩
  constructor
  · rintro hn ⟨i, e, hg⟩
    rw [(key i e).2 hg] at hn; simp at hn
  · intro hn
    cases hf : findBounds s with
    | none => rfl
    | some x => exact absurd ⟨x.1, x.2, (key x.1 x.2).1 hf⟩ hn

/-- **C07.** A string that starts with `(`, the only case in which the parser uses the result, is always handled
exactly. -/
theorem c07_find_bounds_leading (s : Str) :
    (∀ e, findBounds ('(' :: s) = some (0, e) ↔ IsFirstGroup ('(' :: s) 0 e) ∧
    (findBounds ('(' :: s) = none ↔ ¬ ∃ i e, IsFirstGroup ('(' :: s) i e) := by
  have h : NoEarlyClose ('(' :: s) := by simp [NoEarlyClose]
  exact ⟨(c07_find_bounds_partial _ h).1 0, (c07_find_bounds_partial _ h).2⟩

example : NoEarlyClose ['a', '(', 'b', '(', 'c', ')', ')', ')'] := by simp [NoEarlyClose]
example : findBounds ['a', '(', 'b', '(', 'c', ')', ')', ')'] = some (1, 7) := by decide

/-- **C07 (the code violates it).** In `")("` the only `(` is never closed, yet bounds are reported. -/
theorem c07_early_close : findBounds [')', '('] = some (1, 2) ∧ ¬ ∃ i e, IsFirstGroup [')', '('] i e := by
  refine ⟨by decide, ?_⟩
  rintro ⟨i, e, h1, h2, h3, h4, h5, _⟩
  simp at h4
  have : (i = 0 ∧ (e = 1 ∨ e = 2)) ∨ (i = 1 ∧ e = 2) := by omega
  rcases this with ⟨rfl, rfl | rfl⟩ | ⟨rfl, rfl⟩
  · simp at h1
  · simp at h1
  · revert h5; decide

end Eprem.Symbolic
