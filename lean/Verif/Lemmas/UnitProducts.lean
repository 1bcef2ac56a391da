import Verif.Model.MetricUnit
import Verif.Spec.Units
import Verif.Lemmas.Halves
import Verif.Lemmas.MetricUnits

/-! # Lemmas for products of units -/

namespace Eprem.Symbolic

open Eprem

/-- products of powers of valid names whose exponents are multiples of `1/d`, or the number one -/
structure Frac (d : ℕ) (ts : List Term) : Prop where
  nonempty : ts ≠ []
  coeff : ∀ t ∈ ts, t.coeff = 1
  exp : ∀ t ∈ ts, (∃ z : ℤ, t.exp = z / d) ∧ t.exp ≠ 0
  base : ∀ t ∈ ts, ValidName t.base ∨ (t.base = one ∧ t.exp = 1)

theorem frac_den {d : ℕ} (hd : 0 < d) {q : ℚ} (h : ∃ z : ℤ, q = z / d) : q.den ≤ d := by
  obtain ⟨z, rfl⟩ := h
  have := Rat.den_dvd z d
  have h2 : (((z : ℚ) / d).den : ℤ) ∣ d := by exact_mod_cast this
  have := Int.le_of_dvd (by exact_mod_cast hd) h2
  exact_mod_cast this

theorem Frac.wf {d : ℕ} {ts : List Term} (h : Frac d ts) : WF ts := by
  intro t ht
  refine ⟨by rw [h.coeff t ht]; exact one_ne_zero, ?_, (h.exp t ht).2⟩
  rcases h.base t ht with hb | hb
  · exact hb.ne_nil
  · rw [hb.1]; simp [one]

theorem Frac.exact {d : ℕ} (hd : 0 < d) (hd9 : d ≤ 9) {ts : List Term} (h : Frac d ts) : Exact ts := by
  intro t ht
  have hc := h.coeff t ht
  have he := h.exp t ht
  exact {
    coeff := by rw [hc]; exact one_ne_zero
    exp := he.2
    base := (h.base t ht).symm
    coeffDen := by rw [hc]; decide
    coeffFloat := by rw [hc]; exact fl_one
    expDen := le_trans (frac_den hd he.1) hd9
    notExpLike := fun _ => Or.inl hc }

theorem expOf_frac {d : ℕ} {ts : List Term} (b : Str) (h : ∀ t ∈ ts, ∃ z : ℤ, t.exp = z / d) :
    ∃ z : ℤ, expOf b ts = z / d := by
  induction ts with
  | nil => exact ⟨0, by simp⟩
  | cons t ts ih =>
    obtain ⟨z, hz⟩ := ih (fun u hu => h u (by simp [hu]))
    obtain ⟨w, hw⟩ := h t (by simp)
    rw [expOf_cons, hz]
    split
    · exact ⟨w + z, by rw [hw]; push_cast; ring⟩
    · exact ⟨z, by simp⟩

theorem reduce_frac {d : ℕ} (hd : 0 < d) {ts r : List Term} (hne : ts ≠ []) (hc : ∀ t ∈ ts, t.coeff = 1)
    (he : ∀ t ∈ ts, (∃ z : ℤ, t.exp = z / d) ∧ t.exp ≠ 0) (hb : ∀ t ∈ ts, ValidName t.base ∨ t.base = one)
    (h : reduce ts = .ok r) : Frac d r := by
  have hw : WF ts := by
    intro t ht
    refine ⟨by rw [hc t ht]; exact one_ne_zero, ?_, (he t ht).2⟩
    rcases hb t ht with hb | hb
    · exact hb.ne_nil
    · rw [hb]; simp [one]
  obtain ⟨h1, h2, h3, h4, h5, h6, h7⟩ := reduce_spec hne hw h
  have hco := coefOf_one hc
  rw [hco] at h4
  have hcr : ∀ t ∈ r, t.coeff = 1 := by
    intro t ht
    by_cases hbo : t.base = one
    · have hall : ∀ u ∈ r.erase t, u.coeff = 1 := by
        intro u hu
        have hur := List.mem_of_mem_erase hu
        by_cases hu1 : u.base = one
        · exfalso
          have hnd : r.Nodup := List.Nodup.of_map _ h1.nodup
          have hne : u ≠ t := fun e => (List.Nodup.not_mem_erase hnd) (e ▸ hu)
          exact hne (List.inj_on_of_nodup_map h1.nodup hur ht (hu1.trans hbo.symm))
        · exact (h1.symbol u hur hu1).1
      have hp := coefOf_perm (List.perm_cons_erase ht)
      rw [coefOf_cons, coefOf_one hall, mul_one, h4] at hp
      exact hp.symm
    · exact (h1.symbol t ht hbo).1
  refine ⟨h3, hcr, ?_, ?_⟩
  · intro t ht
    by_cases hbo : t.base = one
    · rw [(h1.number t ht hbo).1]
      exact ⟨⟨d, by have : (d : ℚ) ≠ 0 := by exact_mod_cast hd.ne'
                    push_cast; rw [div_self this]⟩, one_ne_zero⟩
    · refine ⟨?_, (h1.symbol t ht hbo).2⟩
      have := h5 t.base hbo
      rw [expOf_of_nodup r h1.nodup t ht] at this
      rw [this]
      exact expOf_frac _ (fun u hu => (he u hu).1)
  · intro t ht
    by_cases hbo : t.base = one
    · exact Or.inr ⟨hbo, (h1.number t ht hbo).1⟩
    · left
      obtain ⟨u, hu, hub⟩ := List.mem_map.1 (h6 t ht hbo)
      rcases hb u hu with h' | h'
      · rw [← hub]; exact h'
      · exact absurd (hub ▸ h') hbo

/-- every base of a product occurs in one of the factors, or is the number one -/
theorem frac_mul {d : ℕ} (hd : 0 < d) (hd9 : d ≤ 9) {a b : List Term} (ha : Frac d a) (hb : Frac d b) :
    ∃ r, exprMul a b = .ok r ∧ Frac d r ∧ (∀ t ∈ r, t.base = one ∨ t.base ∈ (a ++ b).map Term.base) ∧
      ∀ ρ, Positive ρ → value ρ r = value ρ a * value ρ b := by
  have hw := ha.wf.append hb.wf
  have hne : a ++ b ≠ [] := by simp [hb.nonempty]
  obtain ⟨r, _, _, _, hr, hc, he⟩ := reduce_ok hne hw
  have hN : Frac d r := reduce_frac hd hne
    (by intro t ht; rcases List.mem_append.1 ht with h | h; exacts [ha.coeff t h, hb.coeff t h])
    (by intro t ht; rcases List.mem_append.1 ht with h | h; exacts [ha.exp t h, hb.exp t h])
    (by intro t ht; rcases List.mem_append.1 ht with h | h
        exacts [(ha.base t h).imp id And.left, (hb.base t h).imp id And.left]) hr
  refine ⟨r, exprMul_eq hb.nonempty hw hr (hN.exact hd hd9), hN, ?_, ?_⟩
  · intro t ht
    by_cases h1 : t.base = one
    · exact Or.inl h1
    · exact Or.inr ((reduce_spec hne hw hr).2.2.2.2.2.1 t ht h1)
  · intro ρ hρ
    rw [← value_append]; exact value_congr ρ hρ _ _ hc he

theorem frac_div {d : ℕ} (hd : 0 < d) (hd9 : d ≤ 9) {a b : List Term} (ha : Frac d a) (hb : Frac d b) :
    ∃ r, exprDiv a b = .ok r ∧ Frac d r ∧ (∀ t ∈ r, t.base = one ∨ t.base ∈ (a ++ b).map Term.base) ∧
      ∀ ρ, Positive ρ → value ρ r = value ρ a / value ρ b := by
  have hw := ha.wf.append hb.wf.inv
  have hne : a ++ b.map Term.inv ≠ [] := by simp [hb.nonempty]
  obtain ⟨r, _, _, _, hr, hc, he⟩ := reduce_ok hne hw
  have hN : Frac d r := reduce_frac hd hne
    (by intro t ht; rcases List.mem_append.1 ht with h | h
        · exact ha.coeff t h
        · obtain ⟨u, hu, rfl⟩ := List.mem_map.1 h
          simp [Term.inv, hb.coeff u hu])
    (by intro t ht; rcases List.mem_append.1 ht with h | h
        · exact ha.exp t h
        · obtain ⟨u, hu, rfl⟩ := List.mem_map.1 h
          obtain ⟨⟨z, hz⟩, h0⟩ := hb.exp u hu
          exact ⟨⟨-z, by simp only [Term.inv]; rw [hz]; push_cast; ring⟩, neg_ne_zero.2 h0⟩)
    (by intro t ht; rcases List.mem_append.1 ht with h | h
        · exact (ha.base t h).imp id And.left
        · obtain ⟨u, hu, rfl⟩ := List.mem_map.1 h
          exact (hb.base u hu).imp id And.left) hr
  refine ⟨r, exprDiv_eq hb.nonempty ha.wf hb.wf hr (hN.exact hd hd9), hN, ?_, ?_⟩
  · intro t ht
    by_cases h1 : t.base = one
    · exact Or.inl h1
    · right
      have := (reduce_spec hne hw hr).2.2.2.2.2.1 t ht h1
      simpa [List.map_append, Term.inv, Function.comp_def] using this
  · intro ρ hρ
    rw [div_eq_mul_inv, ← value_inv ρ hρ, ← value_append]; exact value_congr ρ hρ _ _ hc he

theorem val_pos {ρ : Str → ℝ} (hρ : Positive ρ) {t : Term} (h : t.coeff = 1) : 0 < t.val ρ := by
  unfold Term.val
  rw [h]
  split
  · simp
  · have := Real.rpow_pos_of_pos (hρ t.base) (t.exp : ℝ); simpa using this

theorem value_pos {ρ : Str → ℝ} (hρ : Positive ρ) {ts : List Term} (h : ∀ t ∈ ts, t.coeff = 1) : 0 < value ρ ts := by
  unfold value
  apply List.prod_pos
  intro x hx
  obtain ⟨t, ht, rfl⟩ := List.mem_map.1 hx
  exact val_pos hρ (h t ht)

/-- the printed form of a power of one does not show the exponent -/
def normalTerm (t : Term) : Term := if t.base = one then ⟨t.coeff, one, 1⟩ else t

theorem formatTerm_norm (t : Term) : formatTerm (normalTerm t) = formatTerm t := by
  unfold normalTerm
  split
  next h => unfold formatTerm; simp [h, formatCoefficient]
  · rfl

theorem standard_norm : ∀ ts : List Term, standard (ts.map normalTerm) = standard ts
  | [] => rfl
  | [t] => by simp [standard, formatTerm_norm]
  | t :: u :: ts => by
    have := standard_norm (u :: ts)
    have e : ∀ (t u : Term) (ts : List Term),
        standard (t :: u :: ts) = '(' :: formatTerm t ++ [')', '*'] ++ standard (u :: ts) := fun _ _ _ => rfl
    simp only [List.map_cons] at this ⊢
    rw [e, e, formatTerm_norm, this]

theorem exprOfTerms_norm (ts : List Term) : exprOfTerms (ts.map normalTerm) = exprOfTerms ts := by
  unfold exprOfTerms
  rw [standard_norm]

theorem value_norm (ρ : Str → ℝ) (ts : List Term) : value ρ (ts.map normalTerm) = value ρ ts := by
  unfold value
  rw [List.map_map]
  congr 1
  refine List.map_congr_left ?_
  intro t _
  unfold normalTerm
  simp only [Function.comp]
  split
  next h => simp [Term.val, h]
  · rfl

end Eprem.Symbolic

namespace Eprem.Metric

open Eprem Eprem.Symbolic

/-! ### facts about the table of named units -/

def okTerm (t : Term) : Bool :=
  decide (t.coeff = 1 ∧ (2 * t.exp).den = 1 ∧ t.exp ≠ 0 ∧ asSymbol t = .ok t ∧ t.base ≠ one ∧
    (named t.base).map (fun e => e.base.symbol) ≠ some (c! "lx"))

/-- what `decomposed` finds for a unit: nothing, the unit itself, or its definition -/
def okDecomposed (order : List System) (e : Entry) : Bool :=
  match decomposed e order with
  | .ok none => true
  | .error .unitParsing => true
  | .error .systemAmbiguity => true
  | .error _ => false
  | .ok (some ts) => decide (ts = [⟨1, e.symbol, 1⟩]) || (decide (ts ≠ []) && ts.all okTerm &&
      derivedUnits.any (fun p => decide (p.1 = e.symbol ∧ (p.2.map (fun q => (⟨1, q.1, q.2⟩ : Term))).Perm ts)))

set_option maxHeartbeats 100000000 in
theorem okDecomposed_table : ∀ p ∈ namedTable, baseIsValid p.2.symbol = true → p.2.base.symbol ≠ c! "lx" →
    okDecomposed [.mks, .cgs] p.2 = true ∧ okDecomposed [.cgs, .mks] p.2 = true := by decide +kernel

set_option maxHeartbeats 100000000 in
theorem symbols_not_sqrt : ∀ p ∈ namedTable, ¬ ['s', 'q', 'r', 't'] <+: p.2.symbol := by decide +kernel

/-- the orders in which the two systems may be tried -/
def Orders : List (List System) := [[.mks, .cgs], [.cgs, .mks]]

/-- a unit symbol, and the unit it stands for -/
def Symbol (b : Name) (e : Entry) : Prop := named b = some e ∧ e.symbol = b ∧ baseIsValid b = true

theorem symbol_one : ∃ e, Symbol one e := ⟨_, by rfl, by decide +kernel, by decide +kernel⟩

theorem asSymbol_iff {t : Term} (hc : t.coeff = 1) (he : t.exp ≠ 0) :
    asSymbol t = .ok t ↔ ∃ e, Symbol t.base e := by
  unfold asSymbol Symbol
  cases hn : named t.base with
  | none => simp
  | some e =>
    simp only [Option.some.injEq]
    constructor
    · intro h
      split at h
      next hv =>
        have hb : e.symbol ≠ [] := by
          intro h0; rw [h0] at hv; simp [baseIsValid, one] at hv
        have : (mkTerm 1 e.symbol t.exp).base = t.base := by rw [Except.ok.injEq] at h; rw [h]
        have hes : e.symbol = t.base := by simpa [mkTerm, orOneStr, hb] using this
        exact ⟨e, rfl, hes, hes ▸ hv⟩
      · cases h
    · rintro ⟨e', rfl, h1, h2⟩
      rw [h1, if_pos h2]
      have hb : t.base ≠ [] := by
        intro h0; rw [h0] at h2; simp [baseIsValid, one] at h2
      cases t
      simp_all [mkTerm, orOne, orOneStr]

theorem Symbol.valid {b : Name} {e : Entry} (h : Symbol b e) : ValidName b ∨ b = one := by
  obtain ⟨h1, h2, h3⟩ := h
  obtain ⟨p, hp, _, rfl⟩ := named_mem h1
  have hs := symbols_not_sqrt p hp
  rw [h2] at hs
  unfold baseIsValid at h3
  by_cases ho : b = one
  · exact Or.inr ho
  · left
    simp only [ho, decide_false, Bool.false_or, Bool.and_eq_true, decide_eq_true_eq, List.all_eq_true] at h3
    exact ⟨b, [], by simp, h3.1, h3.2, by simp, hs⟩

theorem okD {b : Name} {e : Entry} (h : Symbol b e) (hl : e.base.symbol ≠ c! "lx") {o : List System} (ho : o ∈ Orders) :
    okDecomposed o e = true := by
  obtain ⟨h1, h2, h3⟩ := h
  obtain ⟨p, hp, _, rfl⟩ := named_mem h1
  obtain ⟨q1, q2⟩ := okDecomposed_table p hp (by rw [h2]; exact h3) hl
  simp only [Orders, List.mem_cons, List.not_mem_nil, or_false] at ho
  rcases ho with rfl | rfl
  · exact q1
  · exact q2

/-- the symbol of a unit, other than a lux -/
def Usable (b : Name) : Prop := ∃ e, Symbol b e ∧ e.base.symbol ≠ c! "lx"

theorem usable_one : Usable one := ⟨_, ⟨by rfl, by decide +kernel, by decide +kernel⟩, by decide +kernel⟩

theorem coherent_value {ρ : Name → ℝ} (hρ : CoherentSizes ρ) {b : Name} {ts : List Term} {p : Name × List (Name × ℚ)}
    (hp : p ∈ derivedUnits) (hb : p.1 = b) (hperm : (p.2.map (fun q => (⟨1, q.1, q.2⟩ : Term))).Perm ts)
    (h1 : ∀ t ∈ ts, t.base ≠ one) : value ρ ts = ρ b := by
  rw [← hb, hρ.derived p hp]
  have : value ρ (p.2.map (fun q => (⟨1, q.1, q.2⟩ : Term))) = value ρ ts := by
    unfold value; exact (hperm.map _).prod_eq
  rw [← this]
  unfold value
  rw [List.map_map]
  congr 1
  refine List.map_congr_left ?_
  intro q hq
  have := h1 ⟨1, q.1, q.2⟩ (hperm.mem_iff.1 (List.mem_map_of_mem hq))
  simp only at this
  simp [Term.val, this]

theorem term_pow_one {x : Term} (hc : x.coeff = 1) (hb : x.base ≠ []) (hx : x.exp ≠ 0) {p : ℚ} (hp : p ≠ 0) :
    x.pow p = .ok ⟨1, x.base, x.exp * p⟩ := by
  unfold Term.pow fracPow
  rw [hc]
  split
  · simp [bind, Except.bind, pure, Except.pure, mkTerm, orOne, orOneStr, hb, hx, hp]
  · simp [bind, Except.bind, pure, Except.pure, mkTerm, orOne, orOneStr, hb, hx, hp]

theorem value_pow {ρ : Name → ℝ} (hρ : Positive ρ) (p : ℚ) : ∀ (ts : List Term), (∀ t ∈ ts, t.coeff = 1) →
    value ρ (ts.map (fun x => ⟨1, x.base, x.exp * p⟩)) = value ρ ts ^ (p : ℝ)
  | [], _ => by simp [value]
  | t :: ts, h => by
    have ih := value_pow hρ p ts (fun u hu => h u (by simp [hu]))
    have ht := h t (by simp)
    unfold value at ih ⊢
    simp only [List.map_cons, List.prod_cons]
    rw [ih, Real.mul_rpow (val_pos hρ ht).le]
    · congr 1
      unfold Term.val
      rw [ht]
      split
      · simp
      · push_cast
        rw [one_mul, one_mul, Real.rpow_mul (hρ _).le]
    · exact (value_pos hρ (fun u hu => h u (by simp [hu]))).le

/-- a term of a unit, all of whose exponents are multiples of `1/d` -/
structure UnitTerm (d : ℕ) (t : Term) : Prop where
  coeff : t.coeff = 1
  exp : (∃ z : ℤ, t.exp = z / d) ∧ t.exp ≠ 0
  number : t.base = one → t.exp = 1
  symbol : Usable t.base

theorem decomposeTerm_ok {o : List System} (ho : o ∈ Orders) {d : ℕ} (hd : 0 < d) {t : Term} (ht : UnitTerm d t) :
    ∃ ts, decomposeTerm o t = .ok ts ∧ ts ≠ [] ∧
      (∀ x ∈ ts, x.coeff = 1 ∧ ((∃ z : ℤ, x.exp = z / (2 * d : ℕ)) ∧ x.exp ≠ 0) ∧ Usable x.base) ∧
      ∀ ρ, CoherentSizes ρ → value ρ ts = t.val ρ := by
  obtain ⟨e, hs, hl⟩ := ht.symbol
  have hd0 : (d : ℚ) ≠ 0 := by exact_mod_cast hd.ne'
  have hself : ∀ x ∈ [t], x.coeff = 1 ∧ ((∃ z : ℤ, x.exp = z / (2 * d : ℕ)) ∧ x.exp ≠ 0) ∧ Usable x.base := by
    intro x hx
    rw [List.mem_singleton] at hx
    subst hx
    obtain ⟨z, hz⟩ := ht.exp.1
    exact ⟨ht.coeff, ⟨⟨2 * z, by rw [hz]; push_cast; field_simp⟩, ht.exp.2⟩, e, hs, hl⟩
  have hselfv : ∀ ρ : Name → ℝ, CoherentSizes ρ → value ρ [t] = t.val ρ := by
    intro ρ _; simp [value]
  have hok := okD hs hl ho
  unfold decomposeTerm
  rw [hs.1]
  simp only
  unfold okDecomposed at hok
  cases hdec : decomposed e o with
  | error x =>
    rw [hdec] at hok
    cases x <;> first
      | exact ⟨[t], rfl, by simp, hself, hselfv⟩
      | (exfalso; revert hok; simp)
  | ok r =>
    cases r with
    | none => exact ⟨[t], rfl, by simp, hself, hselfv⟩
    | some ts =>
      rw [hdec] at hok
      simp only at hok ⊢
      rw [Bool.or_eq_true] at hok
      rcases hok with hok | hok
      · have hts := of_decide_eq_true hok
        have hb : t.base ≠ [] := by
          intro h0; have := hs.2.2; rw [h0] at this; simp [baseIsValid, one] at this
        have hte : (⟨1, t.base, 1 * t.exp⟩ : Term) = t := by
          have := ht.coeff
          cases t; simp_all
        refine ⟨[t], ?_, by simp, hself, hselfv⟩
        rw [hts, hs.2.1, mapTerms_eq (g := fun x => ⟨1, x.base, x.exp * t.exp⟩)]
        · simp only [List.map_cons, List.map_nil, hte, ofSym]
        · intro x hx
          rw [List.mem_singleton] at hx
          subst hx
          exact term_pow_one (x := ⟨1, t.base, 1⟩) rfl hb one_ne_zero ht.exp.2
      · simp only [Bool.and_eq_true, decide_eq_true_eq, List.all_eq_true, List.any_eq_true] at hok
        obtain ⟨⟨hne, hall⟩, p, hp, hp1, hp2⟩ := hok
        have hterm : ∀ x ∈ ts, x.coeff = 1 ∧ (2 * x.exp).den = 1 ∧ x.exp ≠ 0 ∧ asSymbol x = .ok x ∧ x.base ≠ one ∧
            (named x.base).map (fun e => e.base.symbol) ≠ some (c! "lx") := by
          intro x hx
          have := hall x hx
          unfold okTerm at this
          exact of_decide_eq_true this
        have hsym : ∀ x ∈ ts, Usable x.base := by
          intro x hx
          obtain ⟨e, he⟩ := (asSymbol_iff (hterm x hx).1 (hterm x hx).2.2.1).1 (hterm x hx).2.2.2.1
          refine ⟨e, he, ?_⟩
          have := (hterm x hx).2.2.2.2.2
          rw [he.1] at this
          simpa using this
        have hbne : ∀ x ∈ ts, x.base ≠ [] := by
          intro x hx h0
          obtain ⟨_, h, _⟩ := hsym x hx
          have := h.2.2; rw [h0] at this; simp [baseIsValid, one] at this
        refine ⟨ts.map (fun x => ⟨1, x.base, x.exp * t.exp⟩), ?_, by simpa using hne, ?_, ?_⟩
        · rw [mapTerms_eq (g := fun x => ⟨1, x.base, x.exp * t.exp⟩)]
          · rfl
          · intro x hx
            exact term_pow_one (hterm x hx).1 (hbne x hx) (hterm x hx).2.2.1 ht.exp.2
        · intro x hx
          obtain ⟨y, hy, rfl⟩ := List.mem_map.1 hx
          obtain ⟨_, h2, h3, _⟩ := hterm y hy
          obtain ⟨z, hz⟩ := ht.exp.1
          refine ⟨rfl, ⟨⟨(2 * y.exp).num * z, ?_⟩, mul_ne_zero h3 ht.exp.2⟩, hsym y hy⟩
          have h4 : ((2 * y.exp).num : ℚ) = 2 * y.exp := by
            have := Rat.num_div_den (2 * y.exp)
            rw [h2] at this
            simpa using this
          push_cast
          rw [h4, hz]
          field_simp
        · intro ρ hρ
          rw [value_pow hρ.pos _ _ (fun x hx => (hterm x hx).1),
            coherent_value hρ hp hp1 hp2 (fun x hx => (hterm x hx).2.2.2.2.1), hs.2.1]
          unfold Term.val
          rw [ht.coeff]
          split
          next hb =>
            exfalso
            rw [hs.2.1, hb] at hp1
            have : ∀ p ∈ derivedUnits, p.1 ≠ one := by decide +kernel
            exact this p hp hp1
          · simp

theorem decomposeTerms_ok {o : List System} (ho : o ∈ Orders) {d : ℕ} (hd : 0 < d) : ∀ {u : List Term},
    (∀ t ∈ u, UnitTerm d t) → ∃ ts, decomposeTerms o u = .ok ts ∧ (u ≠ [] → ts ≠ []) ∧
      (∀ x ∈ ts, x.coeff = 1 ∧ ((∃ z : ℤ, x.exp = z / (2 * d : ℕ)) ∧ x.exp ≠ 0) ∧ Usable x.base) ∧
      ∀ ρ, CoherentSizes ρ → value ρ ts = value ρ u
  | [], _ => ⟨[], rfl, by simp, by simp, by simp⟩
  | t :: u, h => by
    obtain ⟨ps, p1, p2, p3, p4⟩ := decomposeTerm_ok ho hd (h t (by simp))
    obtain ⟨qs, q1, _, q3, q4⟩ := decomposeTerms_ok ho hd (fun x hx => h x (List.mem_cons_of_mem _ hx))
    refine ⟨ps ++ qs, ?_, by simp [p2], ?_, ?_⟩
    · unfold decomposeTerms
      rw [p1]; simp only; rw [q1]
    · intro x hx
      rcases List.mem_append.1 hx with hx | hx
      · exact p3 x hx
      · exact q3 x hx
    · intro ρ hρ
      rw [value_append, p4 ρ hρ, q4 ρ hρ]
      simp [value]

theorem decomposeUnit_ok {o : List System} (ho : o ∈ Orders) {d : ℕ} (hd : 0 < d) (hd4 : d ≤ 4) {u : List Term}
    (hne : u ≠ []) (h : ∀ t ∈ u, UnitTerm d t) :
    ∃ r, decomposeUnit' o u = .ok r ∧ exprOfTerms r = .ok r ∧ Frac (2 * d) r ∧ (∀ t ∈ r, Usable t.base) ∧
      ∀ ρ, CoherentSizes ρ → value ρ r = value ρ u := by
  obtain ⟨ts, h1, h2, h3, h4⟩ := decomposeTerms_ok ho hd h
  have hw : WF ts := by
    intro t ht
    obtain ⟨h1, h2, e, h4, _⟩ := h3 t ht
    refine ⟨by rw [h1]; exact one_ne_zero, ?_, h2.2⟩
    rcases h4.valid with h | h
    · exact h.ne_nil
    · rw [h]; simp [one]
  obtain ⟨r, _, _, _, hr, hc, he⟩ := reduce_ok (h2 hne) hw
  have hF : Frac (2 * d) r := reduce_frac (by omega) (h2 hne) (fun t ht => (h3 t ht).1) (fun t ht => (h3 t ht).2.1)
    (fun t ht => by obtain ⟨e, h, _⟩ := (h3 t ht).2.2; exact h.valid) hr
  refine ⟨r, ?_, exprOfTerms_reduced (h2 hne) hw hr (hF.exact (by omega) (by omega)), hF, ?_, ?_⟩
  · unfold decomposeUnit'
    rw [h1]; simp only; rw [hr]; rfl
  · intro t ht
    by_cases hb : t.base = one
    · rw [hb]; exact usable_one
    · obtain ⟨x, hx, hxb⟩ := List.mem_map.1 ((reduce_spec (h2 hne) hw hr).2.2.2.2.2.1 t ht hb)
      rw [← hxb]; exact (h3 x hx).2.2
  · intro ρ hρ
    rw [← h4 ρ hρ]; exact value_congr ρ hρ.pos _ _ hc he

theorem unitOfExpr_ok {d : ℕ} {r : List Term} (h : Frac d r) (hs : ∀ t ∈ r, Usable t.base) :
    unitOfExpr r = .ok r := by
  unfold unitOfExpr
  exact mapE_fixed (fun t ht => (asSymbol_iff (h.coeff t ht) (h.exp t ht).2).2 (by obtain ⟨e, he, _⟩ := hs t ht; exact ⟨e, he⟩))

/-- a unit: a product of powers of symbols of units -/
structure UnitTerms (d : ℕ) (u : List Term) : Prop where
  nonempty : u ≠ []
  terms : ∀ t ∈ u, UnitTerm d t

theorem UnitTerms.frac {d : ℕ} {u : List Term} (h : UnitTerms d u) : Frac d u := by
  refine ⟨h.nonempty, fun t ht => (h.terms t ht).coeff, fun t ht => (h.terms t ht).exp, ?_⟩
  intro t ht
  obtain ⟨e, he, _⟩ := (h.terms t ht).symbol
  rcases he.valid with h' | h'
  · exact Or.inl h'
  · exact Or.inr ⟨h', (h.terms t ht).number h'⟩

theorem applyOperator_ok {o : List System} (ho : o ∈ Orders) {d : ℕ} (hd : 0 < d) (hd4 : d ≤ 4) {a b : List Term}
    (ha : UnitTerms d a) (hb : UnitTerms d b) {f : List Term → List Term → Except Symbolic.Err (List Term)}
    {g : ℝ → ℝ → ℝ} (hf : ∀ {x y : List Term}, Frac (2 * d) x → Frac (2 * d) y → ∃ r, f x y = .ok r ∧ Frac (2 * d) r ∧
      (∀ t ∈ r, t.base = one ∨ t.base ∈ (x ++ y).map Term.base) ∧
      ∀ ρ, Positive ρ → value ρ r = g (value ρ x) (value ρ y)) :
    ∃ r, applyOperator o f a b = .ok r ∧ Frac (2 * d) r ∧ (∀ t ∈ r, Usable t.base) ∧
      ∀ ρ, CoherentSizes ρ → value ρ r = g (value ρ a) (value ρ b) := by
  obtain ⟨x, x1, x2, x3, x4, x5⟩ := decomposeUnit_ok ho hd hd4 ha.nonempty ha.terms
  obtain ⟨y, y1, y2, y3, y4, y5⟩ := decomposeUnit_ok ho hd hd4 hb.nonempty hb.terms
  obtain ⟨r, r1, r2, r3, r4⟩ := hf x3 y3
  have hs : ∀ t ∈ r, Usable t.base := by
    intro t ht
    rcases r3 t ht with h | h
    · rw [h]; exact usable_one
    · obtain ⟨u, hu, hub⟩ := List.mem_map.1 h
      rw [← hub]
      rcases List.mem_append.1 hu with h | h
      · exact x4 u h
      · exact y4 u h
  refine ⟨r, ?_, r2, hs, ?_⟩
  · unfold applyOperator
    simp only [x1, x2, y1, y2, ofSym, r1]
    exact unitOfExpr_ok r2 hs
  · intro ρ hρ
    rw [r4 ρ hρ.pos, x5 ρ hρ, y5 ρ hρ]

end Eprem.Metric
