import Verif.Model.SystemUnits
import Verif.Lemmas.Halves
import Verif.Lemmas.UnitProducts
import Verif.Props.MetricSystem

/-! # Lemmas on the units of a metric system (C112) -/

namespace Eprem.Metric

open Eprem Eprem.Symbolic

/-! ## Powers of products of names -/

theorem names_pow {a : List Term} (ha : NamesOnly a) {n : ℤ} (hn : n ≠ 0)
    (hb : ∀ t ∈ a, |t.exp.num * n| < 2 ^ 53) :
    ∃ r, exprPow a n = .ok r ∧ NamesOnly r ∧ (∀ t ∈ r, t.base ≠ one → ∃ u ∈ a, u.base = t.base) ∧
      ∀ ρ, Positive ρ → value ρ r = value ρ a ^ n := by
  have hw := ha.wf.ipow hn
  have hne : a.map (Term.ipow n) ≠ [] := by simpa using ha.nonempty
  obtain ⟨r, _, _, _, hr, hc, he⟩ := reduce_ok hne hw
  obtain ⟨_, _, _, _, _, hbases, _⟩ := reduce_spec hne hw hr
  have hexp : ∀ t ∈ a, t.exp = (t.exp.num : ℚ) := fun t ht => (Rat.coe_int_num_of_den_eq_one (ha.exp t ht).1).symm
  have hpe : ∀ t ∈ a, PowExact n t := by
    intro t ht
    have hb' := hb t ht
    refine ⟨?_, by rw [ha.coeff t ht]; exact fl_one, ?_, by rw [ha.coeff t ht, one_zpow]; exact fl_one⟩
    · rw [hexp t ht]
      refine fl_rep ⟨t.exp.num, 0, by simp, ?_⟩
      rw [abs_mul] at hb'
      have : 1 ≤ |n| := Int.one_le_abs hn
      have h0 := abs_nonneg t.exp.num
      nlinarith
    · rw [hexp t ht]
      exact fl_rep ⟨t.exp.num * n, 0, by simp, hb'⟩
  have hN : NamesOnly r := reduce_names hne
    (by intro t ht
        obtain ⟨u, hu, rfl⟩ := List.mem_map.1 ht
        simp [Term.ipow, ha.coeff u hu])
    (by intro t ht
        obtain ⟨u, hu, rfl⟩ := List.mem_map.1 ht
        have hn' : (n : Rat) ≠ 0 := by exact_mod_cast hn
        refine ⟨?_, mul_ne_zero (ha.exp u hu).2 hn'⟩
        exact den_mul_one (ha.exp u hu).1 rfl)
    (by intro t ht
        obtain ⟨u, hu, rfl⟩ := List.mem_map.1 ht
        exact (ha.base u hu).imp id And.left) hr
  refine ⟨r, exprPow_eq hn ha.nonempty ha.wf hpe hr hN.exact, hN, ?_, ?_⟩
  · intro t ht h1
    obtain ⟨v, hv, hvb⟩ := List.mem_map.1 (hbases t ht h1)
    obtain ⟨u, hu, rfl⟩ := List.mem_map.1 hv
    exact ⟨u, hu, hvb⟩
  · intro ρ hρ
    rw [← value_ipow ρ hρ]; exact value_congr ρ hρ _ _ hc he

/-! ## A product of expressions in parentheses -/

theorem rowAtom_plain {t : Term} (hc : t.coeff = 1) (he : t.exp.den = 1 ∧ t.exp ≠ 0)
    (hb : ValidName t.base ∨ (t.base = one ∧ t.exp = 1)) : Atom.plain (rowAtom t) = true := by
  unfold rowAtom
  split
  next h =>
    have hl : litOf 1 = .int false ['1'] := by decide +kernel
    simp only [constAtom, hc, hl, Atom.plain, decide_true, Option.isNone_none, Bool.and_self]
  next h =>
    have hv : ValidName t.base := hb.resolve_right (fun h' => h h'.1)
    obtain ⟨_, h1, h2, h3, h4⟩ := hv.split
    have hp : plainExp (expOpt t.exp) = true := by
      unfold expOpt
      split
      · rfl
      · exact litOf_plain he.1 he.2
    have h4' : List.isPrefixOf ['s', 'q', 'r', 't'] (letters t.base) = false := by
      rw [Bool.eq_false_iff]
      exact fun hh => h4 (List.isPrefixOf_iff_prefix.1 hh)
    simp only [nameAtom, Atom.plain, Option.isNone_none, Bool.true_and, h4', hp, Bool.not_false, Bool.and_true,
      Bool.and_eq_true, List.all_eq_true]
    refine ⟨⟨?_, h2⟩, h3⟩
    cases hl : letters t.base with
    | nil => exact absurd hl h1
    | cons => rfl

theorem rowExpr_plain : ∀ (ts : List Term) (t : Term), NamesOnly (t :: ts) → Expr.plain (rowExpr t ts) = true
  | [], t, h => by
    simp only [rowExpr, Expr.plain]
    exact rowAtom_plain (h.coeff t (by simp)) (h.exp t (by simp)) (h.base t (by simp))
  | u :: us, t, h => by
    have hu : NamesOnly (u :: us) := ⟨by simp, fun v hv => h.coeff v (List.mem_cons_of_mem _ hv),
      fun v hv => h.exp v (List.mem_cons_of_mem _ hv), fun v hv => h.base v (List.mem_cons_of_mem _ hv)⟩
    simp only [rowExpr, Expr.plain, rowExpr_plain us u hu,
      rowAtom_plain (h.coeff t (by simp)) (h.exp t (by simp)) (h.base t (by simp)), Bool.true_and]
    decide

/-- the expression that a product of names is written as -/
def shownExpr : List Term → Expr
  | [] => .one (.const (.int false ['1']) none)
  | t :: ts => rowExpr t ts

theorem shownExpr_text {ts : List Term} (h : NamesOnly ts) : (shownExpr ts).text = showExpr ts := by
  cases ts with
  | nil => exact absurd rfl h.nonempty
  | cons t ts => exact rowExpr_text ts t (NamesOnly.row h)

theorem shownExpr_plain {ts : List Term} (h : NamesOnly ts) : Expr.plain (shownExpr ts) = true := by
  cases ts with
  | nil => exact absurd rfl h.nonempty
  | cons t ts => exact rowExpr_plain ts t h

theorem shownExpr_denote {ts : List Term} (h : NamesOnly ts) {ρ : Name → ℝ} (hρ : Positive ρ) :
    (shownExpr ts).denote ρ id = value ρ ts := by
  obtain ⟨r, hr, _, _, hv⟩ := plain_denotes _ (shownExpr_plain h)
  rw [shownExpr_text h, showExpr_round_trip ts h.nonempty (NamesOnly.row h)] at hr
  obtain ⟨r', hr', hv'⟩ := c01_reduce_value ts h.nonempty h.wf
  rw [hr] at hr'
  cases hr'
  rw [← hv ρ hρ, hv' ρ hρ]

/-- the groups joined by stars -/
def groupsExpr : List Term → List (List Term) → Expr
  | x, [] => .one (.group (shownExpr x) none)
  | x, y :: ys => .cons (.group (shownExpr x) none) (.mul 0 0) (groupsExpr y ys)

theorem groupsExpr_text : ∀ (xs : List (List Term)) (x : List Term), (∀ y ∈ x :: xs, NamesOnly y) →
    (groupsExpr x xs).text = joinStar ((x :: xs).map inParens)
  | [], x, h => by
    simp only [groupsExpr, Expr.text, Atom.text, expText, List.map, joinStar, inParens, shownExpr_text (h x (by simp))]
    simp
  | y :: ys, x, h => by
    simp only [groupsExpr, Expr.text, Atom.text, expText, List.map, joinStar, inParens, shownExpr_text (h x (by simp)), Sep.text,
      blanks, groupsExpr_text ys y (fun v hv => h v (List.mem_cons_of_mem _ hv))]
    simp [inParens]

theorem groupsExpr_plain : ∀ (xs : List (List Term)) (x : List Term), (∀ y ∈ x :: xs, NamesOnly y) →
    Expr.plain (groupsExpr x xs) = true
  | [], x, h => by
    have hn : plainExp none = true := rfl
    simp only [groupsExpr, Expr.plain, Atom.plain, shownExpr_plain (h x (by simp)), hn, Bool.and_self]
  | y :: ys, x, h => by
    have hn : plainExp none = true := rfl
    simp only [groupsExpr, Expr.plain, Atom.plain, shownExpr_plain (h x (by simp)), hn, Bool.true_and,
      groupsExpr_plain ys y (fun v hv => h v (List.mem_cons_of_mem _ hv))]
    decide

theorem groupsExpr_denote {ρ : Name → ℝ} (hρ : Positive ρ) : ∀ (xs : List (List Term)) (x : List Term),
    (∀ y ∈ x :: xs, NamesOnly y) → (groupsExpr x xs).denote ρ id = ((x :: xs).map (value ρ)).prod
  | [], x, h => by
    simp [groupsExpr, Expr.denote, Atom.denote, litOr1, shownExpr_denote (h x (by simp)) hρ]
  | y :: ys, x, h => by
    have ha : Sep.act (.mul 0 0) = id := rfl
    simp only [groupsExpr, Expr.denote, Atom.denote, litOr1, ha, shownExpr_denote (h x (by simp)) hρ,
      groupsExpr_denote hρ ys y (fun v hv => h v (List.mem_cons_of_mem _ hv)), List.map, List.prod_cons, id]
    simp

theorem probe_pos (b : Name) : Positive (fun x => if x = b then Real.exp 1 else 1) := by
  intro x
  dsimp only
  split
  · exact Real.exp_pos 1
  · exact one_pos

theorem coefOf_one : ∀ {ts : List Term}, (∀ t ∈ ts, t.coeff = 1) → coefOf ts = 1
  | [], _ => by simp [coefOf]
  | t :: ts, h => by
    rw [coefOf_cons, h t (by simp), coefOf_one (fun u hu => h u (List.mem_cons_of_mem _ hu)), one_mul]

theorem expOf_absent {b : Name} : ∀ {ts : List Term}, (∀ t ∈ ts, t.base ≠ b) → expOf b ts = 0
  | [], _ => by simp [expOf]
  | t :: ts, h => by
    rw [expOf_cons, if_neg (h t (by simp)), expOf_absent (fun u hu => h u (List.mem_cons_of_mem _ hu))]; simp

/-- the product of expressions in parentheses -/
theorem parts_product (parts : List (List Term)) (hne : parts ≠ []) (h : ∀ y ∈ parts, NamesOnly y) :
    ∃ r, exprOfString false (joinStar (parts.map inParens)) = .ok r ∧ Canonical r ∧ NamesOnly r ∧
      (∀ t ∈ r, t.base ≠ one → ∃ y ∈ parts, ∃ u ∈ y, u.base = t.base) ∧
      ∀ ρ, Positive ρ → value ρ r = (parts.map (value ρ)).prod := by
  cases parts with
  | nil => exact absurd rfl hne
  | cons x xs =>
    obtain ⟨r, hr, hc, hn, hv⟩ := plain_denotes _ (groupsExpr_plain xs x h)
    rw [groupsExpr_text xs x h] at hr
    have hval : ∀ ρ, Positive ρ → value ρ r = ((x :: xs).map (value ρ)).prod := fun ρ hρ => by
      rw [hv ρ hρ, groupsExpr_denote hρ xs x h]
    refine ⟨r, hr, hc, hn, ?_, hval⟩
    intro t ht h1
    by_contra hcon
    push Not at hcon
    have hp := hval _ (probe_pos t.base)
    rw [value_probe _ h1, coefOf_one hn.coeff, expOf_of_nodup r hc.nodup t ht] at hp
    have hone : ((x :: xs).map (value (fun y => if y = t.base then Real.exp 1 else 1))).prod = 1 := by
      refine List.prod_eq_one ?_
      intro v hvm
      obtain ⟨y, hy, rfl⟩ := List.mem_map.1 hvm
      rw [value_probe _ h1, coefOf_one (h y hy).coeff, expOf_absent (fun u hu => hcon y hy u hu)]
      simp
    rw [hone] at hp
    simp only [Rat.cast_one, one_mul, Real.exp_eq_one_iff, Rat.cast_eq_zero] at hp
    exact (hn.exp t ht).2 hp


/-! ## The units of the quantities of units -/

/-- the unit can be used in products, as a computation -/
def usableB (b : Name) : Bool :=
  match named b with
  | none => false
  | some e => decide (e.symbol = b) && baseIsValid e.symbol && decide (e.base.symbol ≠ c! "lx")

theorem usable_of {b : Name} (h : usableB b = true) : Usable b := by
  unfold usableB at h
  cases hn : named b with
  | none => rw [hn] at h; cases h
  | some e =>
    rw [hn] at h
    simp only [Bool.and_eq_true, decide_eq_true_eq] at h
    exact ⟨e, ⟨hn, h.1.1, h.1.1 ▸ h.1.2⟩, h.2⟩

/-- a unit that the system has for its quantity -/
structure OwnUnit (s : System) (b : Name) : Prop where
  usable : Usable b
  canonical : canonicalUnit s b = [⟨1, b, 1⟩]
  quantity : quantityOf b ≠ some c! "illuminance" ∧ quantityOf b ≠ some c! "resistance"

def ownB (s : System) (b : Name) : Bool :=
  usableB b && decide (canonicalUnit s b = [⟨1, b, 1⟩]) && decide (quantityOf b ≠ some c! "illuminance") &&
    decide (quantityOf b ≠ some c! "resistance")

theorem own_of {s : System} {b : Name} (h : ownB s b = true) : OwnUnit s b := by
  simp only [ownB, Bool.and_eq_true, decide_eq_true_eq] at h
  exact ⟨usable_of h.1.1.1, h.1.1.2, h.1.2, h.2⟩

theorem own_one : ∀ s ∈ [System.mks, .cgs], ownB s one = true := by decide +kernel

def rowUnit (s : System) (p : Name × Expr × Expr) : Bool :=
  match unitsOf s (underscore p.1), exprOfString false (s.pick p.2).text with
  | .ok v, .ok x => decide (exprOfString false v = .ok x) && x.all (fun t => decide (|t.exp.num| ≤ 2)) &&
      (decide (p.1 = c! "resistance") || x.all (fun t => ownB s t.base))
  | _, _ => false

set_option maxHeartbeats 100000000 in
theorem rowUnits : ∀ s ∈ [System.mks, .cgs], ∀ p ∈ canonExprs, rowUnit s p = true := by decide +kernel

/-- the unit of a quantity of units, to a power -/
theorem unitPower_ok (s : System) {p : Name} (hp : p ∈ unitQuantities) (hr : p ≠ c! "resistance") {n : ℤ} (hn : n ≠ 0)
    (hb : |n| < 2 ^ 50) (c : ℚ) :
    ∃ x, unitPower s ⟨c, underscore p, n⟩ = .ok x ∧ NamesOnly x ∧ (∀ t ∈ x, t.base ≠ one → OwnUnit s t.base) ∧
      ∀ ρ, Positive ρ → value ρ x = (canonOf s (underscore p)).denote ρ id ^ (n : ℝ) := by
  obtain ⟨row, hrow, rfl⟩ := List.mem_map.1 hp
  have h := rowUnits s (mem_systems s) row hrow
  obtain ⟨y, hy, _, ny, hv⟩ := plain_denotes (canonOf s (underscore row.1)) (canonOf_plain s _)
  rw [canonOf_underscore s hrow] at hy hv ⊢
  unfold rowUnit at h
  cases hu : unitsOf s (underscore row.1) with
  | error e => rw [hu] at h; cases h
  | ok v =>
    rw [hu, hy] at h
    simp only [Bool.and_eq_true, Bool.or_eq_true, decide_eq_true_eq, List.all_eq_true, hr, false_or] at h
    obtain ⟨⟨h1, h2⟩, h3⟩ := h
    obtain ⟨x, hx, nx, hbx, hvx⟩ := names_pow ny hn (fun t ht => by
      have := h2 t ht
      rw [abs_mul]
      have h0 := abs_nonneg n
      nlinarith)
    refine ⟨x, ?_, nx, ?_, ?_⟩
    · simp only [unitPower, hu, h1, ofSym, hx]
    · intro t ht h1
      obtain ⟨u, hu, hub⟩ := hbx t ht h1
      rw [← hub]
      exact own_of (h3 u hu)
    · intro ρ hρ
      rw [hvx ρ hρ, hv ρ hρ, Real.rpow_intCast]

theorem mapE_forall {α β ε : Type} {f : α → Except ε β} {P : α → β → Prop} : ∀ (l : List α),
    (∀ a ∈ l, ∃ b, f a = .ok b ∧ P a b) → ∃ bs, mapE f l = .ok bs ∧ List.Forall₂ P l bs
  | [], _ => ⟨[], rfl, .nil⟩
  | a :: l, h => by
    obtain ⟨b, hb, hP⟩ := h a (by simp)
    obtain ⟨bs, hbs, hF⟩ := mapE_forall l (fun x hx => h x (List.mem_cons_of_mem _ hx))
    exact ⟨b :: bs, by simp only [mapE, hb, hbs], .cons hP hF⟩

theorem forall₂_prod {α β : Type} {f : α → ℝ} {g : β → ℝ} : ∀ {l : List α} {m : List β},
    List.Forall₂ (fun a b => g b = f a) l m → (m.map g).prod = (l.map f).prod
  | [], [], _ => rfl
  | a :: l, b :: m, .cons h hs => by simp only [List.map_cons, List.prod_cons, h, forall₂_prod hs]

/-- `normalize` without a quantity -/
theorem normalize_ok (s : System) {a : List Term} (na : NamesOnly a)
    (hu : ∀ t ∈ a, ∃ e, namedUnits.getItem t.base = .ok e ∧ e.base.quantity ≠ c! "illuminance" ∧ e.base.quantity ≠ c! "resistance")
    (hne : ∃ q, quantityExponent q a ≠ 0) (hsmall : ∀ q, |quantityExponent q a| < 2 ^ 50) :
    ∃ r, normalizeUnit s a none = .ok r ∧ Canonical r ∧ NamesOnly r ∧ (∀ t ∈ r, OwnUnit s t.base) ∧
      ∀ ρ, Positive ρ → value ρ r = (a.map (fun t => value ρ (canonicalUnit s t.base) ^ (t.exp : ℝ))).prod := by
  have hk : KnownUnits a := known_of (fun t ht => by
    obtain ⟨e, h1, h2, _⟩ := hu t ht
    exact ⟨e, h1, h2⟩)
  obtain ⟨q, hq, nq, cq, hbq, heq, hvq⟩ := quantity_terms na hk
  have hres : ∀ t ∈ a, quantityOf t.base ≠ some c! "resistance" := by
    intro t ht h
    obtain ⟨e, h1, _, h3⟩ := hu t ht
    rw [(quantityOf_found h1).1, Option.some.injEq] at h
    exact h3 h
  have hzero : ∀ p, quantityExponent p a ≠ 0 → p ∈ unitQuantities ∧ p ≠ c! "resistance" := by
    intro p hp
    by_contra hcon
    refine hp ?_
    unfold quantityExponent
    rw [List.filter_eq_nil_iff.2 ?_]
    · rfl
    · intro t ht h
      obtain ⟨p', hp', he⟩ := hk t ht
      have h' := hres t ht
      simp only [decide_eq_true_eq] at h
      rw [h] at he h'
      rw [Option.some.injEq] at he
      exact hcon ⟨he ▸ hp', fun h'' => h' (by rw [h''])⟩
  have hone : ∀ t ∈ q, t.base ≠ one := by
    intro t ht hb
    have hl : q.length = 1 := by
      by_contra hl
      exact cq.numberNeOne t ht hb hl (nq.coeff t ht)
    obtain ⟨u, rfl⟩ := List.length_eq_one_iff.1 hl
    rw [List.mem_singleton] at ht
    subst ht
    obtain ⟨p, hp⟩ := hne
    have hpm := (hzero p hp).1
    rw [← heq p hpm, expOf_cons, hb, if_neg (underscore_letters p hpm).2.2.2.1.symm] at hp
    exact hp (by simp [expOf])
  have hval : ∀ ρ, Positive ρ → (q.map (fun t => (canonOf s t.base).denote ρ id ^ (t.exp : ℝ))).prod =
      (a.map (fun t => value ρ (canonicalUnit s t.base) ^ (t.exp : ℝ))).prod := by
    intro ρ hρ
    have h1 := hvq (fun b => (canonOf s b).denote ρ id) (fun b => canonOf_denote_pos s hρ b)
    rw [value_names nq.coeff hone, value_names] at h1
    · rw [h1, List.map_map]
      congr 1
      refine List.map_congr_left (fun t ht => ?_)
      obtain ⟨p, hp, he⟩ := hk t ht
      rw [canonicalUnit_value s he hp hρ]
      simp only [Function.comp, quantityTerm, he, Option.getD_some]
    · intro t ht
      obtain ⟨u, _, rfl⟩ := List.mem_map.1 ht
      rfl
    · intro t ht
      obtain ⟨u, hu, rfl⟩ := List.mem_map.1 ht
      obtain ⟨p, hp, he⟩ := hk u hu
      simp only [quantityTerm, he, Option.getD_some]
      exact (underscore_letters p hp).2.2.2.1
  obtain ⟨parts, hparts, hF⟩ := mapE_forall (f := unitPower s) (P := fun t x => NamesOnly x ∧
      (∀ u ∈ x, u.base ≠ one → OwnUnit s u.base) ∧
      ∀ ρ, Positive ρ → value ρ x = (canonOf s t.base).denote ρ id ^ (t.exp : ℝ)) q (by
    intro t ht
    obtain ⟨p, hp, hb⟩ := hbq t ht (hone t ht)
    have hexp : t.exp = quantityExponent p a := by
      rw [← heq p hp, ← hb, expOf_of_nodup q cq.nodup t ht]
    have hnz := (nq.exp t ht).2
    have hr := (hzero p (hexp ▸ hnz)).2
    have hint : t.exp = (t.exp.num : ℚ) := (Rat.coe_int_num_of_den_eq_one (nq.exp t ht).1).symm
    have hn0 : t.exp.num ≠ 0 := by simpa using hnz
    have hbd : |t.exp.num| < 2 ^ 50 := by
      have := hsmall p
      rw [← hexp, hint] at this
      exact_mod_cast this
    obtain ⟨x, hx, h1, h2, h3⟩ := unitPower_ok s hp hr hn0 hbd t.coeff
    refine ⟨x, ?_, h1, h2, ?_⟩
    · rw [← hint, ← hb] at hx
      exact hx
    · intro ρ hρ
      rw [h3 ρ hρ, hb, ← Rat.cast_intCast, ← hint])
  have hmem : ∀ y ∈ parts, ∃ t ∈ q, NamesOnly y ∧ (∀ u ∈ y, u.base ≠ one → OwnUnit s u.base) := by
    intro y hy
    obtain ⟨i, hi, rfl⟩ := List.getElem_of_mem hy
    have hl := hF.length_eq
    have := hF.get (i := i) (by omega) hi
    exact ⟨q[i], List.getElem_mem _, this.1, this.2.1⟩
  have hpne : parts ≠ [] := by
    intro h
    have hl := hF.length_eq
    rw [h] at hl
    exact nq.nonempty (List.length_eq_zero_iff.1 hl)
  obtain ⟨r, hr, cr, nr, hbr, hvr⟩ := parts_product parts hpne (fun y hy => by
    obtain ⟨_, _, h, _⟩ := hmem y hy
    exact h)
  have husable : ∀ t ∈ r, OwnUnit s t.base := by
    intro t ht
    by_cases h1 : t.base = one
    · rw [h1]; exact own_of (own_one s (mem_systems s))
    · obtain ⟨y, hy, u, hu, hub⟩ := hbr t ht h1
      obtain ⟨_, _, _, h⟩ := hmem y hy
      rw [← hub]
      exact h u hu (by rw [hub]; exact h1)
  refine ⟨r, ?_, cr, nr, husable, ?_⟩
  · have hf : Frac 1 r := ⟨nr.nonempty, nr.coeff, fun t ht => ⟨⟨t.exp.num, by
      rw [Nat.cast_one, div_one]; exact (Rat.coe_int_num_of_den_eq_one (nr.exp t ht).1).symm⟩, (nr.exp t ht).2⟩, nr.base⟩
    simp only [normalizeUnit, hq, unitOfQuantity, hparts, hr, ofSym]
    exact unitOfExpr_ok hf (fun t ht => (husable t ht).usable)
  · intro ρ hρ
    rw [hvr ρ hρ, ← hval ρ hρ]
    refine forall₂_prod ?_
    exact hF.imp (fun t x h => h.2.2 ρ hρ)

end Eprem.Metric
