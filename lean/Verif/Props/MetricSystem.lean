import Verif.Lemmas.MetricSystem
import Verif.Props.MetricConvert
import Verif.Props.MetricCache
import Verif.Props.Measured

/-!
# C83: conversion of a unit to a metric system

`x.withunit('mks')` and `metric.conversion(u, 'mks')` replace every unit by the unit which the system has for the same
quantity.
-/

namespace Eprem.Metric

open Eprem Eprem.Symbolic Eprem.Measured

/-! ## Units that several quantities share -/

theorem termKey {l m : List Term} : (l.length = m.length ∧ (l.zip m).all (fun p => termEq p.1 p.2) = true) ↔
    l.map (fun t => (t.base, fl t.exp, fl t.coeff)) = m.map (fun t => (t.base, fl t.exp, fl t.coeff)) := by
  induction l generalizing m with
  | nil => cases m <;> simp
  | cons a l ih =>
    cases m with
    | nil => simp
    | cons b m =>
      rw [List.map_cons, List.map_cons, List.cons.injEq, ← ih]
      simp [termEq]
      tauto

theorem exprEq_iff_key (a b : List Term) : exprEq a b = true ↔
    (sortBy keyLe a).map (fun t => (t.base, fl t.exp, fl t.coeff)) = (sortBy keyLe b).map (fun t => (t.base, fl t.exp, fl t.coeff)) := by
  rw [← termKey]
  unfold exprEq
  simp only [decide_eq_true_eq, (sortKey_perm a).length_eq, (sortKey_perm b).length_eq]

theorem exprEq_symm {a b : List Term} (h : exprEq a b = true) : exprEq b a = true :=
  (exprEq_iff_key b a).2 ((exprEq_iff_key a b).1 h).symm

theorem exprEq_trans {a b c : List Term} (h : exprEq a b = true) (h' : exprEq b c = true) : exprEq a c = true :=
  (exprEq_iff_key a c).2 (((exprEq_iff_key a b).1 h).trans ((exprEq_iff_key b c).1 h'))

/-- what the table of equivalent units must satisfy -/
def sharedCheck (table : List (List Term × List Term)) (s : System) : Bool :=
  table.all (fun p => table.all (fun p' => !exprEq (s.other.pick p) (s.other.pick p') || decide (s.pick p = s.pick p') ||
    (sharedUnits s).any (fun x => exprEq x (s.other.pick p)))) &&
  (sharedUnits s).all (fun x => table.any (fun p => table.any (fun p' => exprEq (s.other.pick p) x && exprEq (s.other.pick p') x &&
    decide (s.pick p ≠ s.pick p'))))

set_option maxHeartbeats 100000000 in
theorem shared_checked : ∃ table, equivalents = .ok table ∧ ∀ s ∈ [System.mks, System.cgs], sharedCheck table s = true := by
  have h : (match equivalents with
    | .ok table => [System.mks, System.cgs].all (fun s => sharedCheck table s)
    | .error _ => false) = true := by decide +kernel
  cases he : equivalents with
  | error e => rw [he] at h; cases h
  | ok table =>
    rw [he] at h
    exact ⟨table, rfl, fun s hs => List.all_eq_true.1 h s hs⟩

theorem eraseDups_two {α : Type} [BEq α] [LawfulBEq α] (l : List α) : l.eraseDups.length > 1 ↔ ∃ x ∈ l, ∃ y ∈ l, x ≠ y := by
  constructor
  · intro h
    cases l with
    | nil => simp at h
    | cons a l =>
      rw [List.eraseDups_cons] at h
      cases hf : (l.filter (fun b => !(b == a))).eraseDups with
      | nil => rw [hf] at h; simp at h
      | cons y r =>
        have hy : y ∈ l.filter (fun b => !(b == a)) := List.mem_eraseDups.1 (by rw [hf]; simp)
        obtain ⟨hy, hne⟩ := List.mem_filter.1 hy
        refine ⟨a, by simp, y, List.mem_cons_of_mem _ hy, ?_⟩
        rintro rfl; simp at hne
  · rintro ⟨x, hx, y, hy, hne⟩
    have hx' := List.mem_eraseDups.2 hx
    have hy' := List.mem_eraseDups.2 hy
    match he : l.eraseDups with
    | [] => rw [he] at hx'; simp at hx'
    | [z] =>
      rw [he] at hx' hy'
      simp only [List.mem_singleton] at hx' hy'
      exact absurd (hx'.trans hy'.symm) hne
    | _ :: _ :: _ => simp

/-- **C83**, which units are refused: exactly those in the table of shared units. -/
theorem c83_ambiguous (s : System) (source : Name) (a : List Term) (ha : exprOfString false source = .ok a) :
    ∃ r, isAmbiguous source s = .ok r ∧ (r = true ↔ ∃ x ∈ sharedUnits s, exprEq x a = true) := by
  obtain ⟨table, ht, hc⟩ := shared_checked
  have hc := hc s (mem_systems s)
  unfold sharedCheck at hc
  simp only [Bool.and_eq_true, List.all_eq_true, Bool.or_eq_true, Bool.not_eq_true', decide_eq_true_eq, List.any_eq_true] at hc
  refine ⟨_, by unfold isAmbiguous; rw [ha, ht]; rfl, ?_⟩
  rw [decide_eq_true_eq, eraseDups_two]
  constructor
  · rintro ⟨x, hx, y, hy, hne⟩
    obtain ⟨p, hp, rfl⟩ := List.mem_map.1 hx
    obtain ⟨p', hp', rfl⟩ := List.mem_map.1 hy
    obtain ⟨hp, hpe⟩ := List.mem_filter.1 hp
    obtain ⟨hp', hpe'⟩ := List.mem_filter.1 hp'
    rcases hc.1 p hp p' hp' with (h | h) | ⟨x, hx, h⟩
    · rw [exprEq_trans hpe (exprEq_symm hpe')] at h; cases h
    · exact absurd h hne
    · exact ⟨x, hx, exprEq_trans h hpe⟩
  · rintro ⟨x, hx, h⟩
    obtain ⟨p, hp, p', hp', h2⟩ := hc.2 x hx
    obtain ⟨⟨h3, h4⟩, h5⟩ := h2
    exact ⟨s.pick p, List.mem_map.2 ⟨p, List.mem_filter.2 ⟨hp, exprEq_trans h3 h⟩, rfl⟩,
      s.pick p', List.mem_map.2 ⟨p', List.mem_filter.2 ⟨hp', exprEq_trans h4 h⟩, rfl⟩, h5⟩

/-- `cm` may be a length or a capacitance -/
example : exprOfString false c! "cm" = .ok [⟨1, c! "cm", 1⟩] ∧ [⟨1, c! "cm", 1⟩] ∈ sharedUnits .mks := by decide +kernel

/-! ## The unit of the system -/

theorem quantityOf_found {n : Name} {e : Entry} (h : namedUnits.getItem n = .ok e) : quantityOf n = some e.base.quantity ∧ e.base ∈ baseUnits := by
  rw [c22_lookup] at h
  cases hn : named n with
  | none => rw [hn] at h; cases h
  | some e' =>
    rw [hn] at h
    cases h
    refine ⟨by rw [quantityOf, hn]; rfl, ?_⟩
    unfold named at hn
    split at hn
    next u hf => cases hn; exact List.mem_of_find?_eq_some hf
    next =>
      obtain ⟨p, _, hp⟩ := List.exists_of_findSome?_eq_some hn
      unfold namedScaled at hp
      have hb : ∀ {get : BaseUnit → Name} {x : Option Name} {u}, x.bind (findBase get) = some u → u ∈ baseUnits := by
        intro get x u h
        cases x with
        | none => cases h
        | some r =>
          change findBase get r = some u at h
          unfold findBase at h
          exact List.mem_of_find?_eq_some h
      cases h1 : (strip? p.symbol n).bind (findBase (·.symbol)) with
      | some u => rw [h1] at hp; cases hp; exact hb h1
      | none =>
        rw [h1] at hp
        dsimp only at hp
        cases h2 : (strip? p.name n).bind (findBase (·.name)) with
        | some u => rw [h2] at hp; cases hp; exact hb h2
        | none =>
          rw [h2] at hp
          dsimp only at hp
          split at hp
          · cases h3 : (strip? ['u'] n).bind (findBase (·.symbol)) with
            | some u => rw [h3] at hp; cases hp; exact hb h3
            | none => rw [h3] at hp; cases hp
          · cases hp

theorem known_of {a : List Term} (hu : ∀ t ∈ a, ∃ e, namedUnits.getItem t.base = .ok e ∧ e.base.quantity ≠ c! "illuminance") : KnownUnits a := by
  intro t ht
  obtain ⟨e, he, hne⟩ := hu t ht
  obtain ⟨h1, h2⟩ := quantityOf_found he
  exact ⟨_, unit_quantity _ h2 hne, h1⟩

theorem canonOf_denote_pos (s : System) {ρ : Name → ℝ} (hρ : Positive ρ) (b : Name) : 0 < (canonOf s b).denote ρ id := by
  obtain ⟨r, _, _, hn, hv⟩ := plain_denotes (canonOf s b) (canonOf_plain s b)
  rw [← hv ρ hρ]
  exact value_pos hρ hn.coeff

theorem canonicalUnit_value (s : System) {n q : Name} (hq : quantityOf n = some q) (hm : q ∈ unitQuantities) {ρ : Name → ℝ} (hρ : Positive ρ) :
    value ρ (canonicalUnit s n) = (canonOf s (underscore q)).denote ρ id := by
  obtain ⟨r, hr, _, _, hv⟩ := plain_denotes (canonOf s (underscore q)) (canonOf_plain s _)
  unfold canonicalUnit
  rw [hq]
  dsimp only
  rw [(canonOf_property s hm).2]
  dsimp only
  rw [hr]
  exact hv ρ hρ

theorem value_names {ρ : Name → ℝ} {ts : List Term} (hc : ∀ t ∈ ts, t.coeff = 1) (hb : ∀ t ∈ ts, t.base ≠ one) :
    value ρ ts = (ts.map (fun t => ρ t.base ^ (t.exp : ℝ))).prod := by
  unfold value
  congr 1
  refine List.map_congr_left (fun t ht => ?_)
  rw [Term.val, hc t ht, if_neg (hb t ht)]
  simp

theorem target_eq {s : System} {source : Name} {a q : List Term} (ha : exprOfString false source = .ok a) (hsrc : source ≠ c! "1")
    (hamb : ∀ x ∈ sharedUnits s, exprEq x a = false) (hq : getQuantity a = .ok q) :
    systemTarget s source none = substitution s (showExpr q) := by
  obtain ⟨r, hr, hri⟩ := c83_ambiguous s source a ha
  have hrf : r = false := by
    cases r with
    | false => rfl
    | true =>
      obtain ⟨x, hx, he⟩ := hri.1 rfl
      rw [hamb x hx] at he; cases he
  unfold systemTarget
  rw [if_neg hsrc]
  dsimp only
  rw [hr, hrf, ha]
  simp only [bind, Except.bind, ofSym, hq]
  rfl

/-- **C83** (part): the unit to which `source` is converted.  For every product of integral powers of units, the unit
is the product of the same powers of the units which the system has for their quantities.  Excluded are lux, the units
that several quantities share, products whose quantities cancel, a mass together with a number, and a mass number
alone. -/
theorem c83_target_partial (s : System) (source : Name) (a : List Term) (ha : exprOfString false source = .ok a) (na : NamesOnly a)
    (hsrc : source ≠ c! "1")
    (hu : ∀ t ∈ a, ∃ e, namedUnits.getItem t.base = .ok e ∧ e.base.quantity ≠ c! "illuminance")
    (hamb : ∀ x ∈ sharedUnits s, exprEq x a = false)
    (hne : ∃ q, quantityExponent q a ≠ 0)
    (hmass : quantityExponent c! "mass" a = 1 → quantityExponent c! "number" a = 0)
    (hnuc : quantityExponent c! "mass number" a = 1 → ∃ q, q ≠ c! "mass number" ∧ quantityExponent q a ≠ 0) :
    ∃ unit b, systemTarget s source none = .ok unit ∧ exprOfString false unit = .ok b ∧ NamesOnly b ∧
      ∀ ρ, Positive ρ → value ρ b = (a.map (fun t => value ρ (canonicalUnit s t.base) ^ (t.exp : ℝ))).prod := by
  have hk := known_of hu
  obtain ⟨q, hq, nq, cq, hbq, heq, hvq⟩ := quantity_terms na hk
  -- the exponent of a quantity that is no quantity of a unit is zero
  have hzero : ∀ p, quantityExponent p a ≠ 0 → p ∈ unitQuantities := by
    intro p hp
    by_contra hcon
    refine hp ?_
    unfold quantityExponent
    rw [List.filter_eq_nil_iff.2 ?_]
    · rfl
    · intro t ht h
      obtain ⟨p', hp', he⟩ := hk t ht
      simp only [decide_eq_true_eq] at h
      rw [h, Option.some.injEq] at he
      exact hcon (he ▸ hp')
  have hone : ∀ t ∈ q, t.base ≠ one := by
    intro t ht hb
    have hl : q.length = 1 := by
      by_contra hl
      exact cq.numberNeOne t ht hb hl (nq.coeff t ht)
    obtain ⟨u, rfl⟩ := List.length_eq_one_iff.1 hl
    rw [List.mem_singleton] at ht
    subst ht
    obtain ⟨p, hp⟩ := hne
    have hpm := hzero p hp
    rw [← heq p hpm, expOf_cons, hb, if_neg (underscore_letters p hpm).2.2.2.1.symm] at hp
    exact hp (by simp [expOf])
  have hqt : QuantityTerms q := ⟨nq, cq, fun t ht => hbq t ht (hone t ht)⟩
  have hexp : ∀ t ∈ q, ∀ p ∈ unitQuantities, t.base = underscore p → t.exp = quantityExponent p a := by
    intro t ht p hp hb
    rw [← heq p hp, ← hb, expOf_of_nodup q cq.nodup t ht]
  have hsep : Separate q := by
    rintro ⟨h1, t, ht, hb⟩
    have e1 := hexp _ h1 c! "mass" (by decide +kernel) rfl
    have e2 := hexp t ht c! "number" (by decide +kernel) hb
    have := hmass e1.symm
    rw [this] at e2
    exact (nq.exp t ht).2 e2
  have hnum : q ≠ [⟨1, c! "mass_number", 1⟩] := by
    intro he
    have hmem : (⟨1, c! "mass_number", 1⟩ : Term) ∈ q := by rw [he]; simp
    have e1 := hexp _ hmem c! "mass number" (by decide +kernel) rfl
    obtain ⟨p, hp, hp0⟩ := hnuc e1.symm
    have hpm := hzero p hp0
    rw [← heq p hpm, he, expOf_cons] at hp0
    have : ¬ ((c! "mass_number" : Name) = underscore p) := by
      intro h
      refine hp ?_
      rw [← spaces_underscore p hpm, ← h]; rfl
    rw [if_neg this] at hp0
    exact hp0 (by simp [expOf])
  rw [target_eq ha hsrc hamb hq, hqt.substitution s hsep hnum]
  have hval : ∀ ρ, Positive ρ → (q.map (fun t => (canonOf s t.base).denote ρ id ^ (t.exp : ℝ))).prod =
      (a.map (fun t => value ρ (canonicalUnit s t.base) ^ (t.exp : ℝ))).prod := by
    intro ρ hρ
    have h1 := hvq (fun b => (canonOf s b).denote ρ id) (fun b => canonOf_denote_pos s hρ b)
    rw [value_names nq.coeff hone, value_names] at h1
    · rw [h1, List.map_map]
      congr 1
      refine List.map_congr_left (fun t ht => ?_)
      obtain ⟨p, hp, he⟩ := hk t ht
      rw [canonicalUnit_value s he hp hρ]
      simp only [Function.comp, quantityTerm, he, Option.getD_some]
    · intro t ht
      obtain ⟨u, _, rfl⟩ := List.mem_map.1 ht
      rfl
    · intro t ht
      obtain ⟨u, hu, rfl⟩ := List.mem_map.1 ht
      obtain ⟨p, hp, he⟩ := hk u hu
      simp only [quantityTerm, he, Option.getD_some]
      exact (underscore_letters p hp).2.2.2.1
  by_cases hsingle : ∃ p ∈ unitQuantities, ' ' ∉ p ∧ q = [⟨1, p, 1⟩]
  · obtain ⟨p, hp, hsp, he⟩ := hsingle
    have hus : underscore p = p := by
      unfold underscore
      conv_rhs => rw [← List.map_id p]
      refine List.map_congr_left (fun c hc => ?_)
      rw [if_neg]; rfl
      rintro rfl; exact hsp hc
    have hshow : showExpr q = p := by
      have := hqt.format (t := ⟨1, p, 1⟩) (by rw [he]; simp)
      rw [he]
      simpa [showExpr] using this
    obtain ⟨b, hb, _, nb, hv⟩ := plain_denotes (canonOf s (underscore p)) (canonOf_plain s _)
    refine ⟨_, b, by rw [hshow]; exact (canonOf_property s hp).2, hb, nb, fun ρ hρ => ?_⟩
    rw [hv ρ hρ, ← hval ρ hρ, he]
    simp [hus]
  · obtain ⟨b, h1, _, h3, h4, h5⟩ := hqt.units s hsep (fun p hp hsp he => hsingle ⟨p, hp, hsp, he⟩)
    exact ⟨_, b, h1, h4, h3, fun ρ hρ => by rw [h5 ρ hρ, hval ρ hρ]⟩

/-- a speed, an electric field and a number density -/
example : (∀ source ∈ [c! "km / h", c! "V / m", c! "cm^-3", c! "MeV cm^2 s^-1 G"], source ≠ c! "1" ∧ (exprOfString false source).toOption.isSome) ∧
    exprOfString false c! "km / h" = .ok [⟨1, c! "km", 1⟩, ⟨1, c! "h", -1⟩] ∧
    NamesOnly [⟨1, c! "km", 1⟩, ⟨1, c! "h", -1⟩] ∧
    (∀ t ∈ [(⟨1, c! "km", 1⟩ : Term), ⟨1, c! "h", -1⟩], ∃ e, namedUnits.getItem t.base = .ok e ∧ e.base.quantity ≠ c! "illuminance") ∧
    (∀ s ∈ [System.mks, .cgs], ∀ x ∈ sharedUnits s, exprEq x [⟨1, c! "km", 1⟩, ⟨1, c! "h", -1⟩] = false) ∧
    quantityExponent c! "length" [⟨1, c! "km", 1⟩, ⟨1, c! "h", -1⟩] = 1 ∧
    quantityExponent c! "mass" [⟨1, c! "km", 1⟩, ⟨1, c! "h", -1⟩] = 0 ∧
    quantityExponent c! "mass number" [⟨1, c! "km", 1⟩, ⟨1, c! "h", -1⟩] = 0 := by
  refine ⟨by decide +kernel, by decide +kernel, namesOnly_of _ (by decide +kernel), ?_, by decide +kernel, by decide +kernel,
    by decide +kernel, by decide +kernel⟩
  intro t ht
  simp only [List.mem_cons, List.not_mem_nil, or_false] at ht
  rcases ht with rfl | rfl
  · exact ⟨⟨⟨c! "k", c! "kilo", 10 ^ 3⟩, ⟨c! "m", c! "meter", c! "length"⟩⟩, by rw [c22_lookup]; decide +kernel, by decide +kernel⟩
  · exact ⟨⟨basePrefix, ⟨c! "h", c! "hour", c! "time"⟩⟩, by rw [c22_lookup]; decide +kernel, by decide +kernel⟩

/-- **C83**, a mass number alone is converted to the unit of mass. -/
theorem c83_mass_number (s : System) (source : Name) (a : List Term) (ha : exprOfString false source = .ok a) (na : NamesOnly a)
    (hsrc : source ≠ c! "1")
    (hu : ∀ t ∈ a, ∃ e, namedUnits.getItem t.base = .ok e ∧ e.base.quantity ≠ c! "illuminance")
    (hnuc : quantityExponent c! "mass number" a = 1) (hother : ∀ q, q ≠ c! "mass number" → quantityExponent q a = 0)
    (hamb : ∀ x ∈ sharedUnits s, exprEq x a = false) :
    systemTarget s source none = unitsOf s c! "mass" := by
  have hk := known_of hu
  obtain ⟨q, hq, nq, cq, hbq, heq, hvq⟩ := quantity_terms na hk
  have hmem : ∀ t ∈ q, t.base = c! "mass_number" ∨ t.base = one := by
    intro t ht
    by_cases hb : t.base = one
    · exact Or.inr hb
    · obtain ⟨p, hp, he⟩ := hbq t ht hb
      by_cases hpm : p = c! "mass number"
      · rw [he, hpm]; exact Or.inl rfl
      · exfalso
        have := heq p hp
        rw [hother p hpm, ← he, expOf_of_nodup q cq.nodup t ht] at this
        exact (nq.exp t ht).2 this
  have hqe : q = [⟨1, c! "mass_number", 1⟩] := by
    have h1 := heq c! "mass number" (by decide +kernel)
    rw [hnuc] at h1
    have hin : ∃ t ∈ q, t.base = c! "mass_number" := by
      by_contra hno
      have : expOf (underscore c! "mass number") q = 0 := expOf_of_not_mem q _ (fun hm => by
        obtain ⟨t, ht, he⟩ := List.mem_map.1 hm
        exact hno ⟨t, ht, he⟩)
      rw [this] at h1; exact zero_ne_one h1
    obtain ⟨t, ht, hb⟩ := hin
    have hte : t = ⟨1, c! "mass_number", 1⟩ := by
      have he : t.exp = 1 := by rw [← h1, ← expOf_of_nodup q cq.nodup t ht, hb]; rfl
      have hc := nq.coeff t ht
      cases t with
      | mk c b e => simp only at he hc hb; rw [he, hc, hb]
    have hall : ∀ u ∈ q, u = t := by
      intro u hu'
      rcases hmem u hu' with h | h
      · exact List.inj_on_of_nodup_map cq.nodup hu' ht (h.trans hb.symm)
      · exfalso
        have hl : q.length = 1 := by
          by_contra hl
          exact cq.numberNeOne u hu' h hl (nq.coeff u hu')
        obtain ⟨v, rfl⟩ := List.length_eq_one_iff.1 hl
        rw [List.mem_singleton] at ht hu'
        rw [hu', ← ht, hb] at h
        revert h; decide
    have hnd : q.Nodup := List.Nodup.of_map _ cq.nodup
    have : q = [t] := by
      match q, cq.nonempty, hall, hnd with
      | [x], _, hall, _ => rw [hall x (by simp)]
      | x :: y :: r, _, hall, hnd =>
        exfalso
        have hx := hall x (by simp)
        have hy := hall y (by simp)
        rw [hx, hy] at hnd
        simp at hnd
    rw [this, hte]
  rw [target_eq ha hsrc hamb hq, hqe]
  unfold substitution
  rw [if_pos (by decide +kernel)]

example : exprOfString false c! "nuc" = .ok [⟨1, c! "nuc", 1⟩] ∧ quantityExponent c! "mass number" [⟨1, c! "nuc", 1⟩] = 1 ∧
    unitsOf .mks c! "mass" = .ok c! "kg" := by decide +kernel

/-! ## The factor -/

/-- **C83**, the factor of a conversion found by name.  After any history of conversions, the unit is converted to the
unit of the system, and the factor is the quotient of the sizes. -/
theorem c83_factor (nodes : List Name) (systems : List System) (φ : Name → ℚ) (hφ : TableSizes φ) (s : System)
    (source unit : Name) (quantity : Option Name) (f g : ℚ)
    (ht : systemTarget s source quantity = .ok unit)
    (hf : convertAsStrings (realEnv nodes) source unit = some f) (hg : convertAsStrings (realEnv nodes) unit source = some g)
    (rs : List (Name × Name)) :
    (convertSystem (realConv nodes systems) (afterRequests (realConv nodes systems) [] rs) s source quantity).2 = .ok (unit, (f : ℝ)) ∧
      f = φ source / φ unit := by
  have hq := c19_quotient (realEnv nodes) φ hφ conversions_nodup source unit f hf
  refine ⟨?_, hq⟩
  unfold convertSystem
  rw [ht]
  dsimp only
  split
  next h =>
    have : φ source ≠ 0 := (hφ.pos source).ne'
    rw [h.1] at hq
    rw [h.1] at this
    rw [div_self this] at hq
    rw [hq]; simp
  next =>
    have h := c23_named nodes systems source unit f g hf hg rs
    cases hc : conversionFactory (realConv nodes systems) (afterRequests (realConv nodes systems) [] rs) source unit with
    | mk st r =>
      rw [hc] at h
      simp only at h
      subst h
      rfl

set_option maxHeartbeats 100000000 in
example : systemTarget .cgs c! "keV" none = .ok c! "erg" ∧ systemTarget .mks c! "h" none = .ok c! "s" ∧
    convertAsStrings (realEnv []) c! "h" c! "s" = some 3600 ∧ convertAsStrings (realEnv []) c! "s" c! "h" = some (1 / 3600) := by
  decide +kernel

/-- **C83**, the factor of a product of units, whenever its terms can be paired off with those of the unit of the system. -/
theorem c83_compound (nodes : List Name) (systems : List System) (φ : Name → ℚ) (hφ : TableSizes φ) (s : System)
    (source unit : Name) (quantity : Option Name) (a b q : List Term) (f : ℝ)
    (ht : systemTarget s source quantity = .ok unit)
    (hu : exprOfString false source = .ok a) (hv : exprOfString false unit = .ok b) (na : NamesOnly a) (nb : NamesOnly b)
    (hq : exprDiv a b = .ok q) (hneq : exprEq a b = false)
    (hdim : ∀ t ∈ a ++ b, (t.base ∈ unity ∨ dimensionless t.base = .ok true) → φ t.base = 1)
    (hstr : convertAsStrings (realEnv nodes) source unit = none)
    (hres : resolveTerms (realConv nodes systems) (q.filter (fun t => decide (t.base ∉ unity))) = .ok (some f)) :
    (convertSystem (realConv nodes systems) [] s source quantity).2 = .ok (unit, f) ∧
      f = value (fun n => (φ n : ℝ)) a / value (fun n => (φ n : ℝ)) b := by
  obtain ⟨h1, h2⟩ := c24_resolved nodes systems φ hφ source unit a b q f hu hv na nb hq hneq hdim hstr hres
  refine ⟨?_, h2⟩
  unfold convertSystem
  rw [ht]
  dsimp only
  rw [if_neg]
  · unfold conversionFactory
    simp only [Dict.get?, h1]
  · rintro ⟨rfl, _⟩
    rw [hu, Except.ok.injEq] at hv
    subst hv
    rw [exprEq_refl] at hneq; cases hneq

/-! ## What goes wrong -/

set_option maxHeartbeats 100000000 in
/-- **C83** is false of units that belong to several quantities: the second, the centimetre and the speed `cm / s` cannot be
converted to mks, although the second is the mks unit of time, nor `C / m^2` to cgs. -/
theorem c83_not_shared : systemTarget .mks c! "s" none = .error .conversion ∧ systemTarget .mks c! "cm" none = .error .conversion ∧
    systemTarget .mks c! "cm / s" none = .error .conversion ∧ systemTarget .cgs c! "C / m^2" none = .error .conversion := by
  decide +kernel

set_option maxHeartbeats 100000000 in
/-- **C83** is false of energies per nucleon: the nucleon is lost, and the number is multiplied as for an energy. -/
theorem c83_not_per_nucleon : systemTarget .mks c! "MeV / nuc" none = .ok c! "J" ∧ systemTarget .mks c! "MeV" none = .ok c! "J" ∧
    systemTarget .mks c! "nuc" none = .ok c! "kg" := by decide +kernel

set_option maxHeartbeats 100000000 in
/-- **C83** is false of a mass per count: its quantity is read as a mass number, and the mass is lost. -/
theorem c83_not_mass_number : systemTarget .mks c! "g / #" none = .ok c! "1" ∧
    systemTarget .mks c! "kg m / #" none = .ok c! "m" := by decide +kernel

set_option maxHeartbeats 100000000 in
/-- **C83** is false of ratios: `km / m` and `deg / rad` end in a `RecursionError`. -/
theorem c83_not_ratio : ∀ s ∈ [System.mks, .cgs], ∀ u ∈ [c! "km / m", c! "deg / rad"], systemTarget s u none = .error .recursion := by
  decide +kernel

end Eprem.Metric
