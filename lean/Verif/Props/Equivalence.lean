import Verif.Lemmas.Equivalence
import Verif.Lemmas.PyDict

/-!
# C123: metric quantities and systems as objects
-/

namespace Eprem.Metric

open Eprem Eprem.Symbolic

/-! ## Specification -/

/-- The exponent of a base dimension in a product of powers of units. -/
def unitExponent (s : System) (x : Name) (u : List Term) : ℚ :=
  (u.map (fun t => t.exp * DimExp.exponent x (dimOf s (baseOf t.base)))).sum

/-- The quantities measured in ohms, or in ohms and other units. -/
def ohmic : List Name := [c! "impedance", c! "resistance", c! "resistivity"]

/-! ## Equivalent quantities -/

theorem doubled_names : ∀ p ∈ quantities, p.1 ∉ ohmic → p.1 ∈ doubled.map Prod.fst := by decide +kernel

theorem doubled_eq (s : System) {u : List Term} (hn : ∀ t ∈ u, (named t.base).isSome = true) :
    doubledOf s u = baseDims.map (fun x => 2 * unitExponent s x u) := by
  unfold doubledOf unitExponent
  refine List.map_congr_left (fun x _ => ?_)
  congr 2
  refine List.map_congr_left (fun t ht => ?_)
  have := hn t ht
  cases h : named t.base with
  | none => rw [h] at this; cases this
  | some e => rw [baseOf_named h]

/-- what is known of a listed quantity in a system -/
theorem listed_row (s : System) {q : Name} (hq : q ∈ quantities.map Prod.fst) (h : q ∉ ohmic) :
    ∃ v u d, (∀ t ∈ u, (named t.base).isSome = true) ∧ canonChecked v = true ∧ propertiesUnit s q = .ok u ∧
      propertiesDimension s q = .ok (some d) ∧ d.Perm (canonDim v) ∧
      baseDims.map (fun x => 2 * unitExponent s x u) = v.map (fun (n : ℤ) => (n : ℚ)) := by
  obtain ⟨p, hp, rfl⟩ := List.mem_map.1 hq
  obtain ⟨r, hr, hrp⟩ := List.mem_map.1 (doubled_names p hp h)
  have hrow := row_of_listed s r hr
  rw [hrp] at hrow
  have hc : canonChecked (s.pick r.2) = true := by
    cases s
    · exact (canon_checked r hr).1
    · exact (canon_checked r hr).2
  unfold rowIsListed at hrow
  cases hu : propertiesUnit s p.1 with
  | error e => rw [hu] at hrow; cases hrow
  | ok u =>
    rw [hu] at hrow
    simp only [Bool.and_eq_true, List.all_eq_true, decide_eq_true_eq] at hrow
    obtain ⟨⟨hn, hv⟩, hd⟩ := hrow
    cases hds : unitDimensions u with
    | error e => rw [hds] at hd; cases hd
    | ok ds =>
      rw [hds] at hd
      cases hs : s.pick ds with
      | none => simp only [hs] at hd; cases hd
      | some d =>
        simp only [hs, decide_eq_true_eq] at hd
        refine ⟨s.pick r.2, u, d, hn, hc, rfl, ?_, hd, ?_⟩
        · unfold propertiesDimension
          rw [hu]
          show (do let d ← unitDimensions u; return s.pick d) = _
          rw [hds]
          exact congrArg Except.ok hs
        · rw [← doubled_eq s hn]
          exact hv

/-- what is compared in one system -/
theorem sameDimension_iff (s : System) {p q : Name} (hp : p ∈ quantities.map Prod.fst) (h : p ∉ ohmic)
    (hq : q ∈ quantities.map Prod.fst) (h' : q ∉ ohmic) :
    ∃ a b u v, propertiesDimension s p = .ok a ∧ propertiesDimension s q = .ok b ∧ propertiesUnit s p = .ok u ∧
      propertiesUnit s q = .ok v ∧ (propertiesSame a b = true ↔ ∀ x ∈ baseDims, unitExponent s x u = unitExponent s x v) := by
  obtain ⟨v, u, d, _, hc, hu, hd, hperm, hv⟩ := listed_row s hp h
  obtain ⟨w, u', e, _, hc', hu', he, hperm', hw⟩ := listed_row s hq h'
  refine ⟨some d, some e, u, u', hd, he, hu, hu', ?_⟩
  show exprEq d e = true ↔ _
  rw [canon_equal hc hc' hperm hperm']
  constructor
  · rintro rfl x hx
    have := List.map_inj_left.1 (hv.trans hw.symm) x hx
    linarith
  · intro hx
    have : v.map (fun (n : ℤ) => (n : ℚ)) = w.map (fun (n : ℤ) => (n : ℚ)) := by
      rw [← hv, ← hw]
      exact List.map_congr_left (fun x hm => by rw [hx x hm])
    exact List.map_injective_iff.2 Int.cast_injective this

/-- **C123**, listed quantities.  In each metric system, every listed quantity apart from the three measured in ohms has a
unit, which is a product of named units, and a dimension, which is that of the unit: a product of powers of the base
dimensions, with the exponents that the units have. -/
theorem c123_listed_partial (s : System) (q : Name) (hq : q ∈ quantities.map Prod.fst) (h : q ∉ ohmic) :
    ∃ u d, propertiesUnit s q = .ok u ∧ propertiesDimension s q = .ok (some d) ∧
      (∀ t ∈ u, ∃ e, namedUnits.getItem t.base = .ok e) ∧ (∀ t ∈ d, t.coeff = 1) ∧
      ∀ x ∈ baseDims, exponent x d = unitExponent s x u := by
  obtain ⟨v, u, d, hn, hc, hu, hd, hperm, hv⟩ := listed_row s hq h
  simp only [canonChecked, Bool.and_eq_true, List.all_eq_true, decide_eq_true_eq] at hc
  refine ⟨u, d, hu, hd, fun t ht => found_of_named _ (hn t ht), fun t ht => (hc.2 t (hperm.mem_iff.1 ht)).1.1, ?_⟩
  intro x hx
  have := List.map_inj_left.1 (hv.trans hc.1.1.symm) x hx
  rw [exponent_of_perm hperm]
  linarith

example : ∃ u d, propertiesUnit .cgs c! "viscosity" = .ok u ∧ propertiesDimension .cgs c! "viscosity" = .ok (some d) ∧
    (∀ t ∈ u, ∃ e, namedUnits.getItem t.base = .ok e) ∧ (∀ t ∈ d, t.coeff = 1) ∧
    ∀ x ∈ baseDims, exponent x d = unitExponent .cgs x u :=
  c123_listed_partial .cgs c! "viscosity" (by decide +kernel) (by decide +kernel)

/-- **C123**, equivalent quantities.  `p | q` holds for two listed quantities exactly if, in every metric system, their units
have the same exponents of all base dimensions, in whatever order the systems are compared. -/
theorem c123_equivalent_partial (order : List System) (ho : order = [.mks, .cgs] ∨ order = [.cgs, .mks]) (p q : Name)
    (hp : p ∈ quantities.map Prod.fst) (h : p ∉ ohmic) (hq : q ∈ quantities.map Prod.fst) (h' : q ∉ ohmic) :
    ∃ b, equivalentLoop p q order = .ok b ∧
      (b = true ↔ ∀ s u v, propertiesUnit s p = .ok u → propertiesUnit s q = .ok v →
        ∀ x ∈ baseDims, unitExponent s x u = unitExponent s x v) := by
  have step : ∀ s rest a b, propertiesDimension s p = .ok a → propertiesDimension s q = .ok b →
      equivalentLoop p q (s :: rest) = if propertiesSame a b then equivalentLoop p q rest else .ok false := by
    intro s rest a b ha hb
    rw [equivalentLoop, ha, hb]
    rfl
  have two : ∀ s t : System, (∀ r : System, r = s ∨ r = t) → ∃ b, equivalentLoop p q [s, t] = .ok b ∧
      (b = true ↔ ∀ s u v, propertiesUnit s p = .ok u → propertiesUnit s q = .ok v →
        ∀ x ∈ baseDims, unitExponent s x u = unitExponent s x v) := by
    intro s t hst
    obtain ⟨a, b, u, v, ha, hb, hu, hv, hab⟩ := sameDimension_iff s hp h hq h'
    obtain ⟨a', b', u', v', ha', hb', hu', hv', hab'⟩ := sameDimension_iff t hp h hq h'
    refine ⟨propertiesSame a b && propertiesSame a' b', ?_, ?_⟩
    · rw [step s [t] a b ha hb, step t [] a' b' ha' hb']
      cases propertiesSame a b <;> cases propertiesSame a' b' <;> rfl
    · rw [Bool.and_eq_true, hab, hab']
      constructor
      · rintro ⟨h1, h2⟩ r w z hw hz
        rcases hst r with rfl | rfl
        · rw [hu] at hw; rw [hv] at hz; cases hw; cases hz; exact h1
        · rw [hu'] at hw; rw [hv'] at hz; cases hw; cases hz; exact h2
      · intro hall
        exact ⟨hall s u v hu hv, hall t u' v' hu' hv'⟩
  rcases ho with rfl | rfl
  · exact two _ _ (by intro r; cases r <;> simp)
  · exact two _ _ (by intro r; cases r <;> simp)

example : ∃ b, equivalentLoop c! "energy" c! "work" [.mks, .cgs] = .ok b ∧
    (b = true ↔ ∀ s u v, propertiesUnit s c! "energy" = .ok u → propertiesUnit s c! "work" = .ok v →
      ∀ x ∈ baseDims, unitExponent s x u = unitExponent s x v) :=
  c123_equivalent_partial _ (.inl rfl) _ _ (by decide +kernel) (by decide +kernel) (by decide +kernel) (by decide +kernel)

set_option maxHeartbeats 100000000 in
/-- **C123**: energy is equivalent to work, and not to torque per area. -/
theorem c123_energy : equivalentLoop c! "energy" c! "work" [.mks, .cgs] = .ok true ∧
    equivalentLoop c! "energy" c! "pressure" [.mks, .cgs] = .ok false := by decide +kernel

/-- **C123**: `|` is symmetric, for any two names, and transitive. -/
theorem c123_equivalence (order : List System) (p q r : Name) :
    (equivalentLoop p q order = .ok true → equivalentLoop q p order = .ok true) ∧
      (equivalentLoop p q order = .ok true → equivalentLoop q r order = .ok true → equivalentLoop p r order = .ok true) := by
  have unfold1 : ∀ (p q : Name) s rest, equivalentLoop p q (s :: rest) = .ok true ↔
      ∃ a b, propertiesDimension s p = .ok a ∧ propertiesDimension s q = .ok b ∧ propertiesSame a b = true ∧
        equivalentLoop p q rest = .ok true := by
    intro p q s rest
    rw [equivalentLoop]
    cases propertiesDimension s p with
    | error e => exact ⟨nofun, nofun⟩
    | ok a =>
      cases propertiesDimension s q with
      | error e => exact ⟨nofun, nofun⟩
      | ok b =>
        show (if propertiesSame a b = true then equivalentLoop p q rest else .ok false) = .ok true ↔ _
        cases hs : propertiesSame a b with
        | false =>
          constructor
          · intro h; cases h
          · rintro ⟨_, _, h1, h2, h3, _⟩; cases h1; cases h2; rw [hs] at h3; cases h3
        | true =>
          constructor
          · intro h; exact ⟨a, b, rfl, rfl, hs, h⟩
          · rintro ⟨_, _, _, _, _, h⟩; exact h
  have symm : ∀ a b, propertiesSame a b = true → propertiesSame b a = true := by
    rintro (_ | a) (_ | b) h
    · rfl
    · exact h
    · exact h
    · exact exprEq_symm h
  have trans : ∀ a b c, propertiesSame a b = true → propertiesSame b c = true → propertiesSame a c = true := by
    rintro (_ | a) (_ | b) (_ | c) h h' <;> first | rfl | (cases h; done) | (cases h'; done) | exact exprEq_trans h h'
  induction order with
  | nil => exact ⟨fun _ => rfl, fun _ _ => rfl⟩
  | cons s rest ih =>
    refine ⟨?_, ?_⟩
    · intro h
      obtain ⟨a, b, h1, h2, h3, h4⟩ := (unfold1 p q s rest).1 h
      exact (unfold1 q p s rest).2 ⟨b, a, h2, h1, symm a b h3, ih.1 h4⟩
    · intro h h'
      obtain ⟨a, b, h1, h2, h3, h4⟩ := (unfold1 p q s rest).1 h
      obtain ⟨b', c, h1', h2', h3', h4'⟩ := (unfold1 q r s rest).1 h'
      rw [h2] at h1'
      cases h1'
      exact (unfold1 p r s rest).2 ⟨a, c, h1, h2', trans a b c h3 h3', ih.2 h4 h4'⟩

example : equivalentLoop c! "work" c! "energy" [.mks, .cgs] = .ok true :=
  (c123_equivalence _ _ _ c! "work").1 c123_energy.1

set_option maxHeartbeats 100000000 in
/-- **C123**, violated: the quantities measured in ohms have no unit in mks, so they are not even equivalent to themselves. -/
theorem c123_ohmic : ∀ q ∈ ohmic, propertiesUnit .mks q = .error .value ∧
    equivalentLoop q q [.mks, .cgs] = .error .value ∧ equivalentLoop q q [.cgs, .mks] = .error .value := by decide +kernel

set_option maxHeartbeats 100000000 in
/-- **C123**, violated: what is no quantity is neither in a metric system nor not in it: the search for it recurses. -/
theorem c123_missing : ∀ s ∈ [System.mks, .cgs], ∀ q ∈ [c! "nonsense", c! "Colour", c! "m"],
    inSystem s q = .error .recursion := by decide +kernel

/-- **C123**: the keys of a metric system are the listed quantities; each but the three is in the system, however it is
spelled. -/
theorem c123_keys_partial (s : System) (q key : Name) (hq : q ∈ systemKeys) (h : q ∉ ohmic) (hk : lower key = q) :
    inSystem s key = .ok true := by
  obtain ⟨_, u, _, _, _, hu, _⟩ := listed_row s hq h
  unfold inSystem
  rw [hk, hu]
  rfl

example : inSystem .mks c! "Energy Density" = .ok true :=
  c123_keys_partial .mks c! "energy density" _ (by decide +kernel) (by decide +kernel) (by decide +kernel)

/-! ## Objects -/

/-- The objects that a sequence of calls gives. -/
def singles (r : Singletons) : List Name → List Single
  | [] => []
  | n :: ns => (single r n).2 :: singles (single r n).1 ns

/-- different names have different objects -/
def Singletons.Sound (r : Singletons) : Prop :=
  (∀ n i, r.table.get? n = some i → i < r.count) ∧ ∀ n m i, r.table.get? n = some i → r.table.get? m = some i → n = m

theorem single_spec {r : Singletons} (hr : r.Sound) (n : Name) :
    (single r n).1.Sound ∧ (single r n).2.name = lower n ∧
      (single r n).1.table.get? (lower n) = some (single r n).2.id ∧
      ∀ m i, r.table.get? m = some i → (single r n).1.table.get? m = some i := by
  unfold single
  cases h : r.table.get? (lower n) with
  | some i => exact ⟨hr, rfl, h, fun _ _ hm => hm⟩
  | none =>
    refine ⟨⟨?_, ?_⟩, rfl, ?_, ?_⟩
    · intro m i hm
      rw [Dict.get?_set] at hm
      split at hm
      · cases hm; exact Nat.lt_succ_self _
      · exact Nat.lt_succ_of_lt (hr.1 m i hm)
    · intro m k i hm hk
      rw [Dict.get?_set] at hm hk
      split at hm <;> split at hk
      · next h1 h2 => exact h1.symm.trans h2
      · cases hm; exact absurd (hr.1 k _ hk) (lt_irrefl _)
      · cases hk; exact absurd (hr.1 m _ hm) (lt_irrefl _)
      · exact hr.2 m k i hm hk
    · rw [Dict.get?_set, if_pos rfl]
    · intro m i hm
      rw [Dict.get?_set]
      split
      · next he => rw [← he, h] at hm; cases hm
      · exact hm

theorem singles_spec (ns : List Name) : ∀ r : Singletons, r.Sound → ∃ r' : Singletons, r'.Sound ∧
    (∀ m i, r.table.get? m = some i → r'.table.get? m = some i) ∧
    List.Forall₂ (fun n (p : Single) => p.name = lower n ∧ r'.table.get? (lower n) = some p.id) ns (singles r ns) := by
  induction ns with
  | nil => intro r hr; exact ⟨r, hr, fun _ _ h => h, .nil⟩
  | cons n ns ih =>
    intro r hr
    obtain ⟨h1, h2, h3, h4⟩ := single_spec hr n
    obtain ⟨r', h5, h6, h7⟩ := ih _ h1
    exact ⟨r', h5, fun m i h => h6 m i (h4 m i h), .cons ⟨h2, h6 _ _ h3⟩ h7⟩

/-- **C123**, singletons.  Whatever quantities (or systems) a program asks for, in whatever order and spelling, it gets the
same object for two names exactly if they agree up to case; an object equals a text exactly if the text is its name up to
case. -/
theorem c123_single (ns : List Name) (i j : Nat) (n m : Name) (hi : ns[i]? = some n) (hj : ns[j]? = some m) :
    ∃ p q, (singles ⟨[], 0⟩ ns)[i]? = some p ∧ (singles ⟨[], 0⟩ ns)[j]? = some q ∧
      (p.same q = true ↔ lower n = lower m) ∧ ∀ text, p.eqText text = true ↔ lower text = lower n := by
  obtain ⟨r', h1, _, h3⟩ := singles_spec ns ⟨[], 0⟩ ⟨nofun, nofun⟩
  have at_ : ∀ (i : Nat) n, ns[i]? = some n → ∃ p, (singles ⟨[], 0⟩ ns)[i]? = some p ∧ p.name = lower n ∧
      r'.table.get? (lower n) = some p.id := by
    intro i n hi
    obtain ⟨hlt, hget⟩ := List.getElem?_eq_some_iff.1 hi
    have hlen := h3.length_eq
    have := h3.get hlt (by omega)
    refine ⟨_, List.getElem?_eq_getElem (by omega), ?_⟩
    simp only [List.get_eq_getElem, hget] at this
    exact this
  obtain ⟨p, hp, hpn, hpi⟩ := at_ i n hi
  obtain ⟨q, hq, hqn, hqi⟩ := at_ j m hj
  refine ⟨p, q, hp, hq, ?_, ?_⟩
  · unfold Single.same
    rw [decide_eq_true_eq]
    constructor
    · intro h
      rw [← h] at hqi
      exact h1.2 _ _ _ hpi hqi
    · intro h
      rw [h] at hpi
      rw [hpi] at hqi
      exact Option.some.inj hqi
  · intro text
    unfold Single.eqText
    rw [decide_eq_true_eq, hpn]

example : ∃ p q, (singles ⟨[], 0⟩ [c! "Energy", c! "work", c! "energy"])[0]? = some p ∧
    (singles ⟨[], 0⟩ [c! "Energy", c! "work", c! "energy"])[2]? = some q ∧
      (p.same q = true ↔ lower c! "Energy" = lower c! "energy") ∧
      ∀ text, p.eqText text = true ↔ lower text = lower c! "Energy" :=
  c123_single _ 0 2 _ _ rfl rfl

end Eprem.Metric
