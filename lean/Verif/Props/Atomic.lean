import Verif.Model.Atomic
import Verif.Lemmas.PyDict
import Mathlib.Tactic.Linarith
import Mathlib.Tactic.Ring
import Mathlib.Data.List.GetD

/-!
# Atomic species (C59)
-/

namespace Eprem.Atomic

open Eprem Eprem.Symbolic Eprem.Metric

/-! ## Symbols -/

theorem sumSigns_replicate (n : Nat) : sumSigns (List.replicate n '+') = n ∧ sumSigns (List.replicate n '-') = -n := by
  induction n with
  | zero => exact ⟨rfl, rfl⟩
  | succ n ih =>
    refine ⟨?_, ?_⟩
    · rw [List.replicate_succ, sumSigns, ih.1]; simp; ring
    · rw [List.replicate_succ, sumSigns, ih.2]; simp

/-- A text without signs, followed by signs. -/
theorem base_append {b s : Str} (hb : ∀ c ∈ b, isSign c = false) (hs : ∀ c ∈ s, isSign c = true) : base (b ++ s) = b := by
  unfold base
  rw [List.reverse_append, List.dropWhile_append_of_pos (by simpa using hs)]
  cases hr : b.reverse with
  | nil => simp [List.reverse_eq_nil_iff.1 hr]
  | cons c l =>
    have : isSign c = false := hb c (List.mem_reverse.1 (by rw [hr]; simp))
    rw [List.dropWhile_cons_of_neg (by simp [this]), ← hr, List.reverse_reverse]

theorem charge_append {b s : Str} (hb : ∀ c ∈ b, isSign c = false) (hs : ∀ c ∈ s, isSign c = true) :
    charge (b ++ s) = sumSigns s := by
  unfold charge
  rw [base_append hb hs, List.dropWhile_append_of_pos (by simp)]
  cases s with
  | nil => rfl
  | cons c s =>
    rw [List.dropWhile_cons_of_neg]
    rw [List.contains_iff_mem]
    intro hc
    have := hb c hc
    rw [hs c (by simp)] at this
    cases this

/-- **C59**, symbols: the charge of a species is the number of plus signs, or minus the number of minus signs. -/
theorem c59_symbol {b : Str} (hb : ∀ c ∈ b, c ≠ '+' ∧ c ≠ '-') (n : Nat) :
    charge (b ++ List.replicate n '+') = n ∧ charge (b ++ List.replicate n '-') = -n := by
  have hb' : ∀ c ∈ b, isSign c = false := fun c hc => by simp [isSign, hb c hc]
  constructor
  · rw [charge_append hb' (by intro c hc; rw [(List.mem_replicate.1 hc).2]; decide), (sumSigns_replicate n).1]
  · rw [charge_append hb' (by intro c hc; rw [(List.mem_replicate.1 hc).2]; decide), (sumSigns_replicate n).2]

example : charge (c! "He++") = 2 := (c59_symbol (b := c! "He") (by decide) 2).1

/-! ## Masses and charges -/

theorem truncate_intCast (n : Int) : truncate (n : Rat) = n := by
  unfold truncate
  split
  · rw [Rat.floor_intCast]
  · rw [← Rat.intCast_neg, Rat.floor_intCast, neg_neg]

theorem roundEven_intCast (n : Int) : roundEven (n : Rat) = n := by
  unfold roundEven
  simp only [Rat.floor_intCast, sub_self]
  rw [if_pos (by norm_num)]

theorem signs_ok (c : Rat) : (∀ x ∈ signs c, isSign x = true) ∧ sumSigns (signs c) = truncate c := by
  refine ⟨?_, ?_⟩
  · intro x hx
    rw [(List.mem_replicate.1 hx).2]
    split <;> decide
  · unfold signs
    by_cases h : 0 < c
    · rw [if_pos h, (sumSigns_replicate _).1]
      have : 0 ≤ truncate c := by
        unfold truncate
        rw [if_pos h.le, Rat.le_floor_iff]
        exact_mod_cast h.le
      omega
    · rw [if_neg h, (sumSigns_replicate _).2]
      have : truncate c ≤ 0 := by
        unfold truncate
        split
        next h0 =>
          have : c = 0 := le_antisymm (not_lt.1 h) h0
          subst this
          decide
        next h0 =>
          have : 0 ≤ (-c).floor := by
            rw [Rat.le_floor_iff]
            have : c < 0 := not_le.1 h0
            simp only [Int.cast_zero]
            linarith
          omega
      omega

set_option maxHeartbeats 100000000 in
theorem symbols_nodup : (elementRows.map (fun r => r.1)).Nodup := by decide +kernel

theorem symbols_letters : ∀ r ∈ elementRows, ∀ c ∈ r.1, isSign c = false := by
  have h : elementRows.all (fun r => r.1.all (fun c => !isSign c)) = true := by decide +kernel
  intro r hr c hc
  have := List.all_eq_true.1 (List.all_eq_true.1 h r hr) c hc
  simpa using this

set_option maxHeartbeats 100000000 in
theorem mass_symbol : ∀ r ∈ elementRows, Container.findUnique ELEMENTS (.text r.1) =
    .ok [(c! "symbol", .text r.1), (c! "name", .text r.2.1), (c! "mass", .num r.2.2)] := by
  have h : elementRows.all (fun r => match Container.findUnique ELEMENTS (.text r.1) with
      | .ok d => decide (d = [(c! "symbol", .text r.1), (c! "name", .text r.2.1), (c! "mass", .num r.2.2)])
      | .error _ => false) = true := by decide +kernel
  intro r hr
  have := List.all_eq_true.1 h r hr
  cases hf : Container.findUnique ELEMENTS (.text r.1) with
  | error e => rw [hf] at this; cases this
  | ok d => rw [hf] at this; rw [of_decide_eq_true this]

/-- **C59**, symbols: the mass of a species is the mass of its element. -/
theorem c59_mass {r : Str × Str × Rat} (hr : r ∈ elementRows) {s : Str} (hs : ∀ c ∈ s, c = '+' ∨ c = '-') :
    mass (r.1 ++ s) = .ok r.2.2 := by
  unfold mass
  rw [base_append (symbols_letters r hr) (by intro c hc; rcases hs c hc with rfl | rfl <;> decide), mass_symbol r hr]
  rfl

theorem nucleons_eq : nucleons = elementRows.map (fun r => (r.1, roundEven r.2.2)) := by
  unfold nucleons
  rw [Dict.ofItems_nodup]
  rw [List.map_map]
  exact symbols_nodup

theorem indexOf_some {x : Int} : ∀ {l : List Int} {i : Nat}, indexOf? x l = some i → l[i]? = some x
  | [], _, h => by cases h
  | y :: l, i, h => by
    rw [indexOf?] at h
    split at h
    next he => cases h; simp [he]
    next he =>
      obtain ⟨j, hj, rfl⟩ := Option.map_eq_some_iff.1 h
      simpa using indexOf_some hj

theorem indexOf_none {x : Int} : ∀ {l : List Int}, indexOf? x l = none ↔ x ∉ l
  | [] => by simp [indexOf?]
  | y :: l => by
    rw [indexOf?]
    split
    next he => simp [he]
    next he =>
      rw [Option.map_eq_none_iff, indexOf_none, List.mem_cons, not_or]
      exact ⟨fun h => ⟨fun h' => he h'.symm, h⟩, fun h => h.2⟩

/-- There is an element with this number of nucleons. -/
def Known (n : Int) : Prop := ∃ r ∈ elementRows, roundEven r.2.2 = n

theorem known_iff (n : Int) : Known n ↔ n ∈ nucleons.values := by
  rw [nucleons_eq]
  unfold Known Dict.values
  rw [List.map_map, List.mem_map]
  rfl

theorem getMassIndices_ok {ts : List Rat} (h : ∀ t ∈ ts, Known (roundEven t)) :
    ∃ l, getMassIndices nucleons.values ts = .ok l ∧ l.length = ts.length ∧
      ∀ i (hi : i < l.length) (hi' : i < ts.length), ∃ r, elementRows[l[i]]? = some r ∧ roundEven r.2.2 = roundEven ts[i] := by
  induction ts with
  | nil => exact ⟨[], rfl, rfl, fun i hi => absurd hi (by simp)⟩
  | cons t ts ih =>
    obtain ⟨l, hl, hlen, hrow⟩ := ih (fun t' ht => h t' (by simp [ht]))
    cases hx : indexOf? (roundEven t) nucleons.values with
    | none => exact absurd ((known_iff _).1 (h t (by simp))) (indexOf_none.1 hx)
    | some k =>
      refine ⟨k :: l, by simp only [getMassIndices, hx, hl], by simp [hlen], ?_⟩
      intro i hi hi'
      cases i with
      | succ i => exact hrow i (by simpa using hi) (by simpa using hi')
      | zero =>
        have := indexOf_some hx
        rw [nucleons_eq] at this
        unfold Dict.values at this
        rw [List.map_map, List.getElem?_map, Option.map_eq_some_iff] at this
        obtain ⟨r, hr, he⟩ := this
        exact ⟨r, hr, he⟩

theorem getMassIndices_error {ts : List Rat} {t : Rat} (ht : t ∈ ts) (hn : ¬ Known (roundEven t)) :
    ∃ t' ∈ ts, ¬ Known (roundEven t') ∧ getMassIndices nucleons.values ts = .error (.mass (roundEven t')) := by
  induction ts with
  | nil => cases ht
  | cons u ts ih =>
    cases hx : indexOf? (roundEven u) nucleons.values with
    | none =>
      refine ⟨u, by simp, ?_, by simp only [getMassIndices, hx]⟩
      rw [known_iff]; exact indexOf_none.1 hx
    | some k =>
      have hu : Known (roundEven u) := by
        rw [known_iff]; by_contra hc; rw [indexOf_none.2 hc] at hx; cases hx
      have : t ∈ ts := by
        rcases List.mem_cons.1 ht with rfl | h
        · exact absurd hu hn
        · exact h
      obtain ⟨t', h1, h2, h3⟩ := ih this
      exact ⟨t', by simp [h1], h2, by simp only [getMassIndices, hx, h3]⟩

/-- **C59**: the symbols for given masses and charges.  Each one belongs to an element with the number of nucleons nearest to
the mass; the species has the charge, without its fractional part, and the mass of the element. -/
theorem c59_elements {ms cs : List Rat} (hlen : ms.length = cs.length) (h : ∀ m ∈ ms, Known (roundEven m)) :
    ∃ l, elements ms cs = .ok l ∧ l.length = ms.length ∧ ∀ i (hi : i < l.length) (hm : i < ms.length) (hc : i < cs.length),
      ∃ r ∈ elementRows, base l[i] = r.1 ∧ roundEven r.2.2 = roundEven ms[i] ∧ mass l[i] = .ok r.2.2 ∧
        charge l[i] = truncate cs[i] := by
  obtain ⟨idx, hidx, hl, hrow⟩ := getMassIndices_ok h
  have he : elements ms cs = .ok (List.zipWith (· ++ ·) (idx.map (fun m => (nucleons.keys[m]?).getD [])) (cs.map signs)) := by
    unfold elements
    rw [if_neg (by simpa using hlen), hidx]
  refine ⟨_, he, by simp [hl, hlen], ?_⟩
  intro i hi hm hc
  obtain ⟨r, hr, hrn⟩ := hrow i (by omega) hm
  have hrm : r ∈ elementRows := List.mem_of_getElem? hr
  have hkey : (nucleons.keys[idx[i]'(by omega)]?).getD [] = r.1 := by
    rw [nucleons_eq]
    unfold Dict.keys
    rw [List.map_map, List.getElem?_map, hr]
    rfl
  have hli : (List.zipWith (· ++ ·) (idx.map (fun m => (nucleons.keys[m]?).getD [])) (cs.map signs))[i] = r.1 ++ signs cs[i] := by
    rw [List.getElem_zipWith, List.getElem_map, List.getElem_map, hkey]
  have hs := signs_ok cs[i]
  refine ⟨r, hrm, ?_, hrn, ?_, ?_⟩
  · rw [hli, base_append (symbols_letters r hrm) hs.1]
  · rw [hli]
    refine c59_mass hrm ?_
    intro c hc
    have := hs.1 c hc
    simpa [isSign] using this
  · rw [hli, charge_append (symbols_letters r hrm) hs.1, hs.2]

/-- **C59**: different numbers of masses and charges are rejected, and so is a mass that belongs to no element. -/
theorem c59_rejected {ms cs : List Rat} : (ms.length ≠ cs.length → elements ms cs = .error .type) ∧
    (ms.length = cs.length → ∀ m ∈ ms, ¬ Known (roundEven m) → ∃ m' ∈ ms, ¬ Known (roundEven m') ∧
      elements ms cs = .error (.mass (roundEven m'))) := by
  refine ⟨fun h => by unfold elements; rw [if_pos h], ?_⟩
  intro hl m hm hn
  obtain ⟨m', h1, h2, h3⟩ := getMassIndices_error hm hn
  refine ⟨m', h1, h2, ?_⟩
  unfold elements
  rw [if_neg (by simpa using hl), h3]

/-- **C59**: a species made from an integral mass `A` and charge `q` has the charge `q` and belongs to an element with `A`
nucleons, if there is one. -/
theorem c59_species {A : Int} (q : Int) (h : Known A) : ∃ s, species A q = .ok s ∧ charge s = q ∧
    ∃ r ∈ elementRows, base s = r.1 ∧ mass s = .ok r.2.2 ∧ roundEven r.2.2 = A := by
  obtain ⟨l, hl, hlen, hi⟩ := c59_elements (ms := [(A : Rat)]) (cs := [(q : Rat)]) rfl (by
    intro m hm; rw [List.mem_singleton] at hm; subst hm; rw [roundEven_intCast]; exact h)
  match l, hlen with
  | [s], _ =>
    obtain ⟨r, hr, h1, h2, h3, h4⟩ := hi 0 (by simp) (by simp) (by simp)
    refine ⟨s, by unfold species; rw [hl]; rfl, ?_, r, hr, h1, h3, ?_⟩
    · simpa [truncate_intCast] using h4
    · rw [h2]; exact roundEven_intCast A

/-- **C59**: without such an element, the mass is rejected. -/
theorem c59_unknown {A : Int} (q : Int) (h : ¬ Known A) : species A q = .error (.mass A) := by
  obtain ⟨m, hm, -, he⟩ := (c59_rejected (ms := [(A : Rat)]) (cs := [(q : Rat)])).2 rfl A (by simp) (by rwa [roundEven_intCast])
  rw [List.mem_singleton] at hm
  subst hm
  unfold species
  rw [he, roundEven_intCast]

instance (n : Int) : Decidable (Known n) := inferInstanceAs (Decidable (∃ r ∈ elementRows, _))

example : Known 4 ∧ ¬ Known 5 := by decide +kernel
example : (species 4 2).toOption = some (c! "He++") := by decide +kernel

set_option maxHeartbeats 100000000 in
/-- **C59**: the element itself is found again from its mass, except for calcium, cobalt, polonium, curium and dubnium:
these share their number of nucleons with argon, nickel, bismuth, berkelium and bohrium. -/
theorem c59_not_all (q : Int) : ∀ r ∈ elementRows, (∃ s, species r.2.2 q = .ok s ∧ base s = r.1) ↔
    r.1 ∉ ([c! "Ca", c! "Co", c! "Po", c! "Cm", c! "Db"] : List Str) := by
  have key : elementRows.all (fun r => match getMassIndices nucleons.values [r.2.2] with
      | .ok [i] => decide ((nucleons.keys[i]?).getD [] ∈ elementRows.map (fun r => r.1)) &&
        (decide ((nucleons.keys[i]?).getD [] = r.1) == decide (r.1 ∉ ([c! "Ca", c! "Co", c! "Po", c! "Cm", c! "Db"] : List Str)))
      | _ => false) = true := by decide +kernel
  intro r hr
  have h := List.all_eq_true.1 key r hr
  cases hx : getMassIndices nucleons.values [r.2.2] with
  | error e => rw [hx] at h; cases h
  | ok l =>
    match l, hx with
    | [], hx => rw [hx] at h; cases h
    | _ :: _ :: _, hx => rw [hx] at h; cases h
    | [i], hx =>
      rw [hx] at h
      simp only [Bool.and_eq_true, decide_eq_true_eq, beq_iff_eq, decide_eq_decide] at h
      obtain ⟨hmem, hiff⟩ := h
      obtain ⟨r', hr', hk⟩ := List.mem_map.1 hmem
      have hs : species r.2.2 q = .ok (r'.1 ++ signs q) := by
        unfold species elements
        rw [if_neg (by simp), hx]
        simp [hk]
      have hb : base (r'.1 ++ signs q) = r'.1 := base_append (symbols_letters r' hr') (signs_ok q).1
      rw [← hiff, ← hk]
      constructor
      · rintro ⟨s, h1, h2⟩
        rw [hs] at h1
        cases h1
        rw [hb] at h2
        exact h2
      · intro h1
        exact ⟨_, hs, by rw [hb, h1]⟩

/-- **C59** fails for charges that are not integers: the fractional part is lost. -/
theorem c59_not_fraction : (species 4 (3 / 2)).toOption = some (c! "He+") ∧ charge (c! "He+") = 1 := by decide +kernel

end Eprem.Atomic
