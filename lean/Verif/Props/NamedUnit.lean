import Verif.Lemmas.NamedUnit
import Verif.Props.Metric

/-!
# C118: the metric systems of named units, and their comparison

`namedUnits.getItem n` is the unit that `NamedUnit(n)` creates.  `System.isMks` names the system for the
specification.
-/

namespace Eprem.Metric

open Eprem Eprem.Symbolic

theorem illuminance_lux : ∀ u ∈ baseUnits, u.quantity = c! "illuminance" → u.symbol = c! "lx" := by decide +kernel

/-- **C118**, the fundamental units.  A unit, under whatever spelling it was created, is the fundamental unit of a metric
system exactly if it belongs to the system and has the prefix the system builds on: the kilogram, the centimeter, and
every other unit without a prefix.  The two units of light, the lumen and the lux, are left out. -/
theorem c118_fundamental_partial (n : Name) (e : Entry) (h : namedUnits.getItem n = .ok e) (hl : e.base.symbol ≠ c! "lm")
    (hx : e.base.symbol ≠ c! "lx") (s : System) :
    isFundamentalIn e s =
      .ok (decide (e.base.symbol ∈ unitsIn s.isMks ∧ e.prefix_.factor = standardPrefix s.isMks e.base.symbol)) := by
  obtain ⟨p, hp, rfl, hu, hn⟩ := entry_item h
  have hq : p.2.base.quantity ≠ c! "illuminance" := fun hc => hx (illuminance_lux _ hu hc)
  unfold isFundamentalIn
  rw [unitsOf_canon hu hq]
  simp only [bind, Except.bind, pure, Except.pure]
  rw [canon_standard _ hu hq hl s (mem_systems s) p hp]

/-- the kilogram, the gram and the centimeter -/
example : (namedUnits.getItem c! "kilogram").toOption.map (fun e => (e.prefix_.factor, e.base.symbol)) = some (1000, c! "g") ∧
    c! "g" ∈ unitsIn true ∧ standardPrefix true c! "g" = 1000 ∧ standardPrefix false c! "g" = 1 ∧
    standardPrefix false c! "m" = 1 / 100 := by
  rw [c22_lookup]
  decide +kernel

/-- **C118**, the units of a system.  A unit is defined in a metric system exactly if it belongs to the system, whatever
its prefix. -/
theorem c118_defined_partial (n : Name) (e : Entry) (h : namedUnits.getItem n = .ok e) (hl : e.base.symbol ≠ c! "lm")
    (hx : e.base.symbol ≠ c! "lx") (s : System) :
    isDefinedIn e s = .ok (decide (e.base.symbol ∈ unitsIn s.isMks)) := by
  obtain ⟨p, hp, rfl, hu, hn⟩ := entry_item h
  have hq : p.2.base.quantity ≠ c! "illuminance" := fun hc => hx (illuminance_lux _ hu hc)
  rw [isDefinedIn_eq hn, unitsOf_canon hu hq]
  simp only
  rw [← canon_named _ hu hq hl s (mem_systems s)]
  cases named (canonName s p.2.base.quantity) with
  | none => simp
  | some r => simp

example : (namedUnits.getItem c! "megajoule").toOption.map (fun e => e.base.symbol) = some c! "J" ∧
    c! "J" ∈ unitsIn true ∧ c! "J" ∉ unitsIn false := by
  rw [c22_lookup]
  decide +kernel

/-- **C118**, the units that a system admits: its own units, and the units that belong to neither system. -/
theorem c118_allowed_partial (n : Name) (e : Entry) (h : namedUnits.getItem n = .ok e) (hl : e.base.symbol ≠ c! "lm")
    (hx : e.base.symbol ≠ c! "lx") (s : System) :
    isAllowedIn e s = .ok (decide (e.base.symbol ∈ unitsIn s.isMks ∨ ∀ b, e.base.symbol ∉ unitsIn b)) := by
  have hm := c118_defined_partial n e h hl hx .mks
  have hc := c118_defined_partial n e h hl hx .cgs
  unfold isAllowedIn
  rw [hm, hc]
  simp only [bind, Except.bind, pure, Except.pure, System.isMks, Bool.forall_bool]
  by_cases h1 : e.base.symbol ∈ unitsIn true <;> by_cases h2 : e.base.symbol ∈ unitsIn false <;> cases s <;>
    simp [h1, h2, System.isMks]

example : (namedUnits.getItem c! "keV").toOption.map (fun e => e.base.symbol) = some c! "eV" ∧
    ∀ b, c! "eV" ∉ unitsIn b := by
  rw [c22_lookup]
  decide +kernel

/-! ## Consequences, for every unit -/

/-- **C118**: a fundamental unit of a system is defined in it, and a unit that is defined in a system is admitted by it. -/
theorem c118_order (n : Name) (e : Entry) (h : namedUnits.getItem n = .ok e) (s : System) :
    (isFundamentalIn e s = .ok true → isDefinedIn e s = .ok true) ∧
      (isDefinedIn e s = .ok true → ∃ a, isAllowedIn e s = .ok a ∧ a = true) := by
  obtain ⟨p, hp, hpe, hu, hn⟩ := entry_item h
  refine ⟨fun hf => by unfold isDefinedIn; rw [hf]; rfl, fun hd => ?_⟩
  by_cases hx : e.base.quantity = c! "illuminance"
  · have hlx : ∀ s ∈ [System.mks, System.cgs], unitsOf s c! "illuminance" = .error .recursion := by decide +kernel
    rw [isDefinedIn_eq hn, hx, hlx s (mem_systems s)] at hd
    cases hd
  · have key : ∀ s, ∃ b, isDefinedIn e s = .ok b := fun s => by
      rw [isDefinedIn_eq hn, unitsOf_canon hu hx]
      exact ⟨_, rfl⟩
    obtain ⟨m, hm⟩ := key .mks
    obtain ⟨c, hc⟩ := key .cgs
    unfold isAllowedIn
    rw [hm, hc]
    cases s with
    | mks => rw [hm] at hd; cases hd; exact ⟨true, by cases c <;> rfl, rfl⟩
    | cgs => rw [hc] at hd; cases hd; exact ⟨true, by cases m <;> rfl, rfl⟩

/-- **C118**: every unit is admitted somewhere. -/
theorem c118_somewhere (e : Entry) : isAllowedIn e .mks = .ok false → isAllowedIn e .cgs = .ok true := by
  unfold isAllowedIn
  cases isDefinedIn e .mks with
  | error x => intro h; cases h
  | ok m =>
    cases isDefinedIn e .cgs with
    | error x => intro h; cases h
    | ok c => cases m <;> cases c <;> intro h <;> first | rfl | cases h

/-- **C118**: being defined in a system, and being admitted by it, do not depend on the prefix. -/
theorem c118_prefix (n n' : Name) (e e' : Entry) (h : namedUnits.getItem n = .ok e) (h' : namedUnits.getItem n' = .ok e')
    (hb : e.base = e'.base) (s : System) : isDefinedIn e s = isDefinedIn e' s ∧ isAllowedIn e s = isAllowedIn e' s := by
  obtain ⟨_, _, _, _, hn⟩ := entry_item h
  obtain ⟨_, _, _, _, hn'⟩ := entry_item h'
  have key : ∀ s, isDefinedIn e s = isDefinedIn e' s := fun s => by
    rw [isDefinedIn_eq hn, isDefinedIn_eq hn', hb]
  refine ⟨key s, ?_⟩
  unfold isAllowedIn
  rw [key, key]

set_option maxHeartbeats 100000000 in
theorem standard_unique : ∀ b ∈ [true, false], ∀ u ∈ baseUnits, ∀ v ∈ baseUnits, u.quantity = v.quantity →
    u.symbol ∈ unitsIn b → v.symbol ∈ unitsIn b → u = v := by decide +kernel

set_option maxHeartbeats 100000000 in
theorem factor_prefix : ∀ u ∈ baseUnits, ∀ p ∈ unitItems u, ∀ q ∈ unitItems u, p.2.prefix_.factor = q.2.prefix_.factor →
    p.2 = q.2 := by decide +kernel

/-- **C118**: a system has at most one fundamental unit for each quantity. -/
theorem c118_unique (n n' : Name) (e e' : Entry) (h : namedUnits.getItem n = .ok e) (h' : namedUnits.getItem n' = .ok e')
    (s : System) (hq : e.base.quantity = e'.base.quantity) (hf : isFundamentalIn e s = .ok true)
    (hf' : isFundamentalIn e' s = .ok true) : e = e' := by
  obtain ⟨p, hp, hpe, hu, _⟩ := entry_item h
  obtain ⟨p', hp', hpe', hu', _⟩ := entry_item h'
  have hmust : ∀ {n : Name} {e : Entry}, namedUnits.getItem n = .ok e → isFundamentalIn e s = .ok true →
      e.base.symbol ∈ unitsIn s.isMks ∧ e.prefix_.factor = standardPrefix s.isMks e.base.symbol := by
    intro n e h hf
    obtain ⟨p, hp, rfl, hu, _⟩ := entry_item h
    by_cases hx : p.2.base.quantity = c! "illuminance"
    · have hlx : ∀ s ∈ [System.mks, System.cgs], unitsOf s c! "illuminance" = .error .recursion := by decide +kernel
      unfold isFundamentalIn at hf
      rw [hx, hlx s (mem_systems s)] at hf
      cases hf
    · by_cases hl : p.2.base.symbol = c! "lm"
      · exfalso
        have hlm : ∀ u ∈ baseUnits, u.symbol = c! "lm" → ∀ s ∈ [System.mks, System.cgs], ∀ p ∈ unitItems u,
            ¬ (p.2.symbol = canonName s u.quantity ∨ p.2.name = canonName s u.quantity) := by decide +kernel
        unfold isFundamentalIn at hf
        rw [unitsOf_canon hu hx] at hf
        simp only [bind, Except.bind, pure, Except.pure, Except.ok.injEq, decide_eq_true_eq] at hf
        exact hlm _ hu hl s (mem_systems s) p hp hf
      · have hxx : p.2.base.symbol ≠ c! "lx" := by
          have : ∀ u ∈ baseUnits, u.symbol = c! "lx" → u.quantity = c! "illuminance" := by decide +kernel
          exact fun hc => hx (this _ hu hc)
        rw [c118_fundamental_partial n _ h hl hxx s] at hf
        simpa using hf
  obtain ⟨h1, h2⟩ := hmust h hf
  obtain ⟨h3, h4⟩ := hmust h' hf'
  have hb : e.base = e'.base := standard_unique s.isMks (by cases s <;> simp [System.isMks]) _ hu _ hu' hq h1 h3
  rw [← hb] at h4 hp'
  rw [← hpe, ← hpe']
  refine factor_prefix _ hu _ hp _ hp' ?_
  rw [hpe, hpe', h2, h4]

/-- two different units of energy, and the one of each system -/
example : (do
    let j ← namedUnit c! "joule"
    let k ← namedUnit c! "kJ"
    return ([j.base.quantity, k.base.quantity], [← isFundamentalIn j .mks, ← isFundamentalIn j .cgs, ← isFundamentalIn k .mks,
      ← isDefinedIn k .mks, ← isDefinedIn k .cgs, ← isAllowedIn k .cgs])).toOption =
    some ([c! "energy", c! "energy"], [true, false, false, true, false, false]) := by decide +kernel

/-! ## The collected systems -/

theorem systemsLoop_ok {e : Entry} {f d a : System → Bool} (hf : ∀ s, isFundamentalIn e s = .ok (f s))
    (hd : ∀ s, isDefinedIn e s = .ok (d s)) (ha : ∀ s, isAllowedIn e s = .ok (a s)) :
    ∀ (l : List System) (m : Modes), systemsLoop e l m =
      .ok ⟨m.allowed ++ l.filter a, m.defined ++ l.filter d, m.fundamental ++ l.filter f⟩
  | [], m => by simp [systemsLoop]
  | s :: l, m => by
    unfold systemsLoop
    simp only [hf, hd, ha]
    rw [systemsLoop_ok hf hd ha l]
    cases hfs : f s <;> cases hds : d s <;> cases has : a s <;> simp [hfs, hds, has]

/-- **C118**, `systems`: in whatever order the set of metric systems is visited, it lists the systems that admit the unit,
the systems that define it and those of which it is the fundamental unit. -/
theorem c118_systems_partial (n : Name) (e : Entry) (h : namedUnits.getItem n = .ok e) (hl : e.base.symbol ≠ c! "lm")
    (hx : e.base.symbol ≠ c! "lx") (order : List System) :
    ∃ m, unitSystems order e = .ok m ∧
      (∀ s, s ∈ m.fundamental ↔ s ∈ order ∧ e.base.symbol ∈ unitsIn s.isMks ∧
        e.prefix_.factor = standardPrefix s.isMks e.base.symbol) ∧
      (∀ s, s ∈ m.defined ↔ s ∈ order ∧ e.base.symbol ∈ unitsIn s.isMks) ∧
      (∀ s, s ∈ m.allowed ↔ s ∈ order ∧ (e.base.symbol ∈ unitsIn s.isMks ∨ ∀ b, e.base.symbol ∉ unitsIn b)) := by
  refine ⟨_, systemsLoop_ok (fun s => c118_fundamental_partial n e h hl hx s) (fun s => c118_defined_partial n e h hl hx s)
    (fun s => c118_allowed_partial n e h hl hx s) order ⟨[], [], []⟩, ?_, ?_, ?_⟩ <;> intro s <;>
    simp only [List.nil_append, List.mem_filter, decide_eq_true_eq]

example : (namedUnit c! "J").bind (unitSystems [.cgs, .mks]) = .ok ⟨[.mks], [.mks], [.mks]⟩ ∧
    (namedUnit c! "keV").bind (unitSystems [.cgs, .mks]) = .ok ⟨[.cgs, .mks], [], []⟩ ∧
    (namedUnit c! "km").bind (unitSystems [.cgs, .mks]) = .ok ⟨[.cgs, .mks], [.cgs, .mks], []⟩ := by decide +kernel

/-- **C118**, the code violates the claim for the two units of light: the lumen is defined in no system, and for the lux
every question raises a `RecursionError`, because the name of its quantity is misspelt in the table of quantities. -/
theorem c118_not_light : (∃ e, namedUnits.getItem c! "lm" = .ok e ∧ ∀ s, isDefinedIn e s = .ok false) ∧
    (∃ e, namedUnits.getItem c! "lx" = .ok e ∧ ∀ s, isFundamentalIn e s = .error .recursion ∧
      isDefinedIn e s = .error .recursion ∧ isAllowedIn e s = .error .recursion) ∧
    c! "lm" ∈ unitsIn true ∧ c! "lx" ∈ unitsIn true := by
  have h1 : named c! "lm" = some ⟨basePrefix, ⟨c! "lm", c! "lumen", c! "luminous flux"⟩⟩ := by decide +kernel
  have h2 : named c! "lx" = some ⟨basePrefix, ⟨c! "lx", c! "lux", c! "illuminance"⟩⟩ := by decide +kernel
  refine ⟨⟨_, by rw [c22_lookup, h1], fun s => ?_⟩, ⟨_, by rw [c22_lookup, h2], fun s => ?_⟩, by decide, by decide⟩
  · cases s <;> decide +kernel
  · cases s <;> decide +kernel

/-! ## The fundamental units of the quantity -/

theorem mapE_spec {α β ε : Type} {f : α → Except ε β} : ∀ {l : List α} {r : List β}, mapE f l = .ok r →
    List.Forall₂ (fun a b => f a = .ok b) l r
  | [], r, h => by cases h; exact .nil
  | a :: l, r, h => by
    unfold mapE at h
    cases ha : f a with
    | error e => rw [ha] at h; cases h
    | ok b =>
      rw [ha] at h
      simp only at h
      cases hl : mapE f l with
      | error e => rw [hl] at h; cases h
      | ok bs => rw [hl] at h; cases h; exact .cons ha (mapE_spec hl)

/-- the units whose quantity has a compound unit in one of the systems -/
def withoutNorm : List Name := [c! "Oe", c! "P", c! "Pa", c! "W", c! "Ω", c! "S", c! "H", c! "lm", c! "Gy", c! "lx"]

set_option maxHeartbeats 100000000 in
theorem canon_entry : ∀ u ∈ baseUnits, u.symbol ∉ withoutNorm → u.quantity ≠ c! "illuminance" ∧
    ∀ s ∈ [System.mks, System.cgs],
    (match named (canonName s u.quantity) with
      | some c => decide (isFundamentalIn c s = .ok true) &&
          decide (c.base.quantity = u.quantity ∨ (u.quantity ∈ [c! "number", c! "mass number"] ∧ c.base.symbol = c! "1") ∨
            (s = .cgs ∧ u.quantity = c! "capacitance" ∧ c.symbol = c! "cm"))
      | none => false) = true := by decide +kernel

/-- **C118**, `norm`: for each system it gives the fundamental unit of the quantity of the unit; numbers are counted in
ones, and the Gaussian system measures capacitance in centimeters.  Ten units are left out. -/
theorem c118_norm_partial (n : Name) (e : Entry) (h : namedUnits.getItem n = .ok e) (hw : e.base.symbol ∉ withoutNorm)
    (order : List System) :
    ∃ l, norm order e = .ok l ∧ l.map Prod.fst = order ∧ ∀ p ∈ l, isFundamentalIn p.2 p.1 = .ok true ∧
      (∃ m, namedUnits.getItem m = .ok p.2) ∧
      (p.2.base.quantity = e.base.quantity ∨
        (e.base.quantity ∈ [c! "number", c! "mass number"] ∧ p.2.base.symbol = c! "1") ∨
        (p.1 = .cgs ∧ e.base.quantity = c! "capacitance" ∧ p.2.symbol = c! "cm")) := by
  obtain ⟨p, hp, rfl, hu, hn⟩ := entry_item h
  obtain ⟨hq, hs⟩ := canon_entry _ hu hw
  have key : ∀ s, ∃ c, named (canonName s p.2.base.quantity) = some c ∧ isFundamentalIn c s = .ok true ∧
      (c.base.quantity = p.2.base.quantity ∨
        (p.2.base.quantity ∈ [c! "number", c! "mass number"] ∧ c.base.symbol = c! "1") ∨
        (s = .cgs ∧ p.2.base.quantity = c! "capacitance" ∧ c.symbol = c! "cm")) := fun s => by
    have := hs s (mem_systems s)
    cases hc : named (canonName s p.2.base.quantity) with
    | none => rw [hc] at this; cases this
    | some c =>
      rw [hc] at this
      simp only [Bool.and_eq_true, decide_eq_true_eq] at this
      exact ⟨c, rfl, this.1, this.2⟩
  choose c hc using key
  refine ⟨order.map (fun s => (s, c s)), mapE_ok _ (fun s _ => ?_), by rw [List.map_map]; exact List.map_id _, ?_⟩
  · rw [unitsOf_canon hu hq]
    simp only [Except.bind]
    unfold namedUnit
    rw [(hc s).1]
    rfl
  · intro x hx
    obtain ⟨s, _, rfl⟩ := List.mem_map.1 hx
    exact ⟨(hc s).2.1, ⟨_, by rw [c22_lookup, (hc s).1]⟩, (hc s).2.2⟩

example : ((namedUnit c! "hour").bind (norm [.mks, .cgs])).map (fun l => l.map (fun p => (p.1, p.2.symbol))) =
      .ok [(.mks, c! "s"), (.cgs, c! "s")] ∧
    ((namedUnit c! "au").bind (norm [.mks, .cgs])).map (fun l => l.map (fun p => (p.1, p.2.symbol))) =
      .ok [(.mks, c! "m"), (.cgs, c! "cm")] := by decide +kernel

set_option maxHeartbeats 100000000 in
theorem no_norm : ∀ u ∈ baseUnits, u.symbol ∈ withoutNorm → ∀ order ∈ [[System.mks, .cgs], [System.cgs, .mks]],
    (norm order ⟨basePrefix, u⟩).toOption.isNone = true := by decide +kernel

/-- **C118**, the code violates the claim for the other units: `norm` raises an exception, for every prefix and in both
orders of the systems, because the unit of the quantity in one of the systems is not a single unit. -/
theorem c118_not_norm (n : Name) (e : Entry) (h : namedUnits.getItem n = .ok e) (hw : e.base.symbol ∈ withoutNorm) :
    (∃ x, norm [.mks, .cgs] e = .error x) ∧ ∃ x, norm [.cgs, .mks] e = .error x := by
  obtain ⟨p, hp, rfl, hu, hn⟩ := entry_item h
  have key : ∀ order ∈ [[System.mks, .cgs], [System.cgs, .mks]], ∃ x, norm order p.2 = .error x := fun order ho => by
    have h1 := no_norm _ hu hw order ho
    have h2 : norm order ⟨basePrefix, p.2.base⟩ = norm order p.2 := rfl
    rw [h2] at h1
    cases hc : norm order p.2 with
    | error x => exact ⟨x, rfl⟩
    | ok l => rw [hc] at h1; cases h1
  exact ⟨key _ (by simp), key _ (by simp)⟩

example : (namedUnits.getItem c! "megapascal").toOption.map (fun e => e.base.symbol) = some c! "Pa" ∧
    c! "Pa" ∈ withoutNorm := by
  rw [c22_lookup]
  decide +kernel

/-! ## Comparison -/

/-- **C118**: two named units are equal exactly if they are the same unit with the same prefix; equal units have the same
hash, and different units have different keys. -/
theorem c118_equal (e e' : Entry) :
    unitEq e (.inst e') = .ok (decide (e = e')) ∧ (hashKey e = hashKey e' ↔ e = e') := by
  obtain ⟨p, u⟩ := e
  obtain ⟨p', u'⟩ := e'
  constructor
  · unfold unitEq UArg.resolve
    simp only [bind, Except.bind, pure, Except.pure, Entry.mk.injEq]
    by_cases h1 : p = p' <;> by_cases h2 : u = u' <;> simp [h1, h2]
  · unfold hashKey
    simp only [Prod.mk.injEq, Entry.mk.injEq]
    exact and_comm

/-- **C118**: a named unit equals a string exactly if the string is one of the names of the unit.  A string that is no
unit makes the comparison raise an exception. -/
theorem c118_equal_text (n : Name) (e : Entry) (_h : namedUnits.getItem n = .ok e) (m : Name) :
    (∀ e', namedUnits.getItem m = .ok e' → unitEq e (.text m) = .ok (decide (e = e'))) ∧
      (namedUnits.getItem m = .error .keyError → unitEq e (.text m) = .error .unitParsing) := by
  have hcase : unitEq e (.text m) = match named m with
      | some e' => unitEq e (.inst e')
      | none => .error .unitParsing := by
    cases hm : named m <;> simp [unitEq, UArg.resolve, namedUnit, hm, bind, Except.bind]
  rw [hcase, c22_lookup]
  cases named m with
  | none => exact ⟨fun _ h => (nomatch h), fun _ => rfl⟩
  | some e' => exact ⟨fun _ h => (by cases h; exact (c118_equal e e').1), fun h => (nomatch h)⟩

example : ((namedUnit c! "km").bind (fun e => unitEq e (.text c! "kilometer"))) = .ok true ∧
    ((namedUnit c! "km").bind (fun e => unitEq e (.text c! "m"))) = .ok false ∧
    ((namedUnit c! "km").bind (fun e => unitEq e (.text c! "furlong"))) = .error .unitParsing := by decide +kernel

/-! ## Shifts -/

/-- **C118**, `>>` and `<<`: for a unit and another unit, given as an instance or by any of its names, `u >> v` is the
quotient of the two prefixes and `u << v` its inverse, if both have the same base unit; otherwise both raise
`ValueError`. -/
theorem c118_shift (n : Name) (e e' : Entry) (h : namedUnits.getItem n = .ok e) (x : UArg) (hx : x.resolve = .ok e')
    (m : Name) (hm : namedUnits.getItem m = .ok e') :
    (e.base = e'.base → shiftRight e x = .ok (e.prefix_.factor / e'.prefix_.factor) ∧
        shiftLeft e x = .ok (e'.prefix_.factor / e.prefix_.factor) ∧
        (e.prefix_.factor / e'.prefix_.factor) * (e'.prefix_.factor / e.prefix_.factor) = 1) ∧
      (e.base ≠ e'.base → shiftRight e x = .error .value ∧ shiftLeft e x = .error .value) := by
  have hr := c21_ratio n m e e' h hm
  have hr' := c21_ratio m n e' e hm h
  obtain ⟨_, _, _, _, h1⟩ := entry_item h
  obtain ⟨_, _, _, _, h2⟩ := entry_item hm
  have e1 : shiftRight e x = match ratio e e' with | some r => .ok r | none => .error .value := by
    unfold shiftRight ratioOf
    rw [hx]
    simp only [UArg.resolve, bind, Except.bind]
    cases ratio e e' <;> rfl
  have e2 : shiftLeft e x = match ratio e' e with | some r => .ok r | none => .error .value := by
    unfold shiftLeft ratioOf
    rw [hx]
    simp only [UArg.resolve, bind, Except.bind]
    cases ratio e' e <;> rfl
  have p1 := factor_pos h1
  have p2 := factor_pos h2
  refine ⟨fun hb => ⟨?_, ?_, ?_⟩, fun hb => ⟨?_, ?_⟩⟩
  · rw [e1, hr, if_pos hb]
  · rw [e2, hr', if_pos hb.symm]
  · have := p1.ne'
    have := p2.ne'
    field_simp
  · rw [e1, hr, if_neg hb]
  · rw [e2, hr', if_neg (Ne.symm hb)]

/-- **C118**: a string that is no unit is refused. -/
theorem c118_shift_unknown (e : Entry) (m : Name) (hm : namedUnits.getItem m = .error .keyError) :
    shiftRight e (.text m) = .error .unitParsing ∧ shiftLeft e (.text m) = .error .unitParsing := by
  have : named m = none := by
    rw [c22_lookup] at hm
    cases hn : named m with
    | none => rfl
    | some e => rw [hn] at hm; cases hm
  constructor <;> simp [shiftRight, shiftLeft, ratioOf, UArg.resolve, namedUnit, this, bind, Except.bind]

example : (namedUnit c! "cm").bind (fun e => shiftRight e (.text c! "meter")) = .ok (1 / 100) ∧
    (namedUnit c! "cm").bind (fun e => shiftLeft e (.text c! "m")) = .ok 100 ∧
    (namedUnit c! "cm").bind (fun e => shiftLeft e (.text c! "au")) = .error .value := by decide +kernel

end Eprem.Metric
