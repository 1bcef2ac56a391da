import Verif.Lemmas.Metric
import Verif.Lemmas.Aliased

/-!
# C22: every unit name denotes one unit

`namedUnits` is `NAMED_UNITS`, the aliased mapping that the package builds from its tables of prefixes and units;
`named` is the independent reading of a name: a base unit, or a metric prefix followed by a base unit.
-/

namespace Eprem.Metric

open Eprem Eprem.Aliased

section build
variable {κ ν : Type} [DecidableEq κ]

/-- the mapping built from items whose keys are all tuples -/
theorem build_tuples (l : List (List κ × ν)) :
    (buildFromAliases (l.map (fun p => (Key.tuple p.1, p.2)))) = l.foldl (fun d p => Dict.set d p.1.toFinset p.2) [] := by
  unfold buildFromAliases
  rw [List.foldl_map]
  rfl

theorem foldl_set_wf (l : List (List κ × ν)) : ∀ d : Dict (Finset κ) ν, d.WF →
    (l.foldl (fun d p => Dict.set d p.1.toFinset p.2) d).WF := by
  induction l with
  | nil => intro d h; exact h
  | cons p l ih => intro d h; exact ih _ (h.set _ _)

theorem foldl_set_mem (l : List (List κ × ν)) : ∀ d : Dict (Finset κ) ν, d.WF → ∀ g v,
    Dict.get? (l.foldl (fun d p => Dict.set d p.1.toFinset p.2) d) g = some v →
      Dict.get? d g = some v ∨ ∃ p ∈ l, p.1.toFinset = g ∧ p.2 = v := by
  induction l with
  | nil => intro d _ g v h; exact Or.inl h
  | cons p l ih =>
    intro d hd g v h
    rcases ih _ (hd.set _ _) g v h with h | ⟨q, hq, h⟩
    · rw [Dict.get?_set] at h
      split at h
      next he => cases h; exact Or.inr ⟨p, by simp, he, rfl⟩
      next => exact Or.inl h
    · exact Or.inr ⟨q, by simp [hq], h⟩

theorem foldl_set_keys (l : List (List κ × ν)) : ∀ d : Dict (Finset κ) ν, ∀ g,
    g ∈ Dict.keys (l.foldl (fun d p => Dict.set d p.1.toFinset p.2) d) ↔
      g ∈ d.keys ∨ ∃ p ∈ l, p.1.toFinset = g := by
  induction l with
  | nil => intro d g; simp
  | cons p l ih =>
    intro d g
    rw [List.foldl_cons, ih, Dict.mem_keys_set]
    constructor
    · rintro ((rfl | h) | ⟨q, hq, h⟩)
      · exact Or.inr ⟨p, by simp, rfl⟩
      · exact Or.inl h
      · exact Or.inr ⟨q, by simp [hq], h⟩
    · rintro (h | ⟨q, hq, h⟩)
      · exact Or.inl (Or.inr h)
      · rcases List.mem_cons.1 hq with rfl | hq
        · exact Or.inl (Or.inl h.symm)
        · exact Or.inr ⟨q, hq, h⟩

theorem flatOf_isSome {d : Dict (Finset κ) ν} {a : κ} {g : Finset κ} (h : flatOf d a = some g) :
    g ∈ d.keys ∧ a ∈ g := by
  unfold flatOf at h
  simp only [Option.map_eq_some_iff] at h
  obtain ⟨p, hp, rfl⟩ := h
  have h1 := List.mem_of_find?_eq_some hp
  have h2 := List.find?_some hp
  exact ⟨List.mem_map.2 ⟨p, by simpa using h1, rfl⟩, by simpa using h2⟩

theorem flatOf_none' {d : Dict (Finset κ) ν} {a : κ} (h : flatOf d a = none) : ∀ g ∈ d.keys, a ∉ g := by
  unfold flatOf at h
  simp only [Option.map_eq_none_iff, List.find?_eq_none, List.mem_reverse, decide_eq_true_eq] at h
  intro g hg
  obtain ⟨p, hp, rfl⟩ := List.mem_map.1 hg
  exact h p hp

/-- a name all of whose tuples have the same value is looked up to that value -/
theorem getItem_tuples (l : List (List κ × ν)) (a : κ) (v : ν) (hex : ∃ p ∈ l, a ∈ p.1)
    (hall : ∀ p ∈ l, a ∈ p.1 → p.2 = v) :
    (AMap.ofMapping (l.map (fun p => (Key.tuple p.1, p.2)))).getItem a = .ok v := by
  unfold AMap.ofMapping AMap.getItem AMap.resolve AMap.ofDict
  rw [build_tuples]
  set d := l.foldl (fun d p => Dict.set d p.1.toFinset p.2) ([] : Dict (Finset κ) ν) with hd
  have hwf : d.WF := foldl_set_wf l [] Dict.WF.nil
  simp only
  cases hf : flatOf d a with
  | none =>
    obtain ⟨p, hp, hpa⟩ := hex
    have := flatOf_none' hf p.1.toFinset ((foldl_set_keys l [] _).2 (Or.inr ⟨p, hp, rfl⟩))
    simp [hpa] at this
  | some g =>
    obtain ⟨hg, ha⟩ := flatOf_isSome hf
    cases hv : d.get? g with
    | none => exact absurd hg (Dict.get?_eq_none.1 hv)
    | some w =>
      rcases foldl_set_mem l [] Dict.WF.nil g w hv with h | ⟨p, hp, h1, h2⟩
      · cases h
      · subst h1
        simp only [hv]
        rw [← h2, hall p hp (by simpa using ha)]

theorem getItem_tuples_none (l : List (List κ × ν)) (a : κ) (hno : ∀ p ∈ l, a ∉ p.1) :
    (AMap.ofMapping (l.map (fun p => (Key.tuple p.1, p.2)))).getItem a = .error .keyError := by
  unfold AMap.ofMapping AMap.getItem AMap.resolve AMap.ofDict
  rw [build_tuples]
  simp only
  cases hf : flatOf (l.foldl (fun d p => Dict.set d p.1.toFinset p.2) ([] : Dict (Finset κ) ν)) a with
  | none => rfl
  | some g =>
    obtain ⟨hg, ha⟩ := flatOf_isSome hf
    rcases (foldl_set_keys l [] _).1 hg with h | ⟨p, hp, rfl⟩
    · cases h
    · exact absurd (by simpa using ha) (hno p hp)

theorem flatOf_set_other {d : Dict (Finset κ) ν} {a : κ} {g : Finset κ} (v : ν) (h : a ∉ g) :
    flatOf (Dict.set d g v) a = flatOf d a := by
  have key : ∀ d : Dict (Finset κ) ν, (d.filter (fun p => decide (a ∈ p.1))).map Prod.fst
      = ((Dict.set d g v).filter (fun p => decide (a ∈ p.1))).map Prod.fst := by
    intro d
    induction d with
    | nil => simp [Dict.set, h]
    | cons p d ih =>
      obtain ⟨k, w⟩ := p
      unfold Dict.set
      split
      next he => subst he; simp [h]
      next he => by_cases hk : a ∈ k <;> simp [List.filter_cons, hk, ih]
  have h2 : ∀ d : Dict (Finset κ) ν, flatOf d a = ((d.filter (fun p => decide (a ∈ p.1))).map Prod.fst).getLast? := by
    intro d
    unfold flatOf
    rw [List.getLast?_map, ← List.head?_reverse, ← List.filter_reverse, List.head?_filter]
  rw [h2, h2, key d]

theorem foldl_set_other (l : List (List κ × ν)) (a : κ) (hl : ∀ p ∈ l, a ∉ p.1) :
    ∀ d : Dict (Finset κ) ν, flatOf (l.foldl (fun d p => Dict.set d p.1.toFinset p.2) d) a = flatOf d a ∧
      ∀ g, a ∈ g → Dict.get? (l.foldl (fun d p => Dict.set d p.1.toFinset p.2) d) g = d.get? g := by
  induction l with
  | nil => intro d; exact ⟨rfl, fun _ _ => rfl⟩
  | cons p l ih =>
    intro d
    have hp : a ∉ p.1.toFinset := by simpa using hl p (by simp)
    obtain ⟨h1, h2⟩ := ih (fun q hq => hl q (by simp [hq])) (Dict.set d p.1.toFinset p.2)
    refine ⟨by rw [List.foldl_cons, h1, flatOf_set_other _ hp], fun g hg => ?_⟩
    rw [List.foldl_cons, h2 g hg, Dict.get?_set, if_neg]
    rintro rfl
    exact hp hg

/-- when several tuples contain a name, the last one wins, provided that its names are not those of an earlier tuple -/
theorem getItem_tuples_last (l₁ l₂ : List (List κ × ν)) (ks : List κ) (v : ν) (a : κ) (ha : a ∈ ks)
    (h1 : ∀ p ∈ l₁, p.1.toFinset ≠ ks.toFinset) (h2 : ∀ p ∈ l₂, a ∉ p.1) :
    (AMap.ofMapping ((l₁ ++ (ks, v) :: l₂).map (fun p => (Key.tuple p.1, p.2)))).getItem a = .ok v := by
  unfold AMap.ofMapping AMap.getItem AMap.resolve AMap.ofDict
  rw [build_tuples, List.foldl_append, List.foldl_cons]
  set d := l₁.foldl (fun d p => Dict.set d p.1.toFinset p.2) ([] : Dict (Finset κ) ν) with hd
  obtain ⟨h3, h4⟩ := foldl_set_other l₂ a h2 (Dict.set d ks.toFinset v)
  have hnot : ks.toFinset ∉ d.keys := by
    intro h
    rcases (foldl_set_keys l₁ [] _).1 h with h | ⟨p, hp, he⟩
    · cases h
    · exact h1 p hp he
  have hf : flatOf (Dict.set d ks.toFinset v) a = some ks.toFinset := by
    rw [Dict.set_of_not_mem hnot]
    unfold flatOf
    simp [ha]
  simp only [h3, hf]
  rw [h4 _ (by simpa using ha), Dict.get?_set, if_pos rfl]

end build

set_option maxHeartbeats 100000000 in
/-- Every spelling in the table, apart from `cd`, is read back as its own prefix and base unit. -/
theorem named_table : ∀ p ∈ namedTable, ∀ s ∈ p.1, s ≠ c! "cd" → named s = some p.2 := by
  have h : namedTable.all (fun p => p.1.all (fun s => decide (s = c! "cd") || decide (named s = some p.2))) = true := by
    decide +kernel
  intro p hp s hs hne
  have := List.all_eq_true.1 (List.all_eq_true.1 h p hp) s hs
  simpa [hne] using this

theorem strip?_some : ∀ {p n r : Name}, strip? p n = some r → n = p ++ r
  | [], n, r, h => by cases h; rfl
  | a :: p, [], r, h => by cases h
  | a :: p, b :: n, r, h => by
    unfold strip? at h
    split at h
    next he => subst he; rw [strip?_some h]; rfl
    next => cases h

theorem findBase_some {get : BaseUnit → Name} {n : Name} {u : BaseUnit} (h : findBase get n = some u) :
    u ∈ baseUnits ∧ get u = n ∧ u.quantity ≠ c! "identity" := by
  have h1 := List.mem_of_find?_eq_some h
  have h2 := List.find?_some h
  simp only [decide_eq_true_eq] at h2
  exact ⟨h1, h2⟩

theorem scaled_item {p : Prefix} (hp : p ∈ scaledPrefixes) {u : BaseUnit} (hu : u ∈ baseUnits)
    (hq : u.quantity ≠ c! "identity") : (spellings p u, (⟨p, u⟩ : Entry)) ∈ namedTable := by
  unfold scaledPrefixes at hp
  simp only [List.mem_filter, decide_eq_true_eq] at hp
  refine List.mem_flatMap.2 ⟨u, hu, ?_⟩
  unfold unitItems
  rw [if_neg hq]
  exact List.mem_map.2 ⟨p, by simp [hp.1, hp.2.1], by rw [if_neg hp.2.2]⟩

theorem base_item {u : BaseUnit} (hu : u ∈ baseUnits) :
    ([u.symbol, u.name], (⟨basePrefix, u⟩ : Entry)) ∈ namedTable := by
  refine List.mem_flatMap.2 ⟨u, hu, ?_⟩
  unfold unitItems
  split
  · simp
  · refine List.mem_map.2 ⟨basePrefix, ?_, by simp [basePrefix]⟩
    decide +kernel

/-- whatever `named` reads is in the table -/
theorem named_mem {n : Name} {e : Entry} (h : named n = some e) : ∃ p ∈ namedTable, n ∈ p.1 ∧ p.2 = e := by
  unfold named at h
  split at h
  next u hf =>
    cases h
    have h1 := List.mem_of_find?_eq_some hf
    have h2 := List.find?_some hf
    simp only [decide_eq_true_eq] at h2
    refine ⟨_, base_item h1, ?_, rfl⟩
    rcases h2 with h2 | h2 <;> simp [h2]
  next =>
    obtain ⟨p, hp, hs⟩ := List.exists_of_findSome?_eq_some h
    unfold namedScaled at hs
    split at hs
    next u hb =>
      cases hs
      obtain ⟨r, hr, hb⟩ := Option.bind_eq_some_iff.1 hb
      obtain ⟨h1, rfl, h3⟩ := findBase_some hb
      exact ⟨_, scaled_item hp h1 h3, by simp [spellings, strip?_some hr], rfl⟩
    next =>
      split at hs
      next u hb =>
        cases hs
        obtain ⟨r, hr, hb⟩ := Option.bind_eq_some_iff.1 hb
        obtain ⟨h1, rfl, h3⟩ := findBase_some hb
        exact ⟨_, scaled_item hp h1 h3, by simp [spellings, strip?_some hr], rfl⟩
      next =>
        split at hs
        next hmu =>
          split at hs
          next u hb =>
            cases hs
            obtain ⟨r, hr, hb⟩ := Option.bind_eq_some_iff.1 hb
            obtain ⟨h1, rfl, h3⟩ := findBase_some hb
            exact ⟨_, scaled_item hp h1 h3, by simp [spellings, strip?_some hr, hmu], rfl⟩
          next => cases hs
        next => cases hs

/-- the unit `centiday` and the unit `candela` -/
def centiday : Entry := ⟨⟨c! "c", c! "centi", 1 / 10 ^ 2⟩, ⟨c! "d", c! "day", c! "time"⟩⟩
def candela : Entry := ⟨basePrefix, ⟨c! "cd", c! "candela", c! "luminous intensity"⟩⟩

/-- the items before and after that of the candela -/
def beforeCd : List (List Name × Entry) := (namedTable.splitAt 304).1
def afterCd : List (List Name × Entry) := (namedTable.splitAt 305).2

end Eprem.Metric
