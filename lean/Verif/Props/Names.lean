import Verif.Spec.Names
import Verif.Props.Aliased
import Verif.Lemmas.PyDict
import Verif.Lemmas.CompoundNames

/-!
# C101: the names of observables
-/

namespace Eprem.Observable

open Eprem Eprem.Metric Eprem.Aliased

/-- The members of a group of the table. -/
def groupOf (p : Name × List Name) : Finset Name := insert p.1 p.2.toFinset

set_option maxHeartbeats 100000000 in
theorem groups_metadata : ∀ p ∈ metadata, (groupsGet aliasGroups p.1).getD {p.1} = groupOf p := by decide +kernel

set_option maxHeartbeats 100000000 in
theorem groups_disjoint : metadata.Pairwise (fun p q => Disjoint (groupOf p) (groupOf q)) := by decide +kernel

set_option maxHeartbeats 100000000 in
theorem groups_fresh : ∀ p ∈ metadata, ∀ a ∈ groupOf p, a ≠ p.1 → a ∉ metadata.map Prod.fst := by decide +kernel

set_option maxHeartbeats 100000000 in
theorem names_expression : ∀ p ∈ metadata, Symbolic.Stars.expression p.1 = .ok [⟨1, p.1, 1⟩] := by decide +kernel

set_option maxHeartbeats 100000000 in
theorem names_defined : ∀ p ∈ metadata, p.1 ∉ notObserved → (∃ d ∈ definitions, p.1 ∈ aliasesOf d) ∧ p.1 ∈ properties := by
  decide +kernel

set_option maxHeartbeats 100000000 in
theorem defined_names : ∀ d ∈ definitions, ∀ a ∈ aliasesOf d,
    (∃ p ∈ metadata, a ∈ groupOf p ∧ p.1 ∉ notObserved) ∨ a ∈ [c! "ubmag", c! "udotb"] := by decide +kernel

set_option maxHeartbeats 100000000 in
theorem metadata_once : (metadata.map Prod.fst).Nodup := by decide +kernel

set_option maxHeartbeats 100000000 in
theorem names_listed : ∀ p ∈ metadata, p.1 ∉ notObserved → ∀ k ∈ groupOf p, ∃ d ∈ definitions, k ∈ aliasesOf d := by
  decide +kernel

set_option maxHeartbeats 100000000 in
theorem extra_listed : ∀ k ∈ [c! "ubmag", c! "udotb"], ∃ d ∈ definitions, k ∈ aliasesOf d := by decide +kernel

set_option maxHeartbeats 100000000 in
theorem defined_disjoint : definitions.Pairwise (fun a b => Disjoint (aliasesOf a) (aliasesOf b)) := by decide +kernel

theorem nameOf_group {p : Name × List Name} {k : Name} : k ∈ groupOf p ↔ k = p.1 ∨ k ∈ p.2 := by
  simp [groupOf]

theorem nameOf_iff {k c : Name} : NameOf k c ↔ ∃ p ∈ metadata, p.1 = c ∧ k ∈ groupOf p := by
  constructor
  · rintro ⟨p, hp, rfl, h⟩; exact ⟨p, hp, rfl, nameOf_group.2 h⟩
  · rintro ⟨p, hp, rfl, h⟩; exact ⟨p, hp, rfl, nameOf_group.1 h⟩

section resolve
variable {order : Finset Name → List Name} (ho : Iterates order)
include ho

theorem names_map : ∃ m, observableNames order = .ok m ∧ (∀ k c, NameOf k c → m.getItem k = .ok c) ∧
    (∀ k, (∀ c, ¬ NameOf k c) → m.getItem k = .error .keyError) := by
  have hlist : ∀ p ∈ metadata, ∀ a, a ∈ order ((groupsGet aliasGroups p.1).getD {p.1}) ↔ a ∈ groupOf p := by
    intro p hp a
    rw [(ho _).1, groups_metadata p hp]
  obtain ⟨m, hm, h1, h2, h3⟩ := c18_name_map (metadata.map (fun p => (p.1, order ((groupsGet aliasGroups p.1).getD {p.1})))) none
    (metadata.map Prod.fst) (by simp [Function.comp_def]) (by
      intro p hp
      obtain ⟨q, hq, rfl⟩ := List.mem_map.1 hp
      exact List.mem_map.2 ⟨q, hq, rfl⟩) (by
      rw [List.nodup_flatMap]
      constructor
      · intro p hp
        obtain ⟨q, hq, rfl⟩ := List.mem_map.1 hp
        exact (ho _).2.filter _
      · rw [List.pairwise_map]
        refine groups_disjoint.imp_of_mem ?_
        intro p q hp hq hd a ha hb
        have ha' := (hlist p hp a).1 (List.mem_filter.1 ha).1
        have hb' := (hlist q hq a).1 (List.mem_filter.1 hb).1
        exact Finset.disjoint_left.1 hd ha' hb') (by
      intro p hp a ha hne
      obtain ⟨q, hq, rfl⟩ := List.mem_map.1 hp
      exact groups_fresh q hq a ((hlist q hq a).1 ha) hne)
  refine ⟨m, hm, ?_, ?_⟩
  · intro k c h
    obtain ⟨p, hp, rfl, hk⟩ := nameOf_iff.1 h
    exact h2 _ (List.mem_map.2 ⟨p, hp, rfl⟩) k ((hlist p hp k).2 hk)
  · intro k h
    apply h3
    · intro hk
      obtain ⟨p, hp, rfl⟩ := List.mem_map.1 hk
      exact h _ ⟨p, hp, rfl, Or.inl rfl⟩
    · intro q hq hk
      obtain ⟨p, hp, rfl⟩ := List.mem_map.1 hq
      exact h _ (nameOf_iff.2 ⟨p, hp, rfl, (hlist p hp k).1 hk⟩)

theorem resolve_name {k c : Name} (h : NameOf k c) : resolveName order k = c := by
  obtain ⟨m, hm, h1, _⟩ := names_map ho
  simp only [resolveName, hm, h1 k c h]

theorem resolve_other {k : Name} (h : ∀ c, ¬ NameOf k c) : resolveName order k = k := by
  obtain ⟨m, hm, _, h2⟩ := names_map ho
  simp only [resolveName, hm, h2 k h]

theorem mem_defined {k : Name} : k ∈ defined order ↔ ∃ d ∈ definitions, k ∈ aliasesOf d := by
  simp only [defined, List.mem_flatMap, (ho _).1]

theorem defined_iff {k : Name} : k ∈ defined order ↔ (∃ c, NameOf k c ∧ c ∉ notObserved) ∨ k ∈ [c! "ubmag", c! "udotb"] := by
  rw [mem_defined ho]
  constructor
  · rintro ⟨d, hd, hk⟩
    rcases defined_names d hd k hk with ⟨p, hp, h1, h2⟩ | h
    · exact Or.inl ⟨p.1, nameOf_iff.2 ⟨p, hp, rfl, h1⟩, h2⟩
    · exact Or.inr h
  · rintro (⟨c, hc, hn⟩ | h)
    · obtain ⟨p, hp, rfl, hk⟩ := nameOf_iff.1 hc
      exact names_listed p hp hn k hk
    · exact extra_listed k h

variable {A κ ν : Type} [DecidableEq κ] (property : Name → Quantity A κ ν) (systems : List System)

theorem get_named {k c : Name} (h : NameOf k c) (hn : c ∉ notObserved) : getObservable order property k = .ok (property c) := by
  have hr := resolve_name ho h
  obtain ⟨p, hp, rfl, _⟩ := h
  have hd : p.1 ∈ defined order := (defined_iff ho).2 (Or.inl ⟨p.1, ⟨p, hp, rfl, Or.inl rfl⟩, hn⟩)
  simp only [getObservable, hr, hd, (names_defined p hp hn).2, if_true]

theorem build_named {k c : Name} (h : NameOf k c) (hn : c ∉ notObserved) :
    buildObservable order systems property k = .ok (property c) := by
  have hr := resolve_name ho h
  have h' := h
  obtain ⟨p, hp, rfl, _⟩ := h
  have hg : getObservable order property p.1 = .ok (property p.1) := get_named ho property ⟨p, hp, rfl, Or.inl rfl⟩ hn
  simp only [buildObservable, hr, names_expression p hp, buildTerms, hg, if_true, and_self]

end resolve

/-! ## Histories -/

section history
variable {A κ ν : Type} {build : Name → Except QErr (Quantity A κ ν)}

/-- Every object that is kept was built for its key, and no two keys share an object. -/
structure Kept (build : Name → Except QErr (Quantity A κ ν)) (st : Names A κ ν) : Prop where
  built : ∀ k i q, st.cache.get? k = some (i, q) → build k = .ok q ∧ i < st.next
  own : ∀ k k' i q q', st.cache.get? k = some (i, q) → st.cache.get? k' = some (i, q') → k = k'

theorem kept_new : Kept build noNames := ⟨(by intro k i q h; cases h), (by intro k k' i q q' h; cases h)⟩

/-- A request keeps the objects that are there. -/
def Extends (st st' : Names A κ ν) : Prop := ∀ k p, st.cache.get? k = some p → st'.cache.get? k = some p

theorem getItem_spec {st : Names A κ ν} (h : Kept build st) (k : Name) :
    Kept build (st.getItem build k).1 ∧ Extends st (st.getItem build k).1 ∧
      (∀ q, build k = .ok q → ∃ i, (st.getItem build k).2 = .ok (i, q) ∧ (st.getItem build k).1.cache.get? k = some (i, q)) ∧
      (∀ e, build k = .error e → (st.getItem build k).2 = .error e) := by
  cases hc : st.cache.get? k with
  | some p =>
    have e : st.getItem build k = (st, .ok p) := by simp only [Names.getItem, hc]
    rw [e]
    have hb := (h.built k p.1 p.2 hc).1
    refine ⟨h, fun _ _ hq => hq, ?_, ?_⟩
    · intro q hq
      rw [hb] at hq
      cases hq
      exact ⟨p.1, rfl, hc⟩
    · intro e he
      rw [hb] at he
      cases he
  | none =>
    cases hb : build k with
    | error x =>
      have e : st.getItem build k = (st, .error x) := by simp only [Names.getItem, hc, hb]
      rw [e]
      refine ⟨h, fun _ _ hq => hq, ?_, ?_⟩
      · intro q hq; cases hq
      · intro y hy; cases hy; rfl
    | ok q =>
      have e : st.getItem build k = (⟨st.cache.set k (st.next, q), st.next + 1⟩, .ok (st.next, q)) := by
        simp only [Names.getItem, hc, hb]
      rw [e]
      refine ⟨⟨?_, ?_⟩, ?_, ?_, ?_⟩
      · intro k' i q' hk'
        simp only [Dict.get?_set] at hk'
        by_cases hkk : k = k'
        · subst hkk
          rw [if_pos rfl] at hk'
          cases hk'
          exact ⟨hb, Nat.lt_succ_self _⟩
        · rw [if_neg hkk] at hk'
          exact ⟨(h.built _ _ _ hk').1, Nat.lt_succ_of_lt (h.built _ _ _ hk').2⟩
      · intro a b i x y ha hb'
        simp only [Dict.get?_set] at ha hb'
        by_cases hka : k = a
        · by_cases hkb : k = b
          · rw [← hka, ← hkb]
          · rw [if_pos hka] at ha
            rw [if_neg hkb] at hb'
            cases ha
            exact absurd (h.built _ _ _ hb').2 (lt_irrefl _)
        · rw [if_neg hka] at ha
          by_cases hkb : k = b
          · rw [if_pos hkb] at hb'
            cases hb'
            exact absurd (h.built _ _ _ ha).2 (lt_irrefl _)
          · rw [if_neg hkb] at hb'
            exact h.own _ _ _ _ _ ha hb'
      · intro k' p hk'
        simp only [Dict.get?_set]
        by_cases hkk : k = k'
        · subst hkk
          rw [hc] at hk'
          cases hk'
        · rw [if_neg hkk]; exact hk'
      · intro q' hq'
        cases hq'
        exact ⟨st.next, rfl, by simp only [Dict.get?_set, if_true]⟩
      · intro y hy; cases hy

theorem contains_spec {st : Names A κ ν} (h : Kept build st) (k : Name) :
    Kept build (st.contains build k).1 ∧ Extends st (st.contains build k).1 ∧
      (∀ q, build k = .ok q → (st.contains build k).2 = .ok true) ∧
      (build k = .error .key → (st.contains build k).2 = .ok false) ∧
      (∀ e, e ≠ .key → build k = .error e → (st.contains build k).2 = .error e) := by
  obtain ⟨h1, h2, h3, h4⟩ := getItem_spec h k
  generalize hg : st.getItem build k = g at h1 h2 h3 h4
  obtain ⟨st', res⟩ := g
  dsimp only at h1 h2 h3 h4
  cases hb : build k with
  | ok q =>
    obtain ⟨i, hi, _⟩ := h3 q hb
    subst hi
    have e : st.contains build k = (st', .ok true) := by simp only [Names.contains, hg]
    rw [e]
    exact ⟨h1, h2, fun _ _ => rfl, fun hx => (by cases hx), fun _ _ hx => (by cases hx)⟩
  | error x =>
    have hr := h4 x hb
    subst hr
    by_cases hx : x = .key
    · subst hx
      have e : st.contains build k = (st', .ok false) := by simp only [Names.contains, hg]
      rw [e]
      refine ⟨h1, h2, fun _ hx => (by cases hx), fun _ => rfl, fun y hy hz => ?_⟩
      cases hz; exact absurd rfl hy
    · have e : st.contains build k = (st', .error x) := by
        simp only [Names.contains, hg]
      rw [e]
      refine ⟨h1, h2, fun _ hx => (by cases hx), fun hz => ?_, fun y hy hz => ?_⟩
      · cases hz; exact absurd rfl hx
      · cases hz; rfl

theorem Extends.trans {a b c : Names A κ ν} (h : Extends a b) (h' : Extends b c) : Extends a c :=
  fun k p hp => h' k p (h k p hp)

theorem observe_spec {st : Names A κ ν} (h : Kept build st) (k : Name) :
    Kept build (st.observe build k).1 ∧ Extends st (st.observe build k).1 ∧
      (∀ q, build k = .ok q → ∃ i, (st.observe build k).2 = .ok (i, q) ∧ (st.observe build k).1.cache.get? k = some (i, q)) ∧
      (∀ e, build k = .error e → (st.observe build k).2 = .error e) := by
  obtain ⟨h1, h2, h3, h4, h5⟩ := contains_spec h k
  generalize hg : st.contains build k = g at h1 h2 h3 h4 h5
  obtain ⟨st', res⟩ := g
  dsimp only at h1 h2 h3 h4 h5
  cases hb : build k with
  | ok q =>
    have hr := h3 q hb
    subst hr
    obtain ⟨g1, g2, g3, g4⟩ := getItem_spec h1 k
    have e : st.observe build k = st'.getItem build k := by simp only [Names.observe, hg]
    rw [e]
    rw [hb] at g3 g4
    exact ⟨g1, h2.trans g2, g3, g4⟩
  | error x =>
    by_cases hx : x = .key
    · subst hx
      have hr := h4 hb
      subst hr
      have e : st.observe build k = (st', .error .key) := by simp only [Names.observe, hg]
      rw [e]
      refine ⟨h1, h2, fun _ hx => (by cases hx), fun y hy => ?_⟩
      cases hy; rfl
    · have hr := h5 x hx hb
      subst hr
      have e : st.observe build k = (st', .error x) := by simp only [Names.observe, hg]
      rw [e]
      refine ⟨h1, h2, fun _ hx => (by cases hx), fun y hy => ?_⟩
      cases hy; rfl

theorem observeContains_spec {st : Names A κ ν} (h : Kept build st) (k : Name) :
    Kept build (st.observeContains build k).1 ∧ Extends st (st.observeContains build k).1 ∧
      (∀ q, build k = .ok q → (st.observeContains build k).2 = .ok true) ∧
      (build k = .error .key → (st.observeContains build k).2 = .ok false) ∧
      (∀ e, e ≠ .key → build k = .error e → (st.observeContains build k).2 = .error e) := by
  obtain ⟨h1, h2, h3, h4⟩ := observe_spec h k
  generalize hg : st.observe build k = g at h1 h2 h3 h4
  obtain ⟨st', res⟩ := g
  dsimp only at h1 h2 h3 h4
  cases hb : build k with
  | ok q =>
    obtain ⟨i, hi, _⟩ := h3 q hb
    subst hi
    have e : st.observeContains build k = (st', .ok true) := by simp only [Names.observeContains, hg]
    rw [e]
    exact ⟨h1, h2, fun _ _ => rfl, fun hx => (by cases hx), fun _ _ hx => (by cases hx)⟩
  | error x =>
    have hr := h4 x hb
    subst hr
    by_cases hx : x = .key
    · subst hx
      have e : st.observeContains build k = (st', .ok false) := by simp only [Names.observeContains, hg]
      rw [e]
      refine ⟨h1, h2, fun _ hx => (by cases hx), fun _ => rfl, fun y hy hz => ?_⟩
      cases hz; exact absurd rfl hy
    · have e : st.observeContains build k = (st', .error x) := by
        simp only [Names.observeContains, hg]
      rw [e]
      refine ⟨h1, h2, fun _ hx => (by cases hx), fun hz => ?_, fun y hy hz => ?_⟩
      · cases hz; exact absurd rfl hx
      · cases hz; rfl

theorem after_spec : (us : List Use) → ∀ {st : Names A κ ν}, Kept build st →
    Kept build (afterUses build us st) ∧ Extends st (afterUses build us st)
  | [], _, h => ⟨h, fun _ _ hp => hp⟩
  | .get k :: us, st, h => by
    obtain ⟨h1, h2, _⟩ := observe_spec h k
    obtain ⟨g1, g2⟩ := after_spec us h1
    exact ⟨g1, h2.trans g2⟩
  | .has k :: us, st, h => by
    obtain ⟨h1, h2, _⟩ := observeContains_spec h k
    obtain ⟨g1, g2⟩ := after_spec us h1
    exact ⟨g1, h2.trans g2⟩

end history

/-! ## C101 -/

section claims
variable {A κ ν : Type} [DecidableEq κ]

/-- An order of iteration, and python names of letters and digits. -/
theorem iterates_toList : Iterates Finset.toList := fun g => ⟨fun _ => Finset.mem_toList, Finset.nodup_toList g⟩

/-- **C101.**  Let `k` be a name or an alias of the observable `c` in the table of names.  After any history of lookups and
membership tests, `k` is in the observer, and the lookup of `k` gives the quantity `c`; after any further history it gives the
same object again.  No other key gives this object. -/
theorem c101_name (order : Finset Name → List Name) (ho : Iterates order) (systems : List System)
    (property : Name → Quantity A κ ν) (us : List Use) (k c : Name) (h : NameOf k c) (hn : c ∉ notObserved)
    (b : Name → Except QErr (Quantity A κ ν)) (hb : b = buildObservable order systems property) :
    ((afterUses b us noNames).observeContains b k).2 = .ok true ∧
    ∃ i, ((afterUses b us noNames).observe b k).2 = .ok (i, property c) ∧
      ∀ vs, ((afterUses b vs ((afterUses b us noNames).observe b k).1).observe b k).2 = .ok (i, property c) ∧
        ∀ k' q, ((afterUses b vs ((afterUses b us noNames).observe b k).1).observe b k').2 = .ok (i, q) → k' = k := by
  have hk : b k = .ok (property c) := by rw [hb]; exact build_named ho property systems h hn
  obtain ⟨g1, _⟩ := after_spec (build := b) us kept_new
  refine ⟨(observeContains_spec g1 k).2.2.1 _ hk, ?_⟩
  obtain ⟨o1, o2, o3, _⟩ := observe_spec g1 k
  obtain ⟨i, hi, hc⟩ := o3 _ hk
  refine ⟨i, hi, fun vs => ?_⟩
  obtain ⟨a1, a2⟩ := after_spec (build := b) vs o1
  have hkeep := a2 _ _ hc
  have again : ∀ k' q, ((afterUses b vs ((afterUses b us noNames).observe b k).1).observe b k').2 = .ok (i, q) → k' = k := by
    intro k' q hq
    obtain ⟨p1, p2, p3, p4⟩ := observe_spec a1 k'
    cases hb' : b k' with
    | error e => rw [p4 e hb'] at hq; cases hq
    | ok q' =>
      obtain ⟨j, hj, hcj⟩ := p3 q' hb'
      rw [hj, Except.ok.injEq, Prod.mk.injEq] at hq
      rw [hq.1] at hcj
      exact p1.own _ _ _ _ _ hcj (p2 _ _ hkeep)
  refine ⟨?_, again⟩
  obtain ⟨p1, p2, p3, p4⟩ := observe_spec a1 k
  obtain ⟨j, hj, hcj⟩ := p3 _ hk
  have := p2 _ _ hkeep
  rw [hcj] at this
  cases this
  exact hj

/-- The hypotheses can be met: `R` is another name of the radius, and `average energy` of the average energy. -/
example : NameOf (c! "R") (c! "r") ∧ NameOf (c! "average energy") (c! "average_energy") ∧ c! "r" ∉ notObserved := by
  refine ⟨⟨(c! "r", [c! "radius", c! "R"]), by decide +kernel, rfl, by decide +kernel⟩,
    ⟨(c! "average_energy", [c! "average energy"]), by decide +kernel, rfl, by decide +kernel⟩, by decide +kernel⟩

/-- **C101.**  A key is listed if it is a name or an alias of an observable in the table of names, or is one of two other names;
no key is listed twice, and the length is the number of keys. -/
theorem c101_listing (order : Finset Name → List Name) (ho : Iterates order) :
    (∀ k, k ∈ listNames order ↔ (∃ c, NameOf k c ∧ c ∉ notObserved) ∨ k = c! "ubmag" ∨ k = c! "udotb") ∧
    (listNames order).Nodup ∧ lenNames order = (listNames order).length := by
  refine ⟨fun k => ?_, ?_, rfl⟩
  · have := defined_iff ho (k := k)
    simpa [listNames] using this
  · unfold listNames defined
    rw [List.nodup_flatMap]
    refine ⟨fun x _ => (ho _).2, ?_⟩
    refine defined_disjoint.imp ?_
    intro a b' hd x hx hy
    exact Finset.disjoint_left.1 hd (((ho _).1 _).1 hx) (((ho _).1 _).1 hy)

/-- **C101**, as far as it holds: every key that is listed, apart from `ubmag` and `udotb`, can be looked up at any time.
Missing: these two keys. -/
theorem c101_listed_partial (order : Finset Name → List Name) (ho : Iterates order) (systems : List System)
    (property : Name → Quantity A κ ν) (us : List Use) (k : Name) (h : k ∈ listNames order) (h1 : k ≠ c! "ubmag")
    (h2 : k ≠ c! "udotb") (b : Name → Except QErr (Quantity A κ ν)) (hb : b = buildObservable order systems property) :
    ∃ c i, NameOf k c ∧ ((afterUses b us noNames).observe b k).2 = .ok (i, property c) := by
  rcases ((c101_listing order ho).1 k).1 h with ⟨c, hc, hn⟩ | h | h
  · obtain ⟨_, i, hi, _⟩ := c101_name order ho systems property us k c hc hn b hb
    exact ⟨c, i, hc, hi⟩
  · exact absurd h h1
  · exact absurd h h2

set_option maxHeartbeats 100000000 in
theorem extra_expression : ∀ k ∈ [c! "ubmag", c! "udotb"], Symbolic.Stars.expression k = .ok [⟨1, k, 1⟩] ∧ k ∉ properties := by
  decide +kernel

set_option maxHeartbeats 100000000 in
theorem extra_not_named : ∀ k ∈ [c! "ubmag", c! "udotb"], ∀ p ∈ metadata, k ∉ groupOf p := by decide +kernel

theorem not_named {k : Name} (h : ∀ p ∈ metadata, k ∉ groupOf p) : ∀ c, ¬ NameOf k c := by
  intro c hc
  obtain ⟨p, hp, _, hk⟩ := nameOf_iff.1 hc
  exact h p hp hk

/-- **C101** is violated: `ubmag` and `udotb` are listed, but the lookup raises `AttributeError` at any time, and so does the
membership test. -/
theorem c101_listed_violation (order : Finset Name → List Name) (ho : Iterates order) (systems : List System)
    (property : Name → Quantity A κ ν) (us : List Use) (k : Name) (hk : k = c! "ubmag" ∨ k = c! "udotb")
    (b : Name → Except QErr (Quantity A κ ν)) (hb : b = buildObservable order systems property) :
    k ∈ listNames order ∧ ((afterUses b us noNames).observe b k).2 = .error .attribute ∧
      ((afterUses b us noNames).observeContains b k).2 = .error .attribute := by
  have hm : k ∈ [c! "ubmag", c! "udotb"] := by simpa using hk
  have hd : k ∈ defined order := (defined_iff ho).2 (Or.inr hm)
  have hr := resolve_other ho (not_named (extra_not_named k hm))
  have hbuild : b k = .error .attribute := by
    rw [hb]
    simp only [buildObservable, hr, (extra_expression k hm).1, buildTerms, getObservable, hd, (extra_expression k hm).2,
      if_true, if_false]
  obtain ⟨g1, _⟩ := after_spec (build := b) us kept_new
  exact ⟨hd, (observe_spec g1 k).2.2.2 _ hbuild, (observeContains_spec g1 k).2.2.2.2 _ (by simp) hbuild⟩

/-- The rows that are not observables are unknown. -/
theorem not_observed_undefined : ∀ c ∈ notObserved, ∀ d ∈ definitions, c ∉ aliasesOf d := by
  set_option maxHeartbeats 100000000 in decide +kernel

/-- **C101.**  The lookup of a python name of letters and digits that is not an observable raises `KeyError`, and such a name is
not in the observer. -/
theorem c101_unknown (order : Finset Name → List Name) (ho : Iterates order) (systems : List System)
    (property : Name → Quantity A κ ν) (us : List Use) (letters digits : Name) (hl : letters ≠ [])
    (hls : ∀ x ∈ letters, Symbolic.isLetter x = true) (hds : ∀ x ∈ digits, Symbolic.isDigit x = true)
    (hq : ¬ c! "sqrt" <+: letters) (hk : letters ++ digits ∉ listNames order)
    (b : Name → Except QErr (Quantity A κ ν)) (hb : b = buildObservable order systems property) :
    ((afterUses b us noNames).observe b (letters ++ digits)).2 = .error .key ∧
      ((afterUses b us noNames).observeContains b (letters ++ digits)).2 = .ok false := by
  have hbuild : b (letters ++ digits) = .error .key := by
    rw [hb]
    by_cases hN : ∃ c, NameOf (letters ++ digits) c
    · obtain ⟨c, hc⟩ := hN
      have hr := resolve_name ho hc
      have hn : c ∈ notObserved := by
        by_contra hn
        exact hk ((defined_iff ho).2 (Or.inl ⟨c, hc, hn⟩))
      obtain ⟨p, hp, rfl, _⟩ := hc
      have hself : resolveName order p.1 = p.1 := resolve_name ho ⟨p, hp, rfl, Or.inl rfl⟩
      have hd : p.1 ∉ defined order := by
        rw [mem_defined ho]
        rintro ⟨d, hd, hm⟩
        exact not_observed_undefined p.1 hn d hd hm
      simp only [buildObservable, hr, names_expression p hp, buildTerms, getObservable, hself, hd, if_false]
    · have hr := resolve_other ho (k := letters ++ digits) (fun c hc => hN ⟨c, hc⟩)
      let x : Symbolic.Stars.Expr := .one (.name letters digits none)
      have hx : x.Ok := ⟨hl, hls, hds, trivial, hq⟩
      obtain ⟨vs, h1, h2, h3⟩ := Symbolic.Stars.expression_terms hx
      have ht : x.text = letters ++ digits := by simp [x, Symbolic.Stars.Expr.text, Symbolic.Stars.Atom.text, Symbolic.Stars.expText]
      have hvs : ⟨1, letters ++ digits, 1⟩ ∈ vs := (h2 _).2 ⟨rfl, by simp [x, Symbolic.Stars.Expr.names, Symbolic.Stars.Atom.names],
        by simp [x, Symbolic.Stars.Expr.power, Symbolic.Stars.Atom.power, Symbolic.litOr1], one_ne_zero⟩
      have hne : vs ≠ [] := List.ne_nil_of_mem hvs
      obtain ⟨t, rest, rfl⟩ := List.exists_cons_of_ne_nil hne
      have htb : t.base = letters ++ digits := by
        have := ((h2 t).1 List.mem_cons_self).2.1
        simpa [x, Symbolic.Stars.Expr.names, Symbolic.Stars.Atom.names] using this
      rw [ht, if_neg (by simp)] at h3
      have hd : letters ++ digits ∉ defined order := hk
      simp only [buildObservable, hr, h3, buildTerms, getObservable, htb, hd, if_false]
  obtain ⟨g1, _⟩ := after_spec (build := b) us kept_new
  exact ⟨(observe_spec g1 _).2.2.2 _ hbuild, (observeContains_spec g1 _).2.2.2.1 hbuild⟩

/-- The hypotheses can be met: `density2` and `shells` are not observables. -/
example (order : Finset Name → List Name) (ho : Iterates order) : c! "density" ++ c! "2" ∉ listNames order ∧
    c! "shells" ++ [] ∉ listNames order := by
  have h : ∀ k ∈ [c! "density2", c! "shells"], ∀ d ∈ definitions, k ∉ aliasesOf d := by
    set_option maxHeartbeats 100000000 in decide +kernel
  constructor
  · intro hk
    obtain ⟨d, hd, hm⟩ := (mem_defined ho).1 hk
    exact h _ (by simp) d hd hm
  · intro hk
    obtain ⟨d, hd, hm⟩ := (mem_defined ho).1 hk
    exact h _ (by simp) d hd hm

set_option maxHeartbeats 100000000 in
theorem odd_keys : ∀ k ∈ [c! "B^2", c! "r ** 2", []], ∀ p ∈ metadata, k ∉ groupOf p := by decide +kernel

set_option maxHeartbeats 100000000 in
theorem odd_expressions : Symbolic.Stars.expression (c! "B^2") = .error .failedToParse ∧
    Symbolic.Stars.expression (c! "r ** 2") = .error .operatorWithoutOperand ∧ Symbolic.Stars.expression [] = .ok [] := by
  decide +kernel

/-- **C101** is violated by keys that are not names: `'B^2' in observer`, like the lookup, raises an exception of the parser, and
with the empty string it raises `IndexError`. -/
theorem c101_unknown_violation (order : Finset Name → List Name) (ho : Iterates order) (systems : List System)
    (property : Name → Quantity A κ ν) (us : List Use)
    (b : Name → Except QErr (Quantity A κ ν)) (hb : b = buildObservable order systems property) :
    ((afterUses b us noNames).observe b (c! "B^2")).2 = .error (.parsing .failedToParse) ∧
    ((afterUses b us noNames).observeContains b (c! "B^2")).2 = .error (.parsing .failedToParse) ∧
    ((afterUses b us noNames).observeContains b []).2 = .error .index := by
  have e1 : b (c! "B^2") = .error (.parsing .failedToParse) := by
    rw [hb]
    simp only [buildObservable, resolve_other ho (not_named (odd_keys (c! "B^2") (by simp))), odd_expressions.1]
  have e2 : b [] = .error .index := by
    rw [hb]
    simp only [buildObservable, resolve_other ho (not_named (odd_keys [] (by simp))), odd_expressions.2.2, buildTerms]
  obtain ⟨g1, _⟩ := after_spec (build := b) us kept_new
  exact ⟨(observe_spec g1 _).2.2.2 _ e1, (observeContains_spec g1 _).2.2.2.2 _ (by simp) e1,
    (observeContains_spec g1 _).2.2.2.2 _ (by simp) e2⟩

end claims

end Eprem.Observable
