import Verif.Lemmas.Aliased

/-!
# Properties C15-C18, C65, C66: aliased mappings
-/

namespace Eprem.Aliased

variable {κ ν : Type} [DecidableEq κ]

/-! ## C15: reading through any alias -/

/-- **C15.** A mapping `{name or tuple of names: value}` whose keys share no name gives the value of an
entry under each name of its key, contains exactly those names, and has as many items as names. -/
theorem c15_lookup (mapping : List (Key κ × ν))
    (hd : (mapping.map (fun p => p.1.group)).Pairwise Disjoint)
    (hn : ∀ p ∈ mapping, p.1.group.Nonempty) :
    (∀ p ∈ mapping, ∀ a ∈ p.1.group, (AMap.ofMapping mapping).getItem a = .ok p.2) ∧
    (∀ a, (AMap.ofMapping mapping).contains a = true ↔ ∃ p ∈ mapping, a ∈ p.1.group) ∧
    (∀ a, (AMap.ofMapping mapping).contains a = false → (AMap.ofMapping mapping).getItem a = .error .keyError) ∧
    (∃ s : Finset κ, (∀ a, a ∈ s ↔ ∃ p ∈ mapping, a ∈ p.1.group) ∧ (AMap.ofMapping mapping).len = s.card) := by
  have he := buildFromAliases_eq mapping hd hn
  have hI : Inv (buildFromAliases mapping) := by
    rw [he]
    refine inv_of_list _ ?_ ?_
    · simpa [List.map_map, Function.comp_def] using hd
    · intro q hq
      obtain ⟨p, hp, rfl⟩ := List.mem_map.1 hq
      exact hn p hp
  have hG : Good (AMap.ofMapping mapping) := good_ofDict hI
  have hdict : (AMap.ofMapping mapping).dict = mapping.map (fun p => (p.1.group, p.2)) := he
  have hc : ∀ a, (AMap.ofMapping mapping).contains a = true ↔ ∃ p ∈ mapping, a ∈ p.1.group := by
    intro a
    unfold AMap.contains
    rw [Option.isSome_iff_ne_none, Ne, resolve_none hG, hdict]
    simp only [Dict.keys, List.map_map, List.mem_map, Function.comp_apply, not_forall, not_not]
    constructor
    · rintro ⟨g, ⟨p, hp, rfl⟩, ha⟩; exact ⟨p, hp, ha⟩
    · rintro ⟨p, hp, ha⟩; exact ⟨_, ⟨p, hp, rfl⟩, ha⟩
  refine ⟨fun p hp a ha => ?_, hc, fun a ha => ?_, ?_⟩
  · rw [getItem_ok hG, hdict]
    exact ⟨p.1.group, List.mem_map.2 ⟨p, hp, rfl⟩, ha⟩
  · rw [getItem_error hG]
    unfold AMap.contains at ha
    simpa using ha
  · obtain ⟨s, h1, h2⟩ := len_spec hG
    exact ⟨s, fun a => (h1 a).trans (hc a), h2⟩

/-- **C15**, for mappings that keep their aliases in interior mappings. -/
theorem c15_lookup_interior (items : List (κ × List κ × ν))
    (hd : (items.map (fun p => insert p.1 p.2.1.toFinset)).Pairwise Disjoint) :
    (∀ p ∈ items, ∀ a, a = p.1 ∨ a ∈ p.2.1 → (AMap.ofInterior items).getItem a = .ok p.2.2) ∧
    (∀ a, (∀ p ∈ items, a ≠ p.1 ∧ a ∉ p.2.1) → (AMap.ofInterior items).getItem a = .error .keyError) := by
  have hd' : ((items.map (fun p => (insert p.1 p.2.1.toFinset, p.2.2))).map Prod.fst).Pairwise Disjoint := by
    simpa [List.map_map, Function.comp_def] using hd
  have hn' : ∀ q ∈ items.map (fun p => (insert p.1 p.2.1.toFinset, p.2.2)), q.1.Nonempty := by
    intro q hq
    obtain ⟨p, _, rfl⟩ := List.mem_map.1 hq
    exact ⟨p.1, Finset.mem_insert_self _ _⟩
  have hG : Good (AMap.ofInterior items) := by
    refine good_ofDict ?_
    rw [ofItems_eq _ hd' hn']; exact inv_of_list _ hd' hn'
  have hdict : (AMap.ofInterior items).dict = items.map (fun p => (insert p.1 p.2.1.toFinset, p.2.2)) :=
    ofItems_eq _ hd' hn'
  refine ⟨fun p hp a ha => ?_, fun a ha => ?_⟩
  · rw [getItem_ok hG, hdict]
    exact ⟨_, List.mem_map.2 ⟨p, hp, rfl⟩, by simpa using ha⟩
  · rw [getItem_error hG, resolve_none hG, hdict]
    intro g hg
    simp only [Dict.keys, List.map_map, List.mem_map, Function.comp_apply] at hg
    obtain ⟨p, hp, rfl⟩ := hg
    simpa using ha p hp

/-- **C15**, for a mapping combined with a collection of disjoint alias groups: each name of the mapping,
and each of its aliases, reads the value of that name. -/
theorem c15_lookup_groups (items : List (κ × ν)) (gs : List (Finset κ)) (hgs : gs.Pairwise Disjoint)
    (hnd : (items.map Prod.fst).Nodup)
    (hsep : ∀ p ∈ items, ∀ q ∈ items, ∀ g ∈ gs, p.1 ∈ g → q.1 ∈ g → p.1 = q.1) :
    ∀ p ∈ items, (AMap.ofGroups items gs).getItem p.1 = .ok p.2 ∧
      ∀ g ∈ gs, p.1 ∈ g → ∀ a ∈ g, (AMap.ofGroups items gs).getItem a = .ok p.2 := by
  have hget : ∀ x g, groupsGet gs x = some g ↔ g ∈ gs ∧ x ∈ g := by
    intro x g
    unfold groupsGet
    constructor
    · intro h
      exact ⟨List.mem_of_find?_eq_some h, by simpa using List.find?_some h⟩
    · rintro ⟨hg, hx⟩
      cases h : gs.find? (fun g => decide (x ∈ g)) with
      | none => have := List.find?_eq_none.1 h g hg; simp [hx] at this
      | some g' =>
        congr 1
        exact group_unique hgs (List.mem_of_find?_eq_some h) hg (by simpa using List.find?_some h) hx
  let grp : κ → Finset κ := fun k => insert k ((groupsGet gs k).getD ∅)
  have hmem : ∀ k a, a ∈ grp k ↔ a = k ∨ ∃ g ∈ gs, k ∈ g ∧ a ∈ g := by
    intro k a
    simp only [grp, Finset.mem_insert]
    cases h : groupsGet gs k with
    | none =>
      simp only [Option.getD_none, Finset.notMem_empty, or_false]
      constructor
      · exact Or.inl
      · rintro (h' | ⟨g, hg, hk, _⟩)
        · exact h'
        · have := (hget k g).2 ⟨hg, hk⟩; rw [h] at this; cases this
    | some g =>
      obtain ⟨hg, hk⟩ := (hget k g).1 h
      simp only [Option.getD_some]
      constructor
      · rintro (h' | h')
        · exact Or.inl h'
        · exact Or.inr ⟨g, hg, hk, h'⟩
      · rintro (h' | ⟨g', hg', hk', ha'⟩)
        · exact Or.inl h'
        · exact Or.inr (group_unique hgs hg' hg hk' hk ▸ ha')
  have hd' : ((items.map (fun p => (grp p.1, p.2))).map Prod.fst).Pairwise Disjoint := by
    rw [List.map_map]
    rw [List.pairwise_map]
    have : items.Pairwise (fun p q => p.1 ≠ q.1) := by
      unfold List.Nodup at hnd; rwa [List.pairwise_map] at hnd
    refine this.imp_of_mem (fun {p q} hp hq hne => ?_)
    rw [Function.comp_apply, Function.comp_apply, Finset.disjoint_left]
    intro a ha hb
    apply hne
    rcases (hmem _ _).1 ha with rfl | ⟨g, hg, hk, hag⟩
    · rcases (hmem _ _).1 hb with h | ⟨g', hg', hk', hag'⟩
      · exact h
      · exact hsep p hp q hq g' hg' hag' hk'
    · rcases (hmem _ _).1 hb with rfl | ⟨g', hg', hk', hag'⟩
      · exact hsep p hp q hq g hg hk hag
      · have := group_unique hgs hg hg' hag hag'
        subst this
        exact hsep p hp q hq g hg hk hk'
  have hn' : ∀ q ∈ items.map (fun p => (grp p.1, p.2)), q.1.Nonempty := by
    intro q hq
    obtain ⟨p, _, rfl⟩ := List.mem_map.1 hq
    exact ⟨p.1, Finset.mem_insert_self _ _⟩
  have hG : Good (AMap.ofGroups items gs) := by
    refine good_ofDict ?_
    rw [ofItems_eq _ hd' hn']; exact inv_of_list _ hd' hn'
  have hdict : (AMap.ofGroups items gs).dict = items.map (fun p => (grp p.1, p.2)) := ofItems_eq _ hd' hn'
  intro p hp
  refine ⟨?_, fun g hg hk a ha => ?_⟩
  · rw [getItem_ok hG, hdict]
    exact ⟨_, List.mem_map.2 ⟨p, hp, rfl⟩, (hmem _ _).2 (Or.inl rfl)⟩
  · rw [getItem_ok hG, hdict]
    exact ⟨_, List.mem_map.2 ⟨p, hp, rfl⟩, (hmem _ _).2 (Or.inr ⟨g, hg, hk, ha⟩)⟩

theorem ofMapping_good (mapping : List (Key κ × ν))
    (hd : (mapping.map (fun p => p.1.group)).Pairwise Disjoint)
    (hn : ∀ p ∈ mapping, p.1.group.Nonempty) : Good (AMap.ofMapping mapping) := by
  refine good_ofDict ?_
  rw [buildFromAliases_eq mapping hd hn]
  refine inv_of_list _ (by simpa [List.map_map, Function.comp_def] using hd) ?_
  intro q hq
  obtain ⟨p, hp, rfl⟩ := List.mem_map.1 hq
  exact hn p hp

/-- **C15**, when a later single name repeats a name of an earlier entry: its value becomes the value of
every alias of that entry, and no other name changes. -/
theorem c15_lookup_repeated (mapping : List (Key κ × ν))
    (hd : (mapping.map (fun p => p.1.group)).Pairwise Disjoint)
    (hn : ∀ p ∈ mapping, p.1.group.Nonempty) (k : κ) (v : ν) :
    (AMap.ofMapping (mapping ++ [(.name k, v)])).getItem k = .ok v ∧
    (∀ p ∈ mapping, k ∈ p.1.group → ∀ a ∈ p.1.group,
      (AMap.ofMapping (mapping ++ [(.name k, v)])).getItem a = .ok v) ∧
    (∀ a, a ≠ k → (∀ p ∈ mapping, k ∈ p.1.group → a ∉ p.1.group) →
      (AMap.ofMapping (mapping ++ [(.name k, v)])).getItem a = (AMap.ofMapping mapping).getItem a) := by
  have hG := ofMapping_good mapping hd hn
  have hdict : (AMap.ofMapping mapping).dict = mapping.map (fun p => (p.1.group, p.2)) :=
    buildFromAliases_eq mapping hd hn
  have e : AMap.ofMapping (mapping ++ [(.name k, v)]) = (AMap.ofMapping mapping).setItem k v := by
    unfold AMap.ofMapping AMap.setItem
    congr 1
    unfold buildFromAliases
    rw [List.foldl_append]
    simp only [List.foldl_cons, List.foldl_nil]
    change buildStep (AMap.ofMapping mapping).dict _ = (AMap.ofMapping mapping).dict.set
      ((AMap.ofMapping mapping).resolve k |>.getD {k}) v
    unfold buildStep
    dsimp only
    cases hf : (AMap.ofMapping mapping).dict.find? (fun q => decide (k ∈ q.1)) with
    | none =>
      have : (AMap.ofMapping mapping).resolve k = none := by
        rw [resolve_none hG]
        intro g hg hk
        obtain ⟨q, hq, rfl⟩ := List.mem_map.1 hg
        have := List.find?_eq_none.1 hf q hq
        simp [hk] at this
      rw [this]; rfl
    | some q =>
      have : (AMap.ofMapping mapping).resolve k = some q.1 := by
        rw [resolve_some hG]
        exact ⟨List.mem_map.2 ⟨q, List.mem_of_find?_eq_some hf, rfl⟩, by simpa using List.find?_some hf⟩
      rw [this]; rfl
  rw [e]
  obtain ⟨_, h2, _⟩ := setItem_spec hG k v
  refine ⟨by rw [h2, if_pos (mem_target hG k)], fun p hp hk a ha => ?_, fun a hak ha => ?_⟩
  · rw [h2, if_pos]
    have : (AMap.ofMapping mapping).resolve k = some p.1.group := by
      rw [resolve_some hG, hdict]
      exact ⟨List.mem_map.2 ⟨_, List.mem_map.2 ⟨p, hp, rfl⟩, rfl⟩, hk⟩
    unfold target; rw [this]; exact ha
  · rw [h2, if_neg]
    unfold target
    cases hr : (AMap.ofMapping mapping).resolve k with
    | none => simpa using hak
    | some g =>
      rw [resolve_some hG, hdict] at hr
      obtain ⟨hg, hk⟩ := hr
      obtain ⟨q, hq, rfl⟩ := List.mem_map.1 hg
      obtain ⟨p, hp, rfl⟩ := List.mem_map.1 hq
      exact ha p hp hk

theorem or_getItem {m n : AMap κ ν} (hm : Good m) (hn : Good n)
    (hc : ∀ g ∈ n.dict.keys, g ∈ m.dict.keys ∨ ∀ g' ∈ m.dict.keys, Disjoint g' g) (a : κ) :
    (m.or n).getItem a = if n.contains a then n.getItem a else m.getItem a := by
  have key : ∀ (l : List (Finset κ × ν)) (d : Dict (Finset κ) ν), Inv d →
      (l.map Prod.fst).Pairwise Disjoint → (∀ p ∈ l, p.1.Nonempty) →
      (∀ p ∈ l, p.1 ∈ d.keys ∨ ∀ g' ∈ d.keys, Disjoint g' p.1) →
      Inv (l.foldl (fun d p => d.set p.1 p.2) d) ∧
      ∀ g v, (g, v) ∈ l.foldl (fun d p => d.set p.1 p.2) d ↔
        (g, v) ∈ l ∨ (g ∉ l.map Prod.fst ∧ (g, v) ∈ d) := by
    intro l
    induction l with
    | nil => intro d hd _ _ _; exact ⟨hd, fun g v => by simp⟩
    | cons p l ih =>
      intro d hd hdis hne hcmp
      rw [List.map_cons, List.pairwise_cons] at hdis
      have hI := inv_set hd (hne p (by simp)) p.2 (hcmp p (by simp))
      have hcmp' : ∀ q ∈ l, q.1 ∈ (d.set p.1 p.2).keys ∨ ∀ g' ∈ (d.set p.1 p.2).keys, Disjoint g' q.1 := by
        intro q hq
        rcases hcmp q (by simp [hq]) with h | h
        · exact Or.inl (Dict.mem_keys_set.2 (Or.inr h))
        · refine Or.inr (fun g' hg' => ?_)
          rcases Dict.mem_keys_set.1 hg' with rfl | h'
          · exact hdis.1 q.1 (List.mem_map.2 ⟨q, hq, rfl⟩)
          · exact h g' h'
      obtain ⟨h1, h2⟩ := ih (d.set p.1 p.2) hI hdis.2 (fun q hq => hne q (by simp [hq])) hcmp'
      refine ⟨h1, fun g v => ?_⟩
      rw [List.foldl_cons, h2, mem_set hd.wf]
      have hp : p.1 ∉ l.map Prod.fst := by
        intro hmem
        have := hdis.1 p.1 hmem
        rw [disjoint_self] at this
        have hne' := hne p (by simp)
        rw [this] at hne'
        exact absurd hne' (by simp)
      obtain ⟨pg, pv⟩ := p
      simp only [List.mem_cons, Prod.mk.injEq, List.map_cons, not_or]
      constructor
      · rintro (h | ⟨h, ⟨rfl, rfl⟩ | ⟨h3, h4⟩⟩)
        · exact Or.inl (Or.inr h)
        · exact Or.inl (Or.inl ⟨rfl, rfl⟩)
        · exact Or.inr ⟨⟨h3, h⟩, h4⟩
      · rintro ((⟨rfl, rfl⟩ | h) | ⟨⟨h3, h⟩, h4⟩)
        · exact Or.inr ⟨hp, Or.inl ⟨rfl, rfl⟩⟩
        · exact Or.inl h
        · exact Or.inr ⟨h, Or.inr ⟨h3, h4⟩⟩
  have hof : Dict.ofItems (m.dict ++ n.dict) = n.dict.foldl (fun d p => d.set p.1 p.2) m.dict := by
    unfold Dict.ofItems
    rw [List.foldl_append]
    congr 1
    exact Dict.ofItems_nodup m.dict hm.inv.wf
  obtain ⟨hI, hmem⟩ := key n.dict m.dict hm.inv hn.inv.disj
    (fun p hp => hn.inv.nonempty p.1 (List.mem_map.2 ⟨p, hp, rfl⟩))
    (fun p hp => hc p.1 (List.mem_map.2 ⟨p, hp, rfl⟩))
  have hG : Good (m.or n) := by
    refine good_ofDict ?_
    rw [hof]; exact hI
  have hdict : (m.or n).dict = n.dict.foldl (fun d p => d.set p.1 p.2) m.dict := hof
  split
  · rename_i ha
    refine getItem_congr hG hn (fun v => ?_)
    rw [hdict]
    constructor
    · rintro ⟨g, hg, hag⟩
      rcases (hmem g v).1 hg with h | ⟨h1, h2⟩
      · exact ⟨g, h, hag⟩
      · exfalso
        unfold AMap.contains at ha
        rw [Option.isSome_iff_exists] at ha
        obtain ⟨g', hg'⟩ := ha
        obtain ⟨hg', hag'⟩ := (resolve_some hn).1 hg'
        rcases hc g' hg' with h | h
        · have hgg : g = g' := group_unique hm.inv.disj (List.mem_map.2 ⟨_, h2, rfl⟩) h hag hag'
          rw [hgg] at h1
          exact h1 hg'
        · exact Finset.disjoint_left.1 (h g (List.mem_map.2 ⟨_, h2, rfl⟩)) hag hag'
    · rintro ⟨g, hg, hag⟩
      exact ⟨g, (hmem g v).2 (Or.inl hg), hag⟩
  · rename_i ha
    have hna : ∀ g ∈ n.dict.keys, a ∉ g := by
      rw [← resolve_none hn]
      unfold AMap.contains at ha
      simpa using ha
    refine getItem_congr hG hm (fun v => ?_)
    rw [hdict]
    constructor
    · rintro ⟨g, hg, hag⟩
      rcases (hmem g v).1 hg with h | ⟨h1, h2⟩
      · exact absurd hag (hna g (List.mem_map.2 ⟨_, h, rfl⟩))
      · exact ⟨g, h2, hag⟩
    · rintro ⟨g, hg, hag⟩
      exact ⟨g, (hmem g v).2 (Or.inr ⟨fun h => hna g h hag, hg⟩), hag⟩

/-- `{'a': 1, ('b', 'B'): 2, ('c', 'C', 'z'): 9}` -/
def demoMapping : List (Key Char × Nat) :=
  [(.name 'a', 1), (.tuple ['b', 'B'], 2), (.tuple ['c', 'C', 'z'], 9)]

example : (demoMapping.map (fun p => p.1.group)).Pairwise Disjoint ∧
    ∀ p ∈ demoMapping, p.1.group.Nonempty := by
  constructor
  · decide
  · intro p hp
    simp only [demoMapping, List.mem_cons, List.not_mem_nil, or_false] at hp
    rcases hp with rfl | rfl | rfl <;> decide
example : (AMap.ofMapping demoMapping).getItem 'B' = .ok 2 ∧ (AMap.ofMapping demoMapping).len = 6 := by decide
example : (AMap.ofMapping (demoMapping ++ [(.name 'b', 7)])).getItem 'B' = .ok 7 := by decide
example : let m := AMap.ofMapping demoMapping
    let n := AMap.ofMapping [(Key.tuple ['B', 'b'], 5), (.name 'w', 6)]
    (m.or n).getItem 'b' = .ok 5 ∧ (m.or n).getItem 'w' = .ok 6 ∧ (m.or n).getItem 'z' = .ok 9 := by decide
example : (AMap.ofInterior [('a', ['A', 'z'], 1), ('b', ['B'], 2)]).getItem 'z' = .ok 1 := by decide
example : (AMap.ofGroups [('a', 1), ('b', 2)] [{'a', 'A'}, {'x', 'y'}]).getItem 'A' = .ok 1 := by decide

/-! ## C16: the mutable mapping as a state machine -/

/-- The states of a mutable aliased mapping: it starts from a user mapping whose keys share no name
(possibly the empty one), and is changed by assignments, deletions and `alias` calls; an `alias` call
that raises may have added some of its aliases already. -/
inductive Reachable : AMap κ ν → Prop
  | start (mapping : List (Key κ × ν)) (hd : (mapping.map (fun p => p.1.group)).Pairwise Disjoint)
      (hn : ∀ p ∈ mapping, p.1.group.Nonempty) : Reachable (AMap.ofMapping mapping)
  | set {m : AMap κ ν} (k : κ) (v : ν) : Reachable m → Reachable (m.setItem k v)
  | del {m m' : AMap κ ν} (k : κ) : Reachable m → m.delItem k = .ok m' → Reachable m'
  | addAlias {m : AMap κ ν} (k : κ) (as : List κ) : Reachable m → Reachable (m.alias k as).1

theorem alias_good {m : AMap κ ν} (hm : Good m) (k : κ) (as : List κ) : Good (m.alias k as).1 := by
  unfold AMap.alias
  split
  · exact hm
  · exact aliasLoop_good hm k as

theorem reachable_good {m : AMap κ ν} (h : Reachable m) : Good m := by
  induction h with
  | start mapping hd hn =>
    refine good_ofDict ?_
    rw [buildFromAliases_eq mapping hd hn]
    refine inv_of_list _ (by simpa [List.map_map, Function.comp_def] using hd) ?_
    intro q hq
    obtain ⟨p, hp, rfl⟩ := List.mem_map.1 hq
    exact hn p hp
  | set k v _ ih => exact (setItem_spec ih k v).1
  | del k _ hdel ih =>
    rename_i m m' _
    cases h : m.resolve k with
    | none => rw [(delItem_spec ih k).1 h] at hdel; cases hdel
    | some g =>
      obtain ⟨m'', h1, h2, _⟩ := (delItem_spec ih k).2 g h
      rw [h1] at hdel; cases hdel; exact h2
  | addAlias k as _ ih => exact alias_good ih k as

/-- **C15**, `m | n`: when each alias group of `n` either is a group of `m` or shares no name with `m`, the
merged mapping reads the value of `n` under every name of `n` and the value of `m` under the others. -/
theorem c15_or {m n : AMap κ ν} (hm : Reachable m) (hn : Reachable n)
    (hc : ∀ b g, n.aliases b = some g → m.aliases b = some g ∨ ∀ a ∈ g, m.contains a = false) (a : κ) :
    (m.or n).getItem a = if n.contains a then n.getItem a else m.getItem a := by
  have hmg := reachable_good hm
  have hng := reachable_good hn
  refine or_getItem hmg hng (fun g hg => ?_) a
  obtain ⟨b, hb⟩ := hng.inv.nonempty g hg
  rcases hc b g ((resolve_some hng).2 ⟨hg, hb⟩) with h | h
  · exact Or.inl ((resolve_some hmg).1 h).1
  · refine Or.inr (fun g' hg' => ?_)
    rw [Finset.disjoint_left]
    intro c hc1 hc2
    have h1 := h c hc2
    unfold AMap.contains at h1
    rw [(resolve_some hmg).2 ⟨hg', hc1⟩] at h1
    cases h1

/-- **C16.** In every reachable state each key belongs to its own alias group, and two keys have the same
alias group as soon as their groups share a name. -/
theorem c16_groups_disjoint {m : AMap κ ν} (h : Reachable m) (a b : κ) (g g' : Finset κ)
    (ha : m.aliases a = some g) (hb : m.aliases b = some g') :
    a ∈ g ∧ ((∃ c, c ∈ g ∧ c ∈ g') → g = g') := by
  have hm := reachable_good h
  obtain ⟨h1, h2⟩ := (resolve_some hm).1 ha
  obtain ⟨h3, _⟩ := (resolve_some hm).1 hb
  exact ⟨h2, fun ⟨c, hc, hc'⟩ => group_unique hm.inv.disj h1 h3 hc hc'⟩

/-- **C16.** After `m[k] = v`, `k` and all its aliases read `v`; every other key reads as before; alias
groups do not change, except that a new key forms a group of its own. -/
theorem c16_set {m : AMap κ ν} (h : Reachable m) (k : κ) (v : ν) :
    (m.setItem k v).getItem k = .ok v ∧
    (∀ g, m.aliases k = some g → ∀ a ∈ g, (m.setItem k v).getItem a = .ok v) ∧
    (∀ a, a ≠ k → (∀ g, m.aliases k = some g → a ∉ g) → (m.setItem k v).getItem a = m.getItem a) ∧
    (∀ a, a ≠ k → (m.setItem k v).aliases a = m.aliases a) ∧
    (m.setItem k v).aliases k = some ((m.aliases k).getD {k}) := by
  have hm := reachable_good h
  obtain ⟨_, h2, h3⟩ := setItem_spec hm k v
  have hk := mem_target hm k
  refine ⟨by rw [h2, if_pos hk], fun g hg a ha => ?_, fun a hak ha => ?_, fun a hak => ?_, ?_⟩
  · rw [h2, if_pos]
    have : target m k = g := by unfold target; change (m.aliases k).getD _ = _; rw [hg]; rfl
    rw [this]; exact ha
  · rw [h2, if_neg]
    unfold target
    cases hr : m.resolve k with
    | none => simpa using hak
    | some g => exact ha g hr
  · change (m.setItem k v).resolve a = m.resolve a
    rw [h3]
    split
    · rename_i ha
      unfold target at ha ⊢
      cases hr : m.resolve k with
      | none => rw [hr] at ha; exact absurd (by simpa using ha) hak
      | some g =>
        rw [hr] at ha
        exact ((resolve_some hm).2 ⟨((resolve_some hm).1 hr).1, ha⟩).symm
    · rfl
  · change (m.setItem k v).resolve k = _
    rw [h3, if_pos hk]; rfl

/-- **C16.** Deleting fails exactly for unknown keys; otherwise it removes `k` with all its aliases and
nothing else. -/
theorem c16_del {m : AMap κ ν} (h : Reachable m) (k : κ) :
    (m.delItem k = .error .keyError ↔ m.contains k = false) ∧
    (∀ m', m.delItem k = .ok m' → ∃ g, m.aliases k = some g ∧
      (∀ a ∈ g, m'.contains a = false ∧ m'.getItem a = .error .keyError) ∧
      (∀ a, a ∉ g → m'.getItem a = m.getItem a ∧ m'.aliases a = m.aliases a)) := by
  have hm := reachable_good h
  obtain ⟨h1, h2⟩ := delItem_spec hm k
  unfold AMap.contains
  cases hr : m.resolve k with
  | none =>
    refine ⟨by simp [h1 hr], fun m' hm' => ?_⟩
    rw [h1 hr] at hm'; cases hm'
  | some g =>
    obtain ⟨m1, i1, i2, i3, i4⟩ := h2 g hr
    refine ⟨by simp [i1], fun m' hm' => ?_⟩
    rw [i1] at hm'; cases hm'
    refine ⟨g, hr, fun a ha => ?_, fun a ha => ?_⟩
    · refine ⟨by simp [i4, ha], by simp [i3, ha]⟩
    · exact ⟨by simp [i3, ha], by change m1.resolve a = _; simp [i4, ha]; rfl⟩

/-- **C16.** Adding an alias `a` to a known key `k` raises exactly when `a` is in use; otherwise `a` reads
what `k` reads, `a` joins the group of `k`, and no other key reads differently. -/
theorem c16_alias {m : AMap κ ν} (h : Reachable m) (k a : κ) (hak : a ≠ k) (hk : m.contains k = true) :
    ((m.alias k [a]).2 ≠ none ↔ m.contains a = true) ∧
    ((m.alias k [a]).2 ≠ none → (m.alias k [a]).1 = m) ∧
    ((m.alias k [a]).2 = none →
      (m.alias k [a]).1.getItem a = m.getItem k ∧
      (∀ b, b ≠ a → (m.alias k [a]).1.getItem b = m.getItem b) ∧
      (∀ g, m.aliases k = some g → ∀ b, b = a ∨ b ∈ g → (m.alias k [a]).1.aliases b = some (insert a g))) := by
  have hm := reachable_good h
  have hal : m.alias k [a] = match m.aliasOne k a with
      | .error e => (m, some e)
      | .ok m' => (m', none) := by
    simp only [AMap.alias, List.cons_ne_nil, if_false, AMap.aliasLoop, if_neg hak]
    cases m.aliasOne k a <;> rfl
  unfold AMap.contains at *
  obtain ⟨g, hg⟩ := Option.isSome_iff_exists.1 hk
  cases hr : m.resolve a with
  | some g' =>
    obtain ⟨e, he⟩ := (aliasOne_spec hm k a).1 (Or.inl (by rw [hr]; simp))
    rw [hal, he]
    simp
  | none =>
    obtain ⟨m', h1, h2, h3, h4⟩ := (aliasOne_spec hm k a).2 g hg hr
    rw [hal, h1]
    refine ⟨by simp, by simp, fun _ => ⟨by simp [h3], fun b hb => by simp [h3, hb], fun g' hg' b hb => ?_⟩⟩
    have : g' = g := by
      have : m.resolve k = some g' := hg'
      rw [hg] at this; exact (Option.some.inj this).symm
    subst this
    change m'.resolve b = _
    rw [h4, if_pos]
    rcases hb with rfl | hb
    · exact Finset.mem_insert_self _ _
    · exact Finset.mem_insert_of_mem hb

/-- **C16**, several aliases at once: if all are new and distinct, all of them read what `k` reads, and no
other key reads differently. -/
theorem c16_alias_many {m : AMap κ ν} (h : Reachable m) (k : κ) (as : List κ) (hk : m.contains k = true)
    (hn : as.Nodup) (hf : ∀ a ∈ as, a ≠ k → m.contains a = false) :
    (m.alias k as).2 = none ∧ (∀ a ∈ as, (m.alias k as).1.getItem a = m.getItem k) ∧
    (∀ b, b ∉ as → (m.alias k as).1.getItem b = m.getItem b) := by
  have hm := reachable_good h
  unfold AMap.contains at *
  obtain ⟨g, hg⟩ := Option.isSome_iff_exists.1 hk
  obtain ⟨m', h1, _, h3, _⟩ := aliasLoop_ok hm k as g hg (hn.filter _)
    (fun a ha hak => by simpa using hf a ha hak)
  have : m.alias k as = (m', none) := by
    unfold AMap.alias
    split
    · rename_i hnil; subst hnil
      simp only [AMap.aliasLoop] at h1
      simp [hg]; exact (Prod.mk.inj h1).1
    · exact h1
  rw [this]
  exact ⟨rfl, fun a ha => by simp [h3, ha], fun b hb => by simp [h3, hb]⟩

example : Reachable ((AMap.ofMapping demoMapping).setItem 'B' 7) := by
  refine .set _ _ (.start _ (by decide) ?_)
  intro p hp
  simp only [demoMapping, List.mem_cons, List.not_mem_nil, or_false] at hp
  rcases hp with rfl | rfl | rfl <;> decide
example : ((AMap.ofMapping demoMapping).setItem 'B' 7).getItem 'b' = .ok 7 := by decide
example : ((AMap.ofMapping demoMapping).alias 'a' ['x', 'B', 'y']).2 = some .keyError ∧
    ((AMap.ofMapping demoMapping).alias 'a' ['x', 'B', 'y']).1.getItem 'x' = .ok 1 ∧
    ((AMap.ofMapping demoMapping).alias 'a' ['x', 'B', 'y']).1.contains 'y' = false := by decide
example : ((AMap.ofMapping demoMapping).delItem 'C').map (fun m => m.len) = .ok 3 := by decide

/-- **C65 is false of the code**: after `m.group('G', 'a')` and `m['G'] = 5`, reading `m['G']` does not give
`5` but the values of the group. -/
theorem c65_group_hides_key :
    ∃ m : MutMap Char Nat, (MutMap.group ⟨AMap.ofMapping demoMapping, []⟩ 'G' ['a']) = .ok m ∧
      (m.setItem 'G' 5).toAMap.getItem 'G' = .ok 5 ∧
      (m.setItem 'G' 5).read 'G' = .ok (.many [1]) := by
  refine ⟨⟨AMap.ofMapping demoMapping, [('G', ['a'])]⟩, ?_, by decide, by decide⟩
  unfold MutMap.group
  rw [if_neg (by decide)]
  rfl

/-- **C65**, the part that holds: a read of a key that is not the name of a group gives the plain value. -/
theorem c65_read_plain_partial (m : MutMap κ ν) (k : κ) (h : ∀ p ∈ m.groups, p.1 ≠ k) (v : ν)
    (hr : Reachable m.toAMap) : (m.setItem k v).read k = .ok (.one v) := by
  have hg : Dict.get? m.groups k = none := by
    rw [Dict.get?_eq_none]
    intro hk
    obtain ⟨p, hp, rfl⟩ := List.mem_map.1 hk
    exact h p hp rfl
  have : (m.setItem k v).groups = m.groups := rfl
  unfold MutMap.read
  rw [this, hg]
  have hset := (c16_set hr k v).1
  change ((m.toAMap.setItem k v).getItem k).map Read.one = _
  rw [hset]; rfl

/-- **C66 is false of the code**: assigning through a tuple of names that includes an existing key leaves
two groups that share a name, so that key and its old partner no longer read the same. -/
theorem c66_tuple_assignment_splits :
    let m := (AMap.ofMapping demoMapping).setTuple ['b', 'x'] 5
    (AMap.ofMapping demoMapping).aliases 'b' = some {'b', 'B'} ∧
      m.getItem 'b' = .ok 5 ∧ m.getItem 'B' = .ok 2 := by decide

/-- **C66**, the part that holds: assigning through a tuple of new names makes each of them read the value
and changes no other key. -/
theorem c66_tuple_fresh_partial {m : AMap κ ν} (h : Reachable m) (ks : List κ) (hne : ks ≠ [])
    (hf : ∀ k ∈ ks, m.contains k = false) (v : ν) :
    (∀ k ∈ ks, (m.setTuple ks v).getItem k = .ok v) ∧
    (∀ a, a ∉ ks → (m.setTuple ks v).getItem a = m.getItem a) := by
  have hm := reachable_good h
  have hdis : ∀ g' ∈ m.dict.keys, Disjoint g' ks.toFinset := by
    intro g' hg'
    rw [Finset.disjoint_left]
    intro a ha ha'
    have := hf a (by simpa using ha')
    unfold AMap.contains at this
    exact (resolve_none hm).1 (by simpa using this) g' hg' ha
  have hne' : ks.toFinset.Nonempty := by
    cases ks with
    | nil => exact absurd rfl hne
    | cons k _ => exact ⟨k, by simp⟩
  have hG : Good (m.setTuple ks v) := good_ofDict (inv_set hm.inv hne' v (Or.inr hdis))
  have hd : (m.setTuple ks v).dict = m.dict.set ks.toFinset v := rfl
  refine ⟨fun k hk => ?_, fun a ha => ?_⟩
  · rw [getItem_ok hG, hd]
    exact ⟨_, (mem_set hm.inv.wf).2 (Or.inl ⟨rfl, rfl⟩), by simpa using hk⟩
  · refine getItem_congr hG hm (fun w => ?_)
    rw [hd]
    constructor
    · rintro ⟨g, hg, hag⟩
      rcases (mem_set hm.inv.wf).1 hg with ⟨rfl, _⟩ | ⟨_, h⟩
      · exact absurd (by simpa using hag) ha
      · exact ⟨g, h, hag⟩
    · rintro ⟨g, hg, hag⟩
      exact ⟨g, (mem_set hm.inv.wf).2 (Or.inr ⟨fun h => ha (by rw [h] at hag; simpa using hag), hg⟩), hag⟩

/-! ## C17: merging collections of groups -/

/-- `order` lists the members of every group. -/
def Lists (order : Finset κ → List κ) : Prop := ∀ g a, a ∈ order g ↔ a ∈ g

theorem search_some {order : Finset κ → List κ} (ho : Lists order) {gs : List (Finset κ)} {g f : Finset κ}
    (h : groupsSearch order gs g = some f) : f ∈ gs ∧ ¬ Disjoint f g := by
  unfold groupsSearch at h
  obtain ⟨l₁, a, l₂, hl, hf, _⟩ := List.findSome?_eq_some_iff.1 h
  have ha : a ∈ g := (ho g a).1 (by rw [hl]; simp)
  unfold groupsGet at hf
  have h1 := List.find?_some hf
  simp only [decide_eq_true_eq] at h1
  exact ⟨List.mem_of_find?_eq_some hf, fun hd => Finset.disjoint_left.1 hd h1 ha⟩

theorem search_none {order : Finset κ → List κ} (ho : Lists order) {gs : List (Finset κ)} {g : Finset κ}
    (h : groupsSearch order gs g = none) : ∀ f ∈ gs, Disjoint f g := by
  intro f hf
  rw [Finset.disjoint_left]
  intro a ha hag
  unfold groupsSearch at h
  have := List.findSome?_eq_none_iff.1 h a ((ho g a).2 hag)
  unfold groupsGet at this
  have := List.find?_eq_none.1 this f hf
  simp [ha] at this

theorem nodup_of_disj {l : List (Finset κ)} (h : l.Pairwise Disjoint) (hn : ∀ g ∈ l, g.Nonempty) : l.Nodup := by
  have := (inv_of_list (l.map (fun g => (g, ()))) (by simpa [List.map_map, Function.comp_def] using h)
    (by intro p hp; obtain ⟨g, hg, rfl⟩ := List.mem_map.1 hp; exact hn g hg)).wf
  unfold Dict.WF Dict.keys at this
  simpa [List.map_map, Function.comp_def] using this

theorem mergeLoop_ok {order : Finset κ → List κ} (ho : Lists order) {gs others : List (Finset κ)}
    (hgn : ∀ g ∈ gs, g.Nonempty)
    (hod : others.Pairwise Disjoint) (hon : ∀ g ∈ others, g.Nonempty)
    (H1 : ∀ o ∈ others, ∀ f ∈ gs, ∀ f' ∈ gs, ¬ Disjoint f o → ¬ Disjoint f' o → f = f')
    (H2 : ∀ f ∈ gs, ∀ o ∈ others, ∀ o' ∈ others, ¬ Disjoint f o → ¬ Disjoint f o' → o = o') :
    ∀ (rest done these : List (Finset κ)), done ++ rest = others → these.Pairwise Disjoint →
      (∀ t ∈ these, t.Nonempty) →
      (∀ f ∈ gs, (∀ o ∈ done, Disjoint f o) → f ∈ these) →
      (∀ t ∈ these, ∀ r ∈ rest, ¬ Disjoint t r → t ∈ gs) →
      (∀ f, f ∈ gs ∨ f ∈ done → ∃ t ∈ these, f ⊆ t) →
      (∀ t ∈ these, ∀ a ∈ t, ∃ f, (f ∈ gs ∨ f ∈ others) ∧ a ∈ f) →
      ∃ r, mergeGroupsLoop order gs these rest = .ok r ∧ r.Pairwise Disjoint ∧
        (∀ f, f ∈ gs ∨ f ∈ others → ∃ t ∈ r, f ⊆ t) ∧
        (∀ t ∈ r, ∀ a ∈ t, ∃ f, (f ∈ gs ∨ f ∈ others) ∧ a ∈ f) := by
  intro rest
  induction rest with
  | nil =>
    intro done these hdr hd _ _ _ hcov hsrc
    rw [List.append_nil] at hdr
    subst hdr
    exact ⟨these, rfl, hd, hcov, hsrc⟩
  | cons g rest ih =>
    intro done these hdr hd hne hkeep hold hcov hsrc
    have hg : g ∈ others := by rw [← hdr]; simp
    have hond : others.Nodup := nodup_of_disj hod hon
    rw [← hdr] at hond
    have hgd : g ∉ done := fun h => (List.nodup_append.1 hond).2.2 g h g (by simp) rfl
    have hgr : g ∉ rest := (List.nodup_cons.1 (List.nodup_append.1 hond).2.1).1
    have hdr' : (done ++ [g]) ++ rest = others := by rw [← hdr]; simp
    have hgrest : ∀ r ∈ rest, Disjoint g r := by
      intro r hr
      have hr' : r ∈ others := by rw [← hdr]; simp [hr]
      exact disj_forall hod hg hr' (fun h => hgr (h ▸ hr))
    unfold mergeGroupsLoop
    cases hs : groupsSearch order gs g with
    | some f =>
      obtain ⟨hf, hfg⟩ := search_some ho hs
      have hfdone : ∀ o ∈ done, Disjoint f o := by
        intro o hod'
        by_contra hno
        have ho' : o ∈ others := by rw [← hdr]; simp [hod']
        exact hgd (H2 f hf o ho' g hg hno hfg ▸ hod')
      have hft : f ∈ these := hkeep f hf hfdone
      have hnd : these.Nodup := nodup_of_disj hd hne
      simp only [hft, if_true]
      have hdis : ∀ t ∈ these.erase f, Disjoint t f ∧ Disjoint t g := by
        intro t ht
        obtain ⟨htf, ht'⟩ := (hnd.mem_erase_iff).1 ht
        refine ⟨disj_forall hd ht' hft htf, ?_⟩
        by_contra hno
        exact htf (H1 g hg t (hold t ht' g (by simp) hno) f hf hno hfg)
      apply ih (done ++ [g]) _ hdr'
      · rw [List.pairwise_append]
        refine ⟨hd.sublist List.erase_sublist, by simp, fun t ht u hu => ?_⟩
        simp only [List.mem_singleton] at hu
        subst hu
        rw [Finset.disjoint_union_right]
        exact hdis t ht
      · intro t ht
        rcases List.mem_append.1 ht with ht | ht
        · exact hne t (List.mem_of_mem_erase ht)
        · simp only [List.mem_singleton] at ht
          subst ht
          obtain ⟨a, ha⟩ := hon g hg
          exact ⟨a, Finset.mem_union_right _ ha⟩
      · intro f' hf' hdn
        rw [List.mem_append]
        left
        rw [hnd.mem_erase_iff]
        refine ⟨?_, hkeep f' hf' (fun o hod' => hdn o (by simp [hod']))⟩
        rintro rfl
        exact hfg (hdn g (by simp))
      · intro t ht r hr hno
        rcases List.mem_append.1 ht with ht | ht
        · exact hold t (List.mem_of_mem_erase ht) r (by simp [hr]) hno
        · simp only [List.mem_singleton] at ht
          subst ht
          exfalso
          rw [Finset.disjoint_union_left, not_and_or] at hno
          have hr' : r ∈ others := by rw [← hdr]; simp [hr]
          rcases hno with hno | hno
          · exact hgr (H2 f hf r hr' g hg hno hfg ▸ hr)
          · exact hno (hgrest r hr)
      · intro f' hf'
        have aux : ∀ t ∈ these, f' ⊆ t → ∃ t' ∈ these.erase f ++ [f ∪ g], f' ⊆ t' := by
          intro t ht hsub
          by_cases htf : t = f
          · subst htf
            exact ⟨t ∪ g, by simp, fun a ha => Finset.mem_union_left _ (hsub ha)⟩
          · exact ⟨t, List.mem_append_left _ ((hnd.mem_erase_iff).2 ⟨htf, ht⟩), hsub⟩
        rcases hf' with hf' | hf'
        · obtain ⟨t, ht, hsub⟩ := hcov f' (Or.inl hf'); exact aux t ht hsub
        · rcases List.mem_append.1 hf' with hf' | hf'
          · obtain ⟨t, ht, hsub⟩ := hcov f' (Or.inr hf'); exact aux t ht hsub
          · simp only [List.mem_singleton] at hf'
            subst hf'
            exact ⟨f ∪ f', by simp, Finset.subset_union_right⟩
      · intro t ht a ha
        rcases List.mem_append.1 ht with ht | ht
        · exact hsrc t (List.mem_of_mem_erase ht) a ha
        · simp only [List.mem_singleton] at ht
          subst ht
          rcases Finset.mem_union.1 ha with ha | ha
          · exact ⟨f, Or.inl hf, ha⟩
          · exact ⟨g, Or.inr hg, ha⟩
    | none =>
      have hno := search_none ho hs
      simp only
      have hdis : ∀ t ∈ these, Disjoint t g := by
        intro t ht
        by_contra h
        exact h (hno t (hold t ht g (by simp) h))
      apply ih (done ++ [g]) _ hdr'
      · rw [List.pairwise_append]
        refine ⟨hd, by simp, fun t ht u hu => ?_⟩
        simp only [List.mem_singleton] at hu
        subst hu
        exact hdis t ht
      · intro t ht
        rcases List.mem_append.1 ht with ht | ht
        · exact hne t ht
        · simp only [List.mem_singleton] at ht
          subst ht; exact hon t hg
      · intro f' hf' hdn
        exact List.mem_append_left _ (hkeep f' hf' (fun o hod' => hdn o (by simp [hod'])))
      · intro t ht r hr hnd
        rcases List.mem_append.1 ht with ht | ht
        · exact hold t ht r (by simp [hr]) hnd
        · simp only [List.mem_singleton] at ht
          subst ht
          exact absurd (hgrest r hr) hnd
      · intro f' hf'
        rcases hf' with hf' | hf'
        · obtain ⟨t, ht, hsub⟩ := hcov f' (Or.inl hf'); exact ⟨t, List.mem_append_left _ ht, hsub⟩
        · rcases List.mem_append.1 hf' with hf' | hf'
          · obtain ⟨t, ht, hsub⟩ := hcov f' (Or.inr hf'); exact ⟨t, List.mem_append_left _ ht, hsub⟩
          · simp only [List.mem_singleton] at hf'
            subst hf'
            exact ⟨f', by simp, Finset.Subset.refl _⟩
      · intro t ht a ha
        rcases List.mem_append.1 ht with ht | ht
        · exact hsrc t ht a ha
        · simp only [List.mem_singleton] at ht
          subst ht
          exact ⟨t, Or.inr hg, ha⟩

/-- **C17**, when no group of one collection overlaps two groups of the other: the union succeeds
whatever the iteration order of the groups, its groups are disjoint, and looking up any alias of either
collection finds a group with all its original partners and no foreign name.  What is missing: groups
that bridge two groups of the other collection, for which the property fails (`c17_merge_raises`,
`c17_merge_loses_partner`). -/
theorem c17_merge_groups_partial (order : Finset κ → List κ) (ho : Lists order) (gs others : List (Finset κ))
    (hgd : gs.Pairwise Disjoint) (hgn : ∀ g ∈ gs, g.Nonempty)
    (hod : others.Pairwise Disjoint) (hon : ∀ g ∈ others, g.Nonempty)
    (H1 : ∀ o ∈ others, ∀ f ∈ gs, ∀ f' ∈ gs, ¬ Disjoint f o → ¬ Disjoint f' o → f = f')
    (H2 : ∀ f ∈ gs, ∀ o ∈ others, ∀ o' ∈ others, ¬ Disjoint f o → ¬ Disjoint f o' → o = o') :
    ∃ r, mergeGroups order gs others = .ok r ∧ r.Pairwise Disjoint ∧
      (∀ f, f ∈ gs ∨ f ∈ others → ∀ a ∈ f, ∃ t, groupsGet r a = some t ∧ f ⊆ t) ∧
      (∀ t ∈ r, ∀ a ∈ t, ∃ f, (f ∈ gs ∨ f ∈ others) ∧ a ∈ f) := by
  obtain ⟨r, h1, h2, h3, h4⟩ := mergeLoop_ok ho hgn hod hon H1 H2 others [] gs rfl hgd hgn
    (fun f hf _ => hf) (fun t ht _ _ _ => ht)
    (fun f hf => ⟨f, by simpa using hf, Finset.Subset.refl _⟩)
    (fun t ht a ha => ⟨t, Or.inl ht, ha⟩)
  refine ⟨r, h1, h2, fun f hf a ha => ?_, h4⟩
  obtain ⟨t, ht, hsub⟩ := h3 f hf
  refine ⟨t, ?_, hsub⟩
  unfold groupsGet
  cases hg : r.find? (fun g => decide (a ∈ g)) with
  | none => have := List.find?_eq_none.1 hg t ht; simp [hsub ha] at this
  | some t' =>
    congr 1
    exact group_unique h2 (List.mem_of_find?_eq_some hg) ht (by simpa using List.find?_some hg) (hsub ha)

/-- **C17 is false of the code in general**: two groups that overlap the same group make the union raise
`ValueError`, whatever the iteration order. -/
theorem c17_merge_raises (order : Finset Nat → List Nat) (ho : Lists order) :
    mergeGroups order [{1, 2}] [{1, 3}, {2, 4}] = .error .valueError := by
  have s1 : groupsSearch order [{1, 2}] {1, 3} = some {1, 2} := by
    cases h : groupsSearch order [{1, 2}] ({1, 3} : Finset Nat) with
    | none => exact absurd (search_none ho h {1, 2} (by simp)) (by decide)
    | some f => have := (search_some ho h).1; simp at this; rw [this]
  have s2 : groupsSearch order [{1, 2}] {2, 4} = some {1, 2} := by
    cases h : groupsSearch order [{1, 2}] ({2, 4} : Finset Nat) with
    | none => exact absurd (search_none ho h {1, 2} (by simp)) (by decide)
    | some f => have := (search_some ho h).1; simp at this; rw [this]
  unfold mergeGroups mergeGroupsLoop
  rw [s1]
  simp only [List.mem_singleton, if_true, List.erase_cons_head, List.nil_append]
  unfold mergeGroupsLoop
  rw [s2]
  simp only
  rw [if_neg (by decide)]

/-- **C17 is false of the code in general**: a group that bridges two groups is united with only one of
them, and looking up the alias of the other does not find its new partner. -/
theorem c17_merge_loses_partner :
    ∃ order : Finset Nat → List Nat, order {1, 2} = [1, 2] ∧
      mergeGroups order [{1}, {2}] [{1, 2}] = .ok [{2}, {1, 2}] ∧
      groupsGet [{2}, {1, 2}] 2 = some {2} := by
  refine ⟨fun g => if g = {1, 2} then [1, 2] else [], rfl, ?_, by decide⟩
  rfl

example : let gs : List (Finset Nat) := [{1, 2}, {3}]
    let others : List (Finset Nat) := [{2, 5}, {7}]
    gs.Pairwise Disjoint ∧ others.Pairwise Disjoint ∧
    (∀ o ∈ others, ∀ f ∈ gs, ∀ f' ∈ gs, ¬ Disjoint f o → ¬ Disjoint f' o → f = f') ∧
    (∀ f ∈ gs, ∀ o ∈ others, ∀ o' ∈ others, ¬ Disjoint f o → ¬ Disjoint f o' → o = o') := by decide

/-- **C17**, `add` and `discard`: adding a group is refused exactly when one of its names is taken, and
keeps all groups findable; discarding removes exactly the group of the name. -/
theorem c17_add_discard (gs : List (Finset κ)) (hd : gs.Pairwise Disjoint) (hne : ∀ g ∈ gs, g.Nonempty) :
    (∀ g, (∃ e, groupsAdd gs g = .error e) ↔ ∃ h ∈ gs, ¬ Disjoint g h) ∧
    (∀ g gs', groupsAdd gs g = .ok gs' → gs'.Pairwise Disjoint ∧ (∀ h, h ∈ gs' ↔ h ∈ gs ∨ h = g)) ∧
    (∀ x h, h ∈ groupsDiscard gs x ↔ h ∈ gs ∧ x ∉ h) := by
  refine ⟨fun g => ?_, fun g gs' h => ?_, fun x h => ?_⟩
  · unfold groupsAdd
    split
    · rename_i hh
      simp only [List.any_eq_true, decide_eq_true_eq] at hh
      exact ⟨fun _ => hh, fun _ => ⟨_, rfl⟩⟩
    · rename_i hh
      simp only [List.any_eq_true, decide_eq_true_eq] at hh
      exact ⟨fun ⟨e, he⟩ => (by cases he), fun h => absurd h hh⟩
  · unfold groupsAdd at h
    split at h
    · cases h
    · rename_i hh
      cases h
      simp only [List.any_eq_true, decide_eq_true_eq, not_exists, not_and, not_not] at hh
      refine ⟨?_, by simp⟩
      rw [List.pairwise_append]
      refine ⟨hd, by simp, fun a ha b hb => ?_⟩
      simp only [List.mem_singleton] at hb
      subst hb
      exact (hh a ha).symm
  · unfold groupsDiscard groupsGet
    cases hg : gs.find? (fun g => decide (x ∈ g)) with
    | none =>
      have := List.find?_eq_none.1 hg
      simp only [decide_eq_true_eq] at this
      exact ⟨fun hh => ⟨hh, this h hh⟩, And.left⟩
    | some g =>
      have hg1 := List.mem_of_find?_eq_some hg
      have hg2 : x ∈ g := by simpa using List.find?_some hg
      simp only
      rw [(nodup_of_disj hd hne).mem_erase_iff]
      constructor
      · rintro ⟨h1, h2⟩
        exact ⟨h2, fun hx => h1 (group_unique hd h2 hg1 hx hg2)⟩
      · rintro ⟨h1, h2⟩
        exact ⟨fun he => h2 (he ▸ hg2), h1⟩

/-! ## C18: name maps -/

theorem applyUpdates_ok (us : List (κ × List κ)) (m : AMap κ κ) (hm : Good m)
    (hk : ∀ p ∈ us, m.resolve p.1 ≠ none)
    (hn : (us.flatMap (fun p => p.2.filter (fun a => decide (a ≠ p.1)))).Nodup)
    (hf : ∀ p ∈ us, ∀ a ∈ p.2, a ≠ p.1 → m.resolve a = none) :
    ∃ m', applyUpdates m us = .ok m' ∧ Good m' ∧
      (∀ p ∈ us, ∀ a ∈ p.2, m'.getItem a = m.getItem p.1) ∧
      (∀ a, (∀ p ∈ us, a = p.1 ∨ a ∉ p.2) → m'.getItem a = m.getItem a) ∧
      (∀ a, m'.resolve a = none → m.resolve a = none) := by
  induction us generalizing m with
  | nil => exact ⟨m, rfl, hm, by simp, by simp, fun _ h => h⟩
  | cons u us ih =>
    obtain ⟨k, as⟩ := u
    rw [List.flatMap_cons, List.nodup_append] at hn
    obtain ⟨g, hg⟩ := Option.ne_none_iff_exists'.1 (hk (k, as) (by simp))
    have halias : ∃ m1, m.alias k as = (m1, none) ∧ Good m1 ∧
        (∀ b, m1.getItem b = if b ∈ as then m.getItem k else m.getItem b) ∧
        (∀ b, m1.resolve b = if b ∈ g ∪ as.toFinset then some (g ∪ as.toFinset) else m.resolve b) := by
      obtain ⟨m1, h1, h2⟩ := aliasLoop_ok hm k as g hg hn.1 (fun a ha hak => hf (k, as) (by simp) a ha hak)
      refine ⟨m1, ?_, h2⟩
      unfold AMap.alias
      split
      · rename_i hnil; subst hnil
        simp only [AMap.aliasLoop] at h1
        simp [hg]; exact (Prod.mk.inj h1).1
      · exact h1
    obtain ⟨m1, h1, h2, h3, h4⟩ := halias
    have hkg : k ∈ g := ((resolve_some hm).1 hg).2
    have hgk : g ∈ m.dict.keys := ((resolve_some hm).1 hg).1
    have hres1 : ∀ a, m1.resolve a = none ↔ m.resolve a = none ∧ a ∉ as := by
      intro a
      rw [h4]
      split
      · rename_i ha
        simp only [reduceCtorEq, false_iff, not_and, not_not]
        intro hn'
        rcases Finset.mem_union.1 ha with ha | ha
        · exact absurd ha ((resolve_none hm).1 hn' g hgk)
        · simpa using ha
      · rename_i ha
        simp only [Finset.mem_union, List.mem_toFinset, not_or] at ha
        exact ⟨fun h => ⟨h, ha.2⟩, And.left⟩
    have hother : ∀ p ∈ us, ∀ a ∈ p.2, a ≠ p.1 → a ∉ as := by
      intro p hp a ha hak has
      by_cases hak' : a = k
      · subst hak'
        exact absurd (hf p (by simp [hp]) a ha hak) (hk (a, as) (by simp))
      · refine hn.2.2 a (List.mem_filter.2 ⟨has, by simpa using hak'⟩) a ?_ rfl
        exact List.mem_flatMap.2 ⟨p, hp, List.mem_filter.2 ⟨ha, by simpa using hak⟩⟩
    obtain ⟨m', i1, i2, i3, i4, i5⟩ := ih m1 h2
      (fun p hp hnone => hk p (by simp [hp]) ((hres1 _).1 hnone).1) hn.2.1
      (fun p hp a ha hak => (hres1 a).2 ⟨hf p (by simp [hp]) a ha hak, hother p hp a ha hak⟩)
    have hkey : ∀ p ∈ us, m1.getItem p.1 = m.getItem p.1 := by
      intro p hp
      rw [h3]
      split
      · rename_i hpas
        by_cases hpk : p.1 = k
        · rw [hpk]
        · exact absurd (hf (k, as) (by simp) p.1 hpas hpk) (hk p (by simp [hp]))
      · rfl
    refine ⟨m', ?_, i2, ?_, ?_, fun a h => ((hres1 a).1 (i5 a h)).1⟩
    · simp only [applyUpdates, h1, i1]
    · intro p hp a ha
      rcases List.mem_cons.1 hp with rfl | hp
      · by_cases hdup : ∃ q ∈ us, a ∈ q.2 ∧ a ≠ q.1
        · obtain ⟨q, hq, haq, haq'⟩ := hdup
          exact absurd ha (hother q hq a haq haq')
        · rw [i4 a, h3, if_pos ha]
          intro q hq
          by_contra hc
          rw [not_or, not_not] at hc
          exact hdup ⟨q, hq, hc.2, hc.1⟩
      · rw [i3 p hp a ha, hkey p hp]
    · intro a ha
      rw [i4 a (fun p hp => ha p (by simp [hp])), h3]
      split
      · rename_i has
        rcases ha (k, as) (by simp) with rfl | h
        · rfl
        · exact absurd has h
      · rfl

theorem identity_map (names : List κ) :
    let m : AMap κ κ := AMap.ofMapping ((Dict.ofItems (names.map (fun n => (n, n)))).map (fun p => (Key.name p.1, p.2)))
    Good m ∧ (∀ n ∈ names, m.getItem n = .ok n ∧ m.resolve n ≠ none) ∧ (∀ a, a ∉ names → m.resolve a = none) := by
  have hwf : Dict.WF (Dict.ofItems (names.map (fun n => (n, n)))) := Dict.ofItems_wf _
  have hmem : ∀ (l : List κ) (d : Dict κ κ) (k : κ),
      (Dict.get? ((l.map (fun n => (n, n))).foldl (fun d p => d.set p.1 p.2) d) k =
        if k ∈ l then some k else d.get? k) := by
    intro l
    induction l with
    | nil => intro d k; simp
    | cons x l ih =>
      intro d k
      rw [List.map_cons, List.foldl_cons, ih _ k, Dict.get?_set]
      by_cases h1 : k ∈ l
      · simp [h1]
      · by_cases h2 : x = k
        · subst h2; simp
        · simp [h1, h2, Ne.symm h2]
  have hget : ∀ k, (Dict.ofItems (names.map (fun n => (n, n)))).get? k = if k ∈ names then some k else none := by
    intro k; exact hmem names [] k
  have hitems : ∀ k v, (k, v) ∈ Dict.ofItems (names.map (fun n => (n, n))) ↔ k ∈ names ∧ v = k := by
    intro k v
    rw [← Dict.get?_eq_some hwf, hget]
    by_cases h : k ∈ names <;> simp [h, eq_comm]
  generalize Dict.ofItems (names.map (fun n => (n, n))) = D at *
  intro m
  have hdis : (((D.map (fun p => (Key.name p.1, p.2)) : List (Key κ × κ))).map (fun p => p.1.group)).Pairwise Disjoint := by
    rw [List.map_map, List.pairwise_map]
    unfold Dict.WF Dict.keys List.Nodup at hwf
    rw [List.pairwise_map] at hwf
    refine hwf.imp (fun {p q} h => ?_)
    simpa [Key.group] using h
  have hnon : ∀ p ∈ D.map (fun p => (Key.name p.1, p.2)), (p.1 : Key κ).group.Nonempty := by
    intro p hp
    obtain ⟨q, _, rfl⟩ := List.mem_map.1 hp
    exact ⟨q.1, by simp [Key.group]⟩
  have hG : Good m := reachable_good (.start _ hdis hnon)
  have hlook := c15_lookup _ hdis hnon
  refine ⟨hG, fun n hn => ?_, fun a ha => ?_⟩
  · have h1 := hlook.1 (Key.name n, n) (List.mem_map.2 ⟨(n, n), (hitems n n).2 ⟨hn, rfl⟩, rfl⟩) n (by simp [Key.group])
    refine ⟨h1, fun hnone => ?_⟩
    rw [← getItem_error hG, h1] at hnone
    cases hnone
  · have := (hlook.2.1 a).not.2 (by
      rintro ⟨p, hp, hpa⟩
      obtain ⟨⟨k, v⟩, hq, rfl⟩ := List.mem_map.1 hp
      have : a = k := by simpa [Key.group] using hpa
      subst this
      exact ha ((hitems _ _).1 hq).1)
    unfold AMap.contains at this
    simpa using this

/-- **C18.** A name map built from a mapping of names to aliases, with canonical names `names` (the names
of the mapping itself unless references are given): if every defined name is canonical, and the aliases
other than the name itself are distinct and are not canonical names, then construction succeeds, each
canonical name resolves to itself, each alias to its canonical name, and every other name is rejected. -/
theorem c18_name_map (defs : List (κ × List κ)) (refs : Option (List κ)) (names : List κ)
    (hnames : names = refs.getD (defs.map Prod.fst))
    (hsub : ∀ p ∈ defs, p.1 ∈ names)
    (hdist : (defs.flatMap (fun p => p.2.filter (fun a => decide (a ≠ p.1)))).Nodup)
    (hfresh : ∀ p ∈ defs, ∀ a ∈ p.2, a ≠ p.1 → a ∉ names) :
    ∃ m, nameMap (.mapping defs) refs = .ok m ∧
      (∀ n ∈ names, m.getItem n = .ok n) ∧
      (∀ p ∈ defs, ∀ a ∈ p.2, m.getItem a = .ok p.1) ∧
      (∀ a, a ∉ names → (∀ p ∈ defs, a ∉ p.2) → m.getItem a = .error .keyError) := by
  obtain ⟨hG, hid, hno⟩ := identity_map names
  have hgn : getNames (.mapping defs) refs = .ok names := by
    cases refs <;> simp [getNames, hnames]
  have hus : getAliases names (.mapping defs) = defs.map (fun p => (p.1, p.2.filter (fun i => decide (i ≠ p.1)))) := rfl
  obtain ⟨m', h1, h2, h3, h4, h5⟩ := applyUpdates_ok
    (defs.map (fun p => (p.1, p.2.filter (fun i => decide (i ≠ p.1))))) _ hG
    (by
      intro p hp
      obtain ⟨q, hq, rfl⟩ := List.mem_map.1 hp
      exact (hid q.1 (hsub q hq)).2)
    (by
      rw [List.flatMap_map]
      simpa using hdist)
    (by
      intro p hp a ha hak
      obtain ⟨q, hq, rfl⟩ := List.mem_map.1 hp
      exact hno a (hfresh q hq a (List.mem_filter.1 ha).1 hak))
  obtain ⟨c1, c2, _⟩ := copy_good h2
  refine ⟨m'.copy, ?_, fun n hn => ?_, fun p hp a ha => ?_, fun a ha hap => ?_⟩
  · unfold nameMap
    rw [hgn]
    simp only [hus, h1]
  · rw [c2, h4 n, (hid n hn).1]
    intro p hp
    obtain ⟨q, hq, rfl⟩ := List.mem_map.1 hp
    by_cases hnq : n = q.1
    · exact Or.inl hnq
    · right
      intro hmem
      exact hfresh q hq n (List.mem_filter.1 hmem).1 hnq hn
  · rw [c2]
    by_cases hap : a = p.1
    · subst hap
      rw [h4, (hid p.1 (hsub p hp)).1]
      intro q hq
      obtain ⟨r, hr, rfl⟩ := List.mem_map.1 hq
      by_cases hpr : p.1 = r.1
      · exact Or.inl hpr
      · right
        intro hmem
        exact hfresh r hr p.1 (List.mem_filter.1 hmem).1 hpr (hsub p hp)
    · rw [h3 (p.1, p.2.filter (fun i => decide (i ≠ p.1))) (List.mem_map.2 ⟨p, hp, rfl⟩) a
        (List.mem_filter.2 ⟨ha, by simpa using hap⟩)]
      exact (hid p.1 (hsub p hp)).1
  · rw [c2, h4 a, getItem_error hG]
    · exact hno a ha
    · intro p hp
      obtain ⟨q, hq, rfl⟩ := List.mem_map.1 hp
      exact Or.inr (fun hmem => hap q hq (List.mem_filter.1 hmem).1)

/-- **C18**, for an iterable of disjoint groups of names together with a list of canonical names: if no
group holds two canonical names, every member of a group that holds the canonical name `n` resolves to
`n`, each canonical name resolves to itself, and members of groups without one, like all other names, are
rejected. -/
theorem c18_name_map_iterable (groups : List (List κ)) (names : List κ) (hnames : names.Nodup)
    (hdisj : groups.flatten.Nodup)
    (hone : ∀ v ∈ groups, ∀ n ∈ names, ∀ n' ∈ names, n ∈ v → n' ∈ v → n = n') :
    ∃ m, nameMap (.iterable groups) (some names) = .ok m ∧
      (∀ n ∈ names, m.getItem n = .ok n) ∧
      (∀ v ∈ groups, ∀ n ∈ names, n ∈ v → ∀ a ∈ v, m.getItem a = .ok n) ∧
      (∀ a, a ∉ names → (∀ v ∈ groups, ∀ n ∈ names, n ∈ v → a ∉ v) → m.getItem a = .error .keyError) := by
  obtain ⟨hG, hid, hno⟩ := identity_map names
  let us : List (κ × List κ) :=
    groups.flatMap (fun v => (names.filter (fun k => decide (k ∈ v))).map (fun k => (k, v)))
  have hus : ∀ p, p ∈ us ↔ p.2 ∈ groups ∧ p.1 ∈ names ∧ p.1 ∈ p.2 := by
    rintro ⟨k, v⟩
    simp only [us, List.mem_flatMap, List.mem_map, List.mem_filter, decide_eq_true_eq, Prod.mk.injEq]
    constructor
    · rintro ⟨w, hw, k', ⟨h1, h2⟩, rfl, rfl⟩; exact ⟨hw, h1, h2⟩
    · rintro ⟨h1, h2, h3⟩; exact ⟨v, h1, k, ⟨h2, h3⟩, rfl, rfl⟩
  -- the updates in order: different updates come from different groups
  have hpair : us.Pairwise (fun p q => List.Disjoint p.2 q.2) := by
    have h1 : groups.Pairwise List.Disjoint := (List.nodup_flatten.1 hdisj).2
    rw [List.pairwise_flatMap]
    constructor
    · intro v hv
      rw [List.pairwise_map]
      have hs : ∀ a ∈ names.filter (fun k => decide (k ∈ v)), ∀ b ∈ names.filter (fun k => decide (k ∈ v)), a = b := by
        intro a ha b hb
        simp only [List.mem_filter, decide_eq_true_eq] at ha hb
        exact hone v hv a ha.1 b hb.1 ha.2 hb.2
      have hnd : (names.filter (fun k => decide (k ∈ v))).Nodup := hnames.filter _
      exact hnd.imp_of_mem (fun ha hb hne => absurd (hs _ ha _ hb) hne)
    · refine h1.imp (fun {v w} hvw p hp q hq => ?_)
      obtain ⟨k, _, rfl⟩ := List.mem_map.1 hp
      obtain ⟨k', _, rfl⟩ := List.mem_map.1 hq
      exact hvw
  have hkeys : (us.map Prod.fst).Nodup := by
    unfold List.Nodup
    rw [List.pairwise_map]
    refine hpair.imp_of_mem (fun {p q} hp hq hd heq => ?_)
    exact hd ((hus p).1 hp).2.2 (heq ▸ ((hus q).1 hq).2.2)
  have hua : getAliases names (.iterable groups) = us := Dict.ofItems_nodup us hkeys
  have hfresh : ∀ p ∈ us, ∀ a ∈ p.2, a ≠ p.1 → a ∉ names := by
    intro p hp a ha hak han
    obtain ⟨h1, h2, h3⟩ := (hus p).1 hp
    exact hak (hone p.2 h1 a han p.1 h2 ha h3)
  obtain ⟨m', h1, h2, h3, h4, h5⟩ := applyUpdates_ok us _ hG
    (fun p hp => (hid p.1 ((hus p).1 hp).2.1).2)
    (by
      rw [List.nodup_flatMap]
      constructor
      · intro p hp
        exact ((List.nodup_flatten.1 hdisj).1 p.2 ((hus p).1 hp).1).filter _
      · refine hpair.imp (fun {p q} hd => ?_)
        intro a ha hb
        exact hd (List.mem_filter.1 ha).1 (List.mem_filter.1 hb).1)
    (fun p hp a ha hak => hno a (hfresh p hp a ha hak))
  obtain ⟨c1, c2, _⟩ := copy_good h2
  refine ⟨m'.copy, ?_, fun n hn => ?_, fun v hv n hn hnv a ha => ?_, fun a ha hap => ?_⟩
  · unfold nameMap getNames
    simp only [hua, h1]
  · rw [c2, h4 n, (hid n hn).1]
    intro p hp
    by_cases hnp : n = p.1
    · exact Or.inl hnp
    · exact Or.inr (fun hmem => hfresh p hp n hmem hnp hn)
  · rw [c2, h3 (n, v) ((hus (n, v)).2 ⟨hv, hn, hnv⟩) a ha]
    exact (hid n hn).1
  · rw [c2, h4 a, getItem_error hG]
    · exact hno a ha
    · intro p hp
      obtain ⟨i1, i2, i3⟩ := (hus p).1 hp
      exact Or.inr (hap p.2 i1 p.1 i2 i3)

example : let defs : List (Char × List Char) := [('a', ['A', 'x', 'a']), ('b', []), ('c', ['C'])]
    (∀ p ∈ defs, p.1 ∈ defs.map Prod.fst) ∧
    (defs.flatMap (fun p => p.2.filter (fun a => decide (a ≠ p.1)))).Nodup ∧
    (∀ p ∈ defs, ∀ a ∈ p.2, a ≠ p.1 → a ∉ defs.map Prod.fst) := by decide
example : (nameMap (.mapping [('a', ['A', 'x', 'a']), ('b', []), ('c', ['C'])]) none).map
    (fun m => (m.getItem 'x', m.getItem 'b', m.getItem 'z')) =
    .ok (.ok 'a', .ok 'b', .error .keyError) := by decide
example : (nameMap (.iterable [['a', 'A'], ['q', 'b']]) (some ['a', 'b'])).map
    (fun m => (m.getItem 'A', m.getItem 'q')) = .ok (.ok 'a', .ok 'b') := by decide

end Eprem.Aliased
