import Verif.Model.Arguments
import Verif.Lemmas.PyDict
import Verif.Props.Aliased

/-!
# C127: the arguments of an observation
-/

namespace Eprem.Arguments

open Eprem Eprem.Aliased

variable {I V W X : Type}

/-! ## Specification -/

/-- Two names mean the same argument: they are the same name or aliases. -/
def Same (gs : List (Finset Name)) (a b : Name) : Prop := a = b ∨ ∃ g ∈ gs, a ∈ g ∧ b ∈ g

/-- The assumptions have unambiguous names. -/
structure Named (items : List (Name × V)) (gs : List (Finset Name)) : Prop where
  disjoint : gs.Pairwise Disjoint
  distinct : (items.map Prod.fst).Nodup
  separate : ∀ p ∈ items, ∀ q ∈ items, ∀ g ∈ gs, p.1 ∈ g → q.1 ∈ g → p.1 = q.1

/-! ## Lemmas -/

theorem foldl_set_sub {α β : Type} [DecidableEq α] : ∀ (l : List (α × β)) (d : Dict α β) (p : α × β),
    p ∈ l.foldl (fun d p => d.set p.1 p.2) d → p ∈ d ∨ p ∈ l
  | [], _, _, h => .inl h
  | x :: l, d, p, h => by
    rcases foldl_set_sub l (d.set x.1 x.2) p h with h | h
    · have hs : ∀ (d : Dict α β), p ∈ d.set x.1 x.2 → p ∈ d ∨ p = x := by
        intro d
        induction d with
        | nil => intro h; exact .inr (List.mem_singleton.1 h)
        | cons y d ih =>
          intro h
          unfold Dict.set at h
          split at h
          · rename_i hy
            rcases List.mem_cons.1 h with h | h
            · exact .inr (h.trans (by rw [hy]))
            · exact .inl (List.mem_cons_of_mem _ h)
          · rcases List.mem_cons.1 h with h | h
            · exact .inl (h ▸ List.mem_cons_self)
            · exact (ih h).imp (List.mem_cons_of_mem _) id
      rcases hs d h with h | h
      · exact .inl h
      · exact .inr (h ▸ List.mem_cons_self)
    · exact .inr (List.mem_cons_of_mem _ h)

/-- What the aliased mapping finds. -/
theorem getItem_iff {items : List (Name × V)} {gs : List (Finset Name)} (h : Named items gs) (k : Name) (v : V) :
    (AMap.ofGroups items gs).getItem k = .ok v ↔ ∃ p ∈ items, Same gs p.1 k ∧ p.2 = v := by
  constructor
  · intro hk
    unfold AMap.getItem at hk
    cases hr : (AMap.ofGroups items gs).resolve k with
    | none => rw [hr] at hk; cases hk
    | some g =>
      rw [hr] at hk
      dsimp only at hk
      cases hg : (AMap.ofGroups items gs).dict.get? g with
      | none => rw [hg] at hk; cases hk
      | some w =>
        rw [hg] at hk
        cases hk
        have hm := Dict.mem_of_get? hg
        unfold AMap.ofGroups AMap.ofDict Dict.ofItems at hm
        rcases foldl_set_sub _ _ _ hm with hm | hm
        · cases hm
        obtain ⟨p, hp, he⟩ := List.mem_map.1 hm
        cases he
        refine ⟨p, hp, ?_, rfl⟩
        obtain ⟨q, hq, he⟩ := Option.map_eq_some_iff.1 (show ((AMap.ofGroups items gs).dict.reverse.find?
          (fun p => decide (k ∈ p.1))).map Prod.fst = some _ from hr)
        have hin := List.find?_some hq
        rw [decide_eq_true_iff] at hin
        rw [he, Finset.mem_insert] at hin
        rcases hin with h | h
        · exact .inl h.symm
        · cases hgg : groupsGet gs p.1 with
          | none => rw [hgg] at h; simp at h
          | some g =>
            rw [hgg] at h
            have hp' := List.find?_some hgg
            rw [decide_eq_true_iff] at hp'
            exact .inr ⟨g, List.mem_of_find?_eq_some hgg, hp', h⟩
  · rintro ⟨p, hp, hs, rfl⟩
    have hc := c15_lookup_groups items gs h.disjoint h.distinct h.separate p hp
    rcases hs with rfl | ⟨g, hg, h1, h2⟩
    · exact hc.1
    · exact hc.2 g hg h1 k h2

/-- What the optional names do. -/
theorem optional_get (m : AMap Name V) (k : Name) : ∀ (l : List Name) (d : Dict Name (Slot I V)),
    (l.foldl (optionalStep m) d).get? k =
      (if k ∈ l then match m.getItem k with | .ok v => some (.value v) | .error _ => d.get? k else d.get? k)
  | [], d => by simp
  | a :: l, d => by
    rw [List.foldl_cons, optional_get m k l]
    have hstep : (optionalStep m d a).get? k = if a = k then (match m.getItem k with | .ok v => some (.value v) | .error _ => d.get? k)
        else d.get? k := by
      unfold optionalStep
      by_cases h : a = k
      · subst h
        rw [if_pos rfl]
        cases m.getItem a with
        | error e => rfl
        | ok v => dsimp only; rw [Dict.get?_set, if_pos rfl]
      · rw [if_neg h]
        cases m.getItem a with
        | error e => rfl
        | ok v => dsimp only; rw [Dict.get?_set, if_neg h]
    rw [hstep]
    by_cases h : a = k
    · subst h
      cases m.getItem a <;> simp
    · simp [h, Ne.symm h]

/-- What the names with defaults do. -/
theorem extra_get (m : AMap Name V) (k : Name) : ∀ (l : List (Name × V)) (d : Dict Name (Slot I V)), (l.map Prod.fst).Nodup →
    (∀ v, (k, v) ∈ l → (l.foldl (extraStep m) d).get? k = some (.value (getOr m k v))) ∧
    (k ∉ l.map Prod.fst → (l.foldl (extraStep m) d).get? k = d.get? k)
  | [], d, _ => ⟨nofun, fun _ => rfl⟩
  | p :: l, d, hn => by
    rw [List.map_cons, List.nodup_cons] at hn
    obtain ⟨h1, h2⟩ := extra_get m k l (extraStep m d p) hn.2
    rw [List.foldl_cons]
    refine ⟨fun v hv => ?_, fun hk => ?_⟩
    · rcases List.mem_cons.1 hv with h | h
      · subst h
        rw [h2 hn.1]
        exact (Dict.get?_set ..).trans (if_pos rfl)
      · exact h1 v h
    · rw [List.map_cons, List.mem_cons, not_or] at hk
      rw [h2 hk.2]
      exact (Dict.get?_set ..).trans (if_neg (Ne.symm hk.1))

/-- What is held for the indices. -/
theorem base_get (u : Arguments I V W) (k : Name) :
    Dict.get? (axisNames.map (fun n => (n, u.axisIndex n))) k = if k ∈ axisNames then some (u.axisIndex k) else none := by
  generalize axisNames = l
  induction l with
  | nil => rfl
  | cons a l ih =>
    rw [List.map_cons, Dict.get?_cons]
    by_cases h : a = k
    · subst h; simp
    · rw [if_neg h, ih]
      simp [Ne.symm h]

/-- What a program can have made of an object: the caches hold what they should. -/
structure Used (convert : V → Except X W) (u0 u : Arguments I V W) : Prop where
  given : u.given = u0.given
  extra : u.extra = u0.extra
  groups : u.groups = u0.groups
  indices : ∀ d, u.cachedIndices = some d → d = axisNames.map (fun n => (n, u0.axisIndex n))
  assumptions : ∀ m, u.cachedAssumptions = some m → ∃ l, convertAll convert u0.extra = .ok l ∧ m = AMap.ofGroups l u0.groups

theorem used_indices {convert : V → Except X W} {u0 u : Arguments I V W} (h : Used convert u0 u) :
    u.indices.2 = axisNames.map (fun n => (n, u0.axisIndex n)) ∧ Used convert u0 u.indices.1 := by
  unfold Arguments.indices
  cases hc : u.cachedIndices with
  | some d => exact ⟨h.indices d hc, h⟩
  | none =>
    have he : (axisNames.map (fun n => (n, u.axisIndex n)) : Dict Name (Slot I V)) = axisNames.map (fun n => (n, u0.axisIndex n)) := by
      refine List.map_congr_left fun n _ => ?_
      unfold Arguments.axisIndex
      rw [h.given]
    exact ⟨he, ⟨h.given, h.extra, h.groups, fun d hd => by cases hd; exact he, h.assumptions⟩⟩

theorem used_axes {convert : V → Except X W} {u0 u : Arguments I V W} (h : Used convert u0 u) (o : List Name) (e : List (Name × V)) :
    (u.axes o e).2 = e.foldl (extraStep u0.mapping) (o.foldl (optionalStep u0.mapping) (axisNames.map (fun n => (n, u0.axisIndex n)))) ∧
    Used convert u0 (u.axes o e).1 := by
  obtain ⟨h1, h2⟩ := used_indices h
  refine ⟨?_, h2⟩
  show e.foldl (extraStep u.indices.1.mapping) (o.foldl (optionalStep u.indices.1.mapping) u.indices.2) = _
  rw [h1]
  unfold Arguments.mapping
  rw [h2.extra, h2.groups]

theorem used_assumptions {convert : V → Except X W} {u0 u : Arguments I V W} (h : Used convert u0 u) :
    (u.assumptions convert).2 = (match convertAll convert u0.extra with
      | .error e => .error e | .ok l => .ok (AMap.ofGroups l u0.groups)) ∧ Used convert u0 (u.assumptions convert).1 := by
  unfold Arguments.assumptions
  cases hc : u.cachedAssumptions with
  | some m =>
    obtain ⟨l, h1, rfl⟩ := h.assumptions m hc
    rw [h1]
    exact ⟨rfl, h⟩
  | none =>
    rw [h.extra]
    cases hl : convertAll convert u0.extra with
    | error e => exact ⟨rfl, h⟩
    | ok l =>
      dsimp only
      rw [h.groups]
      exact ⟨rfl, ⟨h.given, rfl, rfl, h.indices, fun m hm => by cases hm; exact ⟨l, hl, rfl⟩⟩⟩

theorem used_refl (convert : V → Except X W) (given : Name → Option I) (extra : List (Name × V)) (groups : List (Finset Name)) :
    Used convert (create given extra groups : Arguments I V W) (create given extra groups) :=
  ⟨rfl, rfl, rfl, nofun, nofun⟩

theorem convertAll_iff (convert : V → Except X W) : ∀ (l : List (Name × V)) (r : List (Name × W)),
    convertAll convert l = .ok r ↔ List.Forall₂ (fun p q => p.1 = q.1 ∧ convert p.2 = .ok q.2) l r
  | [], r => by cases r <;> simp [convertAll]
  | p :: l, r => by
    unfold convertAll
    cases hp : convert p.2 with
    | error e =>
      constructor
      · intro h; cases h
      · intro h; cases h with | cons h _ => rw [hp] at h; cases h.2
    | ok w =>
      dsimp only
      cases hl : convertAll convert l with
      | error e =>
        constructor
        · intro h; cases h
        · intro h; cases h with | cons _ h => rw [(convertAll_iff convert l _).2 h] at hl; cases hl
      | ok r' =>
        have hr := (convertAll_iff convert l r').1 hl
        constructor
        · intro h; cases h; exact .cons ⟨rfl, hp⟩ hr
        · intro h
          cases h with
          | @cons _ q _ r'' h h' =>
            have h2 := (convertAll_iff convert l r'').2 h'
            rw [hl] at h2
            cases h2
            obtain ⟨a, b⟩ := q
            obtain ⟨h3, h4⟩ := h
            rw [hp] at h4
            cases h4
            cases h3
            rfl

/-! ## Theorems -/

/-- The object after some requests. -/
def after (convert : V → Except X W) (given : Name → Option I) (extra : List (Name × V)) (groups : List (Finset Name))
    (before : List (Ask V)) : Arguments I V W := (askAll convert (create given extra groups) before).1

theorem used_after (convert : V → Except X W) (given : Name → Option I) (extra : List (Name × V)) (groups : List (Finset Name))
    (before : List (Ask V)) : Used convert (create given extra groups : Arguments I V W) (after convert given extra groups before) := by
  unfold after
  have : ∀ (l : List (Ask V)) (u : Arguments I V W), Used convert (create given extra groups) u →
      Used convert (create given extra groups) (askAll convert u l).1 := by
    intro l
    induction l with
    | nil => exact fun _ h => h
    | cons a l ih =>
      intro u h
      refine ih _ ?_
      cases a with
      | indices => exact (used_indices h).2
      | axes o e => exact (used_axes h o e).2
      | assumptions => exact (used_assumptions h).2
  exact this before _ (used_refl convert given extra groups)

/-- **C127**, indices.  Whatever was asked before, the indices are those of the five axes, and empty where none was given. -/
theorem c127_indices (convert : V → Except X W) (given : Name → Option I) (extra : List (Name × V)) (groups : List (Finset Name))
    (before : List (Ask V)) :
    (after convert given extra groups before).indices.2.keys = ["time".toList, "shell".toList, "species".toList, "energy".toList, "mu".toList] ∧
    ∀ k, k ∈ axisNames → (after convert given extra groups before).indices.2.get? k =
      some (match given k with | some i => .index i | none => .empty) := by
  rw [(used_indices (used_after convert given extra groups before)).1]
  refine ⟨rfl, fun k hk => ?_⟩
  rw [base_get, if_pos hk]
  rfl

/-- **C127**, requested names.  Whatever was asked before: a name with a default gives the assumption of this name or an alias,
or else the default; an optional name gives such an assumption; any other name, and an optional name without assumption, gives
the index of the axis, if it is one. -/
theorem c127_axes (convert : V → Except X W) (given : Name → Option I) (items : List (Name × V)) (groups : List (Finset Name))
    (hn : Named items groups) (before : List (Ask V)) (optional : List Name) (extra : List (Name × V))
    (hd : (extra.map Prod.fst).Nodup) (k : Name) :
    let r := ((after convert given items groups before).axes optional extra).2
    (∀ d, (k, d) ∈ extra → (∀ p ∈ items, Same groups p.1 k → r.get? k = some (.value p.2)) ∧
      ((∀ p ∈ items, ¬ Same groups p.1 k) → r.get? k = some (.value d))) ∧
    (k ∉ extra.map Prod.fst → k ∈ optional → ∀ p ∈ items, Same groups p.1 k → r.get? k = some (.value p.2)) ∧
    (k ∉ extra.map Prod.fst → (k ∉ optional ∨ ∀ p ∈ items, ¬ Same groups p.1 k) →
      r.get? k = if k ∈ axisNames then some (match given k with | some i => .index i | none => .empty) else none) := by
  dsimp only
  rw [(used_axes (used_after convert given items groups before) optional extra).1]
  have hmap : (create given items groups : Arguments I V W).mapping = AMap.ofGroups items groups := rfl
  rw [hmap]
  have found : ∀ p ∈ items, Same groups p.1 k → (AMap.ofGroups items groups).getItem k = .ok p.2 :=
    fun p hp hs => (getItem_iff hn k p.2).2 ⟨p, hp, hs, rfl⟩
  have missing : (∀ p ∈ items, ¬ Same groups p.1 k) → ∃ e, (AMap.ofGroups items groups).getItem k = .error e := by
    intro h
    cases hg : (AMap.ofGroups items groups).getItem k with
    | error e => exact ⟨e, rfl⟩
    | ok v =>
      obtain ⟨p, hp, hs, _⟩ := (getItem_iff hn k v).1 hg
      exact absurd hs (h p hp)
  obtain ⟨h1, h2⟩ := extra_get (I := I) (AMap.ofGroups items groups) k extra
    (optional.foldl (optionalStep (AMap.ofGroups items groups)) (axisNames.map (fun n => (n, (create given items groups : Arguments I V W).axisIndex n)))) hd
  refine ⟨fun d hm => ⟨fun p hp hs => ?_, fun h => ?_⟩, fun hk ho p hp hs => ?_, fun hk h => ?_⟩
  · rw [h1 d hm]
    unfold getOr
    rw [found p hp hs]
  · rw [h1 d hm]
    unfold getOr
    obtain ⟨e, he⟩ := missing h
    rw [he]
  · rw [h2 hk, optional_get, if_pos ho, found p hp hs]
  · rw [h2 hk, optional_get, base_get]
    rcases h with h | h
    · rw [if_neg h]; rfl
    · obtain ⟨e, he⟩ := missing h
      rw [he]
      by_cases ho : k ∈ optional
      · rw [if_pos ho]; rfl
      · rw [if_neg ho]; rfl

/-- **C127**, violated: an index that was given is not available to `axes(energy=default)`: the default replaces it. -/
theorem c127_default_replaces_index (convert : V → Except X W) (given : Name → Option I) (items : List (Name × V))
    (groups : List (Finset Name)) (hn : Named items groups) (before : List (Ask V)) (k : Name) (d : V) (i : I)
    (hk : k ∈ axisNames) (_ : given k = some i) (h : ∀ p ∈ items, ¬ Same groups p.1 k) :
    ((after convert given items groups before).indices).2.get? k = some (.index i) ∧
    ((after convert given items groups before).axes [] [(k, d)]).2.get? k = some (.value d) := by
  refine ⟨?_, ((c127_axes convert given items groups hn before [] [(k, d)] (by simp) k).1 d (by simp)).2 h⟩
  rw [(c127_indices convert given items groups before).2 k hk, ‹given k = some i›]

/-- **C127**, assumptions.  Whatever was asked before, the assumptions are available exactly if every one can be converted, and
then each is found, converted, under its name and its aliases. -/
theorem c127_assumptions (convert : V → Except X W) (given : Name → Option I) (items : List (Name × V)) (groups : List (Finset Name))
    (hn : Named items groups) (before : List (Ask V)) :
    ((∃ m, ((after convert given items groups before).assumptions convert).2 = .ok m) ↔ ∀ p ∈ items, ∃ w, convert p.2 = .ok w) ∧
    ∀ m, ((after convert given items groups before).assumptions convert).2 = .ok m → ∀ k w,
      m.getItem k = .ok w ↔ ∃ p ∈ items, Same groups p.1 k ∧ convert p.2 = .ok w := by
  rw [(used_assumptions (used_after convert given items groups before)).1]
  rw [show (create given items groups : Arguments I V W).extra = items from rfl,
    show (create given items groups : Arguments I V W).groups = groups from rfl]
  have total : ∀ (l : List (Name × V)), (∀ p ∈ l, ∃ w, convert p.2 = .ok w) → ∃ r, convertAll convert l = .ok r := by
    intro l
    induction l with
    | nil => exact fun _ => ⟨[], rfl⟩
    | cons p l ih =>
      intro h
      obtain ⟨w, hw⟩ := h p (by simp)
      obtain ⟨r, hr⟩ := ih fun q hq => h q (by simp [hq])
      exact ⟨_, by unfold convertAll; rw [hw, hr]⟩
  have link : ∀ (l : List (Name × V)) (r : List (Name × W)), List.Forall₂ (fun p q => p.1 = q.1 ∧ convert p.2 = .ok q.2) l r →
      l.map Prod.fst = r.map Prod.fst ∧ (∀ q ∈ r, ∃ p ∈ l, p.1 = q.1 ∧ convert p.2 = .ok q.2) ∧
      (∀ p ∈ l, ∃ q ∈ r, p.1 = q.1 ∧ convert p.2 = .ok q.2) := by
    intro l r h
    induction h with
    | nil => exact ⟨rfl, nofun, nofun⟩
    | @cons p q l r h _ ih =>
      refine ⟨by rw [List.map_cons, List.map_cons, h.1, ih.1], fun x hx => ?_, fun x hx => ?_⟩
      · rcases List.mem_cons.1 hx with rfl | hx
        · exact ⟨p, by simp, h⟩
        · obtain ⟨y, hy, h'⟩ := ih.2.1 x hx; exact ⟨y, by simp [hy], h'⟩
      · rcases List.mem_cons.1 hx with rfl | hx
        · exact ⟨q, by simp, h⟩
        · obtain ⟨y, hy, h'⟩ := ih.2.2 x hx; exact ⟨y, by simp [hy], h'⟩
  cases hl : convertAll convert items with
  | error e =>
    refine ⟨⟨fun ⟨m, hm⟩ => (by cases hm), fun h => ?_⟩, fun m hm => (by cases hm)⟩
    obtain ⟨r, hr⟩ := total items h
    rw [hl] at hr
    cases hr
  | ok r =>
    have hf := link items r ((convertAll_iff convert items r).1 hl)
    have hr : Named r groups := by
      refine ⟨hn.disjoint, hf.1 ▸ hn.distinct, fun p hp q hq g hg h1 h2 => ?_⟩
      obtain ⟨p', hp', e1, _⟩ := hf.2.1 p hp
      obtain ⟨q', hq', e2, _⟩ := hf.2.1 q hq
      rw [← e1, ← e2]
      exact hn.separate p' hp' q' hq' g hg (e1 ▸ h1) (e2 ▸ h2)
    refine ⟨⟨fun _ p hp => ?_, fun _ => ⟨_, rfl⟩⟩, fun m hm k w => ?_⟩
    · obtain ⟨q, _, _, h⟩ := hf.2.2 p hp
      exact ⟨_, h⟩
    · cases hm
      rw [getItem_iff hr]
      constructor
      · rintro ⟨q, hq, hs, rfl⟩
        obtain ⟨p, hp, e, h⟩ := hf.2.1 q hq
        exact ⟨p, hp, by rw [e]; exact hs, h⟩
      · rintro ⟨p, hp, hs, h⟩
        obtain ⟨q, hq, e, h'⟩ := hf.2.2 p hp
        rw [h] at h'
        exact ⟨q, hq, by rw [← e]; exact hs, (Except.ok.inj h').symm⟩

/-- **C127**: what is asked does not change what any later request gives. -/
theorem c127_independent (convert : V → Except X W) (given : Name → Option I) (items : List (Name × V)) (groups : List (Finset Name))
    (before : List (Ask V)) (a : Ask V) :
    (ask convert (after convert given items groups before) a).2 = (ask convert (create given items groups) a).2 := by
  have h := used_after (W := W) convert given items groups before
  have h0 := used_refl (W := W) convert given items groups
  cases a with
  | indices => exact congrArg Answer.items ((used_indices h).1.trans (used_indices h0).1.symm)
  | axes o e => exact congrArg Answer.items ((used_axes h o e).1.trans (used_axes h0 o e).1.symm)
  | assumptions => exact congrArg Answer.converted ((used_assumptions h).1.trans (used_assumptions h0).1.symm)

/-! ## Examples -/

/-- Assumptions for a radius and a minimum energy. -/
def sampleItems : List (Name × ℤ) := [("radius".toList, 1), ("minimum energy".toList, 5)]

/-- Alias groups. -/
def sampleGroups : List (Finset Name) := [{"radius".toList, "r".toList}, {"energy".toList, "E".toList}]

theorem sample_named : Named sampleItems sampleGroups :=
  ⟨by decide +kernel, by decide +kernel, by decide +kernel⟩

/-- Indices for energy and shell. -/
def sampleGiven (n : Name) : Option ℕ := if n = "energy".toList then some 3 else if n = "shell".toList then some 7 else none

example : ((create sampleGiven sampleItems sampleGroups : Arguments ℕ ℤ ℤ).axes ["r".toList, "mass".toList]
      [("minimum energy".toList, 0), ("index".toList, 2), ("energy".toList, 9)]).2 =
    [("time".toList, .empty), ("shell".toList, .index 7), ("species".toList, .empty), ("energy".toList, .value 9),
     ("mu".toList, .empty), ("r".toList, .value 1), ("minimum energy".toList, .value 5), ("index".toList, .value 2)] := by
  decide +kernel

example : "energy".toList ∈ axisNames ∧ sampleGiven "energy".toList = some 3 ∧
    ∀ p ∈ sampleItems, ¬ ("energy".toList = p.1 ∨ ∃ g ∈ sampleGroups, p.1 ∈ g ∧ "energy".toList ∈ g) := by decide +kernel

end Eprem.Arguments
