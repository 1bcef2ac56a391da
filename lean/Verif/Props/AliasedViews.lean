import Mathlib.Data.List.Perm.Basic
import Verif.Model.AliasedViews
import Verif.Props.Aliased

/-! # C130: views of an aliased mapping -/

namespace Eprem.Aliased

variable {κ ν : Type} [DecidableEq κ]

/-- `order` lists the members of each group once each, in some order. -/
def Enumerates (order : Finset κ → List κ) : Prop := ∀ g, (order g).Nodup ∧ ∀ a, a ∈ order g ↔ a ∈ g

section
variable {order : Finset κ → List κ} (ho : Enumerates order)
include ho

theorem names_mem {m : AMap κ ν} (hm : Good m) {a : κ} : a ∈ m.names order ↔ m.contains a = true := by
  unfold AMap.names AMap.contains
  rw [List.mem_flatMap, Option.isSome_iff_exists]
  constructor
  · rintro ⟨g, hg, ha⟩
    exact ⟨g, (resolve_some hm).2 ⟨hg, ((ho g).2 a).1 ha⟩⟩
  · rintro ⟨g, hg⟩
    obtain ⟨h1, h2⟩ := (resolve_some hm).1 hg
    exact ⟨g, h1, ((ho g).2 a).2 h2⟩

theorem names_nodup {m : AMap κ ν} (hm : Good m) : (m.names order).Nodup := by
  unfold AMap.names
  rw [List.nodup_flatMap]
  refine ⟨fun g _ => (ho g).1, ?_⟩
  refine hm.inv.disj.imp ?_
  intro g g' hd a ha ha'
  exact Finset.disjoint_left.1 hd (((ho g).2 a).1 ha) (((ho g').2 a).1 ha')

theorem names_length (m : AMap κ ν) : (m.names order).length = m.len := by
  unfold AMap.names AMap.len
  rw [List.length_flatMap]
  unfold Dict.keys
  rw [List.map_map]
  congr 1
  refine List.map_congr_left (fun p _ => ?_)
  show (order p.1).length = p.1.card
  have h : (order p.1).toFinset = p.1 := by
    ext a; rw [List.mem_toFinset]; exact (ho p.1).2 a
  rw [← List.toFinset_card_of_nodup (ho p.1).1, h]

end

theorem contains_getItem {m : AMap κ ν} (hm : Good m) (a : κ) :
    (m.contains a = true ∧ ∃ v, m.getItem a = .ok v) ∨ (m.contains a = false ∧ m.getItem a = .error .keyError) := by
  unfold AMap.contains
  rcases getItem_cases hm a with ⟨v, hv⟩ | he
  · left
    refine ⟨?_, v, hv⟩
    cases hr : m.resolve a with
    | none => rw [(getItem_error hm).2 hr] at hv; cases hv
    | some g => rfl
  · right
    exact ⟨by rw [(getItem_error hm).1 he]; rfl, he⟩

/-- **C130.** A new view on the names of a mapping lists each name the mapping has exactly once and nothing
else, and its length is that of the mapping. -/
theorem c130_keys {order : Finset κ → List κ} (ho : Enumerates order) {m : AMap κ ν} (h : Reachable m) :
    ∃ ks : List κ, (m.view order false).keys m = ks.map VKey.name ∧ ks.Nodup ∧ (∀ a, a ∈ ks ↔ m.contains a = true) ∧
      (m.view order false).len m = ks.length ∧ ks.length = m.len := by
  have hm := reachable_good h
  exact ⟨m.names order, rfl, names_nodup ho hm, fun a => names_mem ho hm, rfl, names_length ho m⟩

theorem mapM_ok {α β : Type} (f : α → Except Err β) (l : List α) (g : α → β) (h : ∀ a ∈ l, f a = .ok (g a)) :
    l.mapM f = .ok (l.map g) := by
  induction l with
  | nil => rfl
  | cons a l ih =>
    rw [List.mapM_cons, h a (by simp), ih (fun b hb => h b (by simp [hb]))]
    rfl

theorem mapM_error {α β : Type} (f : α → Except Err β) (l : List α) (e : Err)
    (h : ∀ a ∈ l, (∃ b, f a = .ok b) ∨ f a = .error e) (hx : ∃ a ∈ l, f a = .error e) :
    l.mapM f = .error e := by
  induction l with
  | nil => obtain ⟨a, ha, _⟩ := hx; simp at ha
  | cons a l ih =>
    rw [List.mapM_cons]
    rcases h a (by simp) with ⟨b, hb⟩ | hb
    · obtain ⟨c, hc, hce⟩ := hx
      rcases List.mem_cons.1 hc with rfl | hc
      · rw [hb] at hce; cases hce
      · rw [hb, ih (fun x hx => h x (by simp [hx])) ⟨c, hc, hce⟩]; rfl
    · rw [hb]; rfl

/-- **C130.** What a view on names shows when the mapping has since reached any other state `m`: if every
name the view keeps is still in the mapping, the values (items) listed are the current values of exactly
those names in that order; if one of them is gone, iterating over the values (items) raises `KeyError`. -/
theorem c130_by_name_partial {m : AMap κ ν} (h : Reachable m) (ks : List κ) :
    ((∀ k ∈ ks, m.contains k = true) →
      ∃ vs, (View.byName ks).values m = .ok vs ∧ List.Forall₂ (fun k v => m.getItem k = .ok v) ks vs ∧
        (View.byName ks).items m = .ok ((ks.map VKey.name).zip vs)) ∧
    ((∃ k ∈ ks, m.contains k = false) →
      (View.byName ks).values m = .error .keyError ∧ (View.byName ks).items m = .error .keyError) ∧
    (View.byName ks).len m = ks.length := by
  have hm := reachable_good h
  have hv : (View.byName ks).values m = ks.mapM m.getItem := by
    unfold View.values View.keys
    rw [List.mapM_map]; rfl
  have hi : (View.byName ks).items m = ks.mapM (fun k => (m.getItem k).map (fun v => (VKey.name k, v))) := by
    unfold View.items View.keys
    rw [List.mapM_map]; rfl
  rw [hv, hi]
  refine ⟨fun hk => ?_, fun hk => ?_, rfl⟩
  · clear hv hi
    induction ks with
    | nil => exact ⟨[], rfl, .nil, rfl⟩
    | cons k ks ih =>
      obtain ⟨vs, h1, h2, h3⟩ := ih (fun a ha => hk a (by simp [ha]))
      rcases contains_getItem hm k with ⟨_, v, hv⟩ | ⟨hc, _⟩
      · refine ⟨v :: vs, ?_, .cons hv h2, ?_⟩
        · rw [List.mapM_cons, hv, h1]; rfl
        · rw [List.mapM_cons, hv, h3]; rfl
      · rw [hk k (by simp)] at hc; cases hc
  · obtain ⟨k, hk, hc⟩ := hk
    have he : m.getItem k = .error .keyError := by
      rcases contains_getItem hm k with ⟨hc', _⟩ | ⟨_, he⟩
      · rw [hc] at hc'; cases hc'
      · exact he
    constructor
    · exact mapM_error _ _ _ (fun a _ => getItem_cases hm a) ⟨k, hk, he⟩
    · refine mapM_error _ _ _ (fun a _ => ?_) ⟨k, hk, by rw [he]; rfl⟩
      rcases getItem_cases hm a with ⟨v, hv⟩ | he
      · left; exact ⟨_, by rw [hv]; rfl⟩
      · right; rw [he]; rfl

/-- **C130.** In a new view on names, iteration and membership say the same: a pair is listed by the items
view exactly when the mapping reads that value under that name, which is what `in` tests, and a value is
listed by the values view exactly when `in` finds it there. -/
theorem c130_fresh [DecidableEq ν] {order : Finset κ → List κ} (ho : Enumerates order) {m : AMap κ ν}
    (h : Reachable m) :
    ∃ items vs, (m.view order false).items m = .ok items ∧ (m.view order false).values m = .ok vs ∧
      (∀ k v, (VKey.name k, v) ∈ items ↔ m.getItem k = .ok v) ∧
      (∀ k v, (m.view order false).hasItem m k v = true ↔ (VKey.name k, v) ∈ items) ∧
      (∀ v, v ∈ vs ↔ ∃ k, m.getItem k = .ok v) ∧
      (∀ v, (m.view order false).hasValue order m v = .ok (decide (v ∈ vs))) ∧
      items.length = m.len ∧ vs.length = m.len := by
  have hm := reachable_good h
  obtain ⟨vs, h1, h2, h3⟩ := (c130_by_name_partial h (m.names order)).1 (fun k hk => (names_mem ho hm).1 hk)
  have hlen : (m.names order).length = vs.length := h2.length_eq
  have key : ∀ (ks : List κ) (vs : List ν), List.Forall₂ (fun k v => m.getItem k = .ok v) ks vs →
      (∀ k v, (VKey.name k, v) ∈ (ks.map VKey.name).zip vs ↔ k ∈ ks ∧ m.getItem k = .ok v) ∧
      (∀ v, v ∈ vs ↔ ∃ k ∈ ks, m.getItem k = .ok v) ∧
      (∀ v, anyValue m v ks = .ok (decide (v ∈ vs))) := by
    intro ks vs hf
    induction hf with
    | nil => exact ⟨by simp, by simp, fun v => by simp [anyValue]⟩
    | @cons k v ks vs hkv _ ih =>
      refine ⟨fun k' v' => ?_, fun v' => ?_, fun v' => ?_⟩
      · simp only [List.map_cons, List.zip_cons_cons, List.mem_cons, Prod.mk.injEq, VKey.name.injEq, ih.1]
        constructor
        · rintro (⟨rfl, rfl⟩ | ⟨h, h'⟩)
          · exact ⟨Or.inl rfl, hkv⟩
          · exact ⟨Or.inr h, h'⟩
        · rintro ⟨rfl | h, h'⟩
          · rw [hkv] at h'; cases h'; exact Or.inl ⟨rfl, rfl⟩
          · exact Or.inr ⟨h, h'⟩
      · simp only [List.mem_cons, ih.2.1]
        constructor
        · rintro (rfl | ⟨k', h, h'⟩)
          · exact ⟨k, Or.inl rfl, hkv⟩
          · exact ⟨k', Or.inr h, h'⟩
        · rintro ⟨k', rfl | h, h'⟩
          · rw [hkv] at h'; cases h'; exact Or.inl rfl
          · exact Or.inr ⟨k', h, h'⟩
      · rw [anyValue, hkv]
        by_cases hvv : v = v'
        · subst hvv; simp
        · have : ¬ v' = v := fun h => hvv h.symm
          simp only [hvv, if_false, ih.2.2, List.mem_cons, this, false_or]
  obtain ⟨k1, k2, k3⟩ := key _ _ h2
  have hread : ∀ k v, m.getItem k = .ok v → k ∈ m.names order := by
    intro k v hkv
    rw [names_mem ho hm]
    rcases contains_getItem hm k with ⟨h, _⟩ | ⟨_, he⟩
    · exact h
    · rw [hkv] at he; cases he
  have hkk : ∀ k v, (VKey.name k, v) ∈ ((m.names order).map VKey.name).zip vs ↔ m.getItem k = .ok v :=
    fun k v => (k1 k v).trans ⟨fun h => h.2, fun h => ⟨hread k v h, h⟩⟩
  refine ⟨_, vs, h3, h1, hkk, fun k v => ?_, fun v => ?_, k3, ?_, ?_⟩
  · rw [hkk]
    unfold View.hasItem
    cases hg : m.getItem k with
    | error e => simp
    | ok x => simp
  · rw [k2]
    exact ⟨fun ⟨k, _, h⟩ => ⟨k, h⟩, fun ⟨k, h⟩ => ⟨k, hread k v h, h⟩⟩
  · rw [List.length_zip, List.length_map, ← hlen, Nat.min_self, names_length ho]
  · rw [← hlen, names_length ho]

/-- **C130.** A view on groups (`aliased=True`), whenever it was created, lists the alias group of every name
once each, with the value read under every name of the group. -/
theorem c130_by_group {m : AMap κ ν} (h : Reachable m) :
    ∃ items : List (Finset κ × ν),
      (View.byGroup).keys m = items.map (fun p => VKey.group p.1) ∧
      (View.byGroup).values m = .ok (items.map Prod.snd) ∧
      (View.byGroup).items m = .ok (items.map (fun p => (VKey.group p.1, p.2))) ∧
      (View.byGroup).len m = items.length ∧ (items.map Prod.fst).Nodup ∧
      (∀ g, g ∈ items.map Prod.fst ↔ ∃ a, m.aliases a = some g) ∧
      ∀ p ∈ items, p.1.Nonempty ∧ ∀ a ∈ p.1, m.getItem a = .ok p.2 := by
  have hm := reachable_good h
  have hget : ∀ p ∈ m.dict, m.getGroup p.1 = .ok p.2 := by
    intro p hp
    unfold AMap.getGroup
    rw [(Dict.get?_eq_some hm.inv.wf).2 (show (p.1, p.2) ∈ m.dict from hp)]
  refine ⟨m.dict, ?_, ?_, ?_, ?_, hm.inv.wf, fun g => ?_, fun p hp => ⟨?_, fun a ha => ?_⟩⟩
  · show (Dict.keys m.dict).map _ = _
    unfold Dict.keys; rw [List.map_map]; rfl
  · unfold View.values View.keys Dict.keys
    rw [List.map_map, List.mapM_map]
    exact mapM_ok _ _ _ hget
  · unfold View.items View.keys Dict.keys
    rw [List.map_map, List.mapM_map]
    refine mapM_ok _ _ _ (fun p hp => ?_)
    show (m.getGroup p.1).map _ = _
    rw [hget p hp]; rfl
  · show (Dict.keys m.dict).length = _
    unfold Dict.keys; rw [List.length_map]
  · show g ∈ m.dict.keys ↔ ∃ a, m.resolve a = some g
    constructor
    · intro hg
      obtain ⟨a, ha⟩ := hm.inv.nonempty g hg
      exact ⟨a, (resolve_some hm).2 ⟨hg, ha⟩⟩
    · rintro ⟨a, ha⟩
      exact ((resolve_some hm).1 ha).1
  · exact hm.inv.nonempty p.1 (List.mem_map.2 ⟨p, hp, rfl⟩)
  · exact (getItem_ok hm).2 ⟨p.1, hp, ha⟩

/-- **C130.** The views on names are not live: after an assignment under a new name `k`, a view created
before still has the old length and does not list `k`, although `k in view` holds; after a deletion through
`k`, listing the values or items of a view created before raises `KeyError`, and the view still lists `k`,
although `k in view` is false. -/
theorem c130_stale {order : Finset κ → List κ} (ho : Enumerates order) {m : AMap κ ν} (h : Reachable m)
    (k : κ) (v : ν) :
    (m.contains k = false →
      (m.view order false).len (m.setItem k v) = m.len ∧
      VKey.name k ∉ (m.view order false).keys (m.setItem k v) ∧
      (m.view order false).hasKey (m.setItem k v) k = true) ∧
    ∀ m', m.delItem k = .ok m' →
      (m.view order false).values m' = .error .keyError ∧ (m.view order false).items m' = .error .keyError ∧
      VKey.name k ∈ (m.view order false).keys m' ∧ (m.view order false).hasKey m' k = false ∧
      (m.view order false).len m' = m.len := by
  have hm := reachable_good h
  have hin : ∀ m' : AMap κ ν, VKey.name k ∈ (m.view order false).keys m' ↔ m.contains k = true := by
    intro m'
    rw [← names_mem ho hm]
    show VKey.name k ∈ (m.names order).map VKey.name ↔ _
    constructor
    · intro hk
      obtain ⟨a, ha, he⟩ := List.mem_map.1 hk
      cases he; exact ha
    · exact fun hk => List.mem_map.2 ⟨k, hk, rfl⟩
  refine ⟨fun hk => ⟨names_length ho m, ?_, ?_⟩, fun m' hd => ?_⟩
  · rw [hin, hk]; decide
  · show (m.setItem k v).contains k = true
    obtain ⟨_, _, h3⟩ := setItem_spec hm k v
    unfold AMap.contains
    rw [h3, if_pos (mem_target hm k)]; rfl
  · obtain ⟨g, hg⟩ : ∃ g, m.resolve k = some g := by
      cases hr : m.resolve k with
      | none => rw [(delItem_spec hm k).1 hr] at hd; cases hd
      | some g => exact ⟨g, rfl⟩
    have hc : m.contains k = true := by unfold AMap.contains; rw [hg]; rfl
    have hc' : m'.contains k = false := by
      obtain ⟨m'', h1, _, _, h4⟩ := (delItem_spec hm k).2 g hg
      rw [h1] at hd; cases hd
      unfold AMap.contains
      rw [h4, if_pos ((resolve_some hm).1 hg).2]; rfl
    obtain ⟨_, h2, _⟩ := c130_by_name_partial (Reachable.del k h hd) (m.names order)
    obtain ⟨h5, h6⟩ := h2 ⟨k, (names_mem ho hm).2 hc, hc'⟩
    exact ⟨h5, h6, (hin m').2 hc, hc', names_length ho m⟩

/-- **C130.** Comparing two aliased mappings never raises, and they are equal exactly when every name reads
the same in both (or is unknown to both): the alias groups themselves do not count. -/
theorem c130_eq [DecidableEq ν] {order order' : Finset κ → List κ} (ho : Enumerates order)
    (ho' : Enumerates order') {m n : AMap κ ν} (hm' : Reachable m) (hn' : Reachable n) :
    ∃ b, m.eq order order' n = .ok b ∧ (b = true ↔ ∀ k, m.getItem k = n.getItem k) := by
  have hm := reachable_good hm'
  have hn := reachable_good hn'
  obtain ⟨items, _, h1, _, h3, _⟩ := c130_fresh ho hm'
  have hcont : ∀ {m : AMap κ ν}, Good m → ∀ k, m.contains k = true ↔ ∃ v, m.getItem k = .ok v := by
    intro m hm k
    rcases contains_getItem hm k with ⟨h, h'⟩ | ⟨h, h'⟩
    · exact ⟨fun _ => h', fun _ => h⟩
    · rw [h, h']; simp
  unfold AMap.eq
  split
  · rename_i hl
    refine ⟨false, rfl, ?_⟩
    simp only [Bool.false_eq_true, false_iff]
    intro hall
    apply hl
    refine List.Perm.length_eq ((List.perm_ext_iff_of_nodup (names_nodup ho hm) (names_nodup ho' hn)).2 ?_)
    intro a
    rw [names_mem ho hm, names_mem ho' hn, hcont hm, hcont hn, hall]
  · rename_i hl
    rw [not_not] at hl
    rw [h1]
    refine ⟨_, rfl, ?_⟩
    rw [List.all_eq_true]
    have hitem : ∀ p ∈ items, ∃ k, p.1 = VKey.name k := by
      have hi : ∀ p ∈ items, p.1 ∈ (m.view order false).keys m := by
        intro p hp
        have h2 := (c130_by_name_partial hm' (m.names order)).1 (fun k hk => (names_mem ho hm).1 hk)
        obtain ⟨vs, _, _, h4⟩ := h2
        have h5 : (m.view order false).items m = .ok (((m.names order).map VKey.name).zip vs) := h4
        rw [h5] at h1; cases h1
        exact (List.of_mem_zip hp).1
      intro p hp
      obtain ⟨k, _, hk⟩ := List.mem_map.1 (hi p hp)
      exact ⟨k, hk.symm⟩
    constructor
    · intro hall
      have hsub : ∀ k v, m.getItem k = .ok v → n.getItem k = .ok v := by
        intro k v hkv
        have := hall _ ((h3 k v).2 hkv)
        simp only [View.hasItem] at this
        cases hg : n.getItem k with
        | error e => rw [hg] at this; simp at this
        | ok x => rw [hg] at this; rw [of_decide_eq_true this]
      have hss : m.names order ⊆ n.names order' := by
        intro a ha
        rw [names_mem ho hm, hcont hm] at ha
        obtain ⟨v, hv⟩ := ha
        rw [names_mem ho' hn, hcont hn]
        exact ⟨v, hsub a v hv⟩
      have hp : List.Perm (m.names order) (n.names order') :=
        ((names_nodup ho hm).subperm hss).perm_of_length_le (le_of_eq hl.symm)
      intro k
      rcases getItem_cases hm k with ⟨v, hv⟩ | he
      · rw [hv, hsub k v hv]
      · rcases getItem_cases hn k with ⟨w, hw⟩ | he'
        · have : k ∈ n.names order' := by rw [names_mem ho' hn, hcont hn]; exact ⟨w, hw⟩
          rw [← hp.mem_iff, names_mem ho hm, hcont hm, he] at this
          obtain ⟨_, h⟩ := this; cases h
        · rw [he, he']
    · intro hall p hp
      obtain ⟨k, hk⟩ := hitem p hp
      obtain ⟨pk, pv⟩ := p
      simp only at hk; subst hk
      have := (h3 k pv).1 hp
      rw [hall k] at this
      simp only [View.hasItem, this, decide_true]

theorem buildStep_eq {m : AMap κ ν} (hm : Good m) (k : κ) (v : ν) :
    AMap.ofDict (buildStep m.dict (Key.name k, v)) = m.setItem k v := by
  unfold AMap.setItem buildStep
  simp only
  cases hf : m.dict.find? (fun q => decide (k ∈ q.1)) with
  | none =>
    have : m.resolve k = none := by
      rw [resolve_none hm]
      intro g hg hk
      obtain ⟨p, hp, rfl⟩ := List.mem_map.1 hg
      have := List.find?_eq_none.1 hf p hp
      rw [decide_eq_true_iff] at this
      exact this hk
    rw [this]; rfl
  | some q =>
    have hq := List.find?_some hf
    rw [decide_eq_true_iff] at hq
    have : m.resolve k = some q.1 :=
      (resolve_some hm).2 ⟨List.mem_map.2 ⟨q, List.mem_of_find?_eq_some hf, rfl⟩, hq⟩
    rw [this]; rfl

/-- **C130.** `m | d` for a standard mapping `d` is what `m` becomes by assigning the items of `d` one after
the other: a name of `d` that `m` knows changes the value under all its aliases, any other becomes a new
entry. -/
theorem c130_or_plain {order : Finset κ → List κ} (ho : Enumerates order) {m : AMap κ ν} (h : Reachable m)
    (d : Dict κ ν) : m.orPlain order d = d.foldl (fun m p => m.setItem p.1 p.2) m := by
  have hm := reachable_good h
  have hset : ∀ g, (order g).toFinset = g := by
    intro g; ext a; rw [List.mem_toFinset]; exact (ho g).2 a
  have hgroups : (m.dict.map (fun p => (Key.tuple (order p.1), p.2))).map (fun p => p.1.group) = m.dict.keys := by
    rw [List.map_map]
    exact List.map_congr_left (fun p _ => hset p.1)
  have hbase : buildFromAliases (m.dict.map (fun p => (Key.tuple (order p.1), p.2))) = m.dict := by
    rw [buildFromAliases_eq]
    · rw [List.map_map]
      refine (List.map_congr_left (fun p _ => ?_)).trans (List.map_id _)
      show ((order p.1).toFinset, p.2) = p
      rw [hset]
    · rw [hgroups]; exact hm.inv.disj
    · intro p hp
      obtain ⟨q, hq, rfl⟩ := List.mem_map.1 hp
      show (order q.1).toFinset.Nonempty
      rw [hset]
      exact hm.inv.nonempty q.1 (List.mem_map.2 ⟨q, hq, rfl⟩)
  have hloop : ∀ (d : List (κ × ν)) {m : AMap κ ν}, Good m →
      AMap.ofDict ((d.map (fun p => (Key.name p.1, p.2))).foldl buildStep m.dict) =
        d.foldl (fun m p => m.setItem p.1 p.2) m := by
    intro d
    induction d with
    | nil =>
      intro m hm
      obtain ⟨dict, flat⟩ := m
      have := hm.flat
      simp only at this
      subst this; rfl
    | cons p d ih =>
      intro m hm
      rw [List.map_cons, List.foldl_cons, List.foldl_cons, ← ih (setItem_spec hm p.1 p.2).1,
        ← buildStep_eq hm p.1 p.2]
      rfl
  rw [← hloop d hm]
  unfold AMap.orPlain AMap.ofMapping
  congr 1
  conv_lhs => unfold buildFromAliases
  rw [List.foldl_append]
  congr 1

theorem get?_ofItems_fun {β ρ : Type} (f : κ → Except Err ρ) (l : List (κ × ρ)) (h : ∀ p ∈ l, f p.1 = .ok p.2)
    (k : κ) (v : ρ) : (Dict.ofItems l).get? k = some v ↔ (k, v) ∈ l := by
  have key : ∀ (l : List (κ × ρ)) (d : Dict κ ρ), (∀ p ∈ l, f p.1 = .ok p.2) →
      (∀ k v, d.get? k = some v → f k = .ok v) →
      ∀ k v, (l.foldl (fun d p => d.set p.1 p.2) d).get? k = some v ↔ d.get? k = some v ∨ (k, v) ∈ l := by
    intro l
    induction l with
    | nil => intro d _ _ k v; simp
    | cons p l ih =>
      intro d hl hd k v
      rw [List.foldl_cons, ih]
      · rw [Dict.get?_set]
        obtain ⟨pk, pv⟩ := p
        simp only [List.mem_cons, Prod.mk.injEq]
        have hp := hl (pk, pv) (by simp)
        simp only at hp
        by_cases hk : pk = k
        · subst hk
          simp only [if_true, Option.some.injEq, true_and]
          constructor
          · rintro (rfl | h)
            · exact Or.inr (Or.inl rfl)
            · exact Or.inr (Or.inr h)
          · rintro (h | rfl | h)
            · have := hd _ _ h
              rw [hp] at this; cases this; exact Or.inl rfl
            · exact Or.inl rfl
            · exact Or.inr h
        · have hk' : ¬ k = pk := fun h => hk h.symm
          simp [hk, hk']
      · exact fun q hq => hl q (by simp [hq])
      · intro k' v' h'
        rw [Dict.get?_set] at h'
        split at h'
        · rename_i hk
          subst hk
          cases h'
          exact hl p (by simp)
        · exact hd _ _ h'
  have := key l [] h (by simp) k v
  unfold Dict.ofItems
  rw [this]; simp

theorem mapM_pairs {ρ : Type} (f : κ → Except Err ρ) (ks : List κ) (h : ∀ k ∈ ks, ∃ v, f k = .ok v) :
    ∃ l : List (κ × ρ), ks.mapM (fun k => (f k).map (fun v => (k, v))) = .ok l ∧
      (∀ k v, (k, v) ∈ l ↔ k ∈ ks ∧ f k = .ok v) ∧ l.map Prod.fst = ks := by
  induction ks with
  | nil => exact ⟨[], rfl, by simp, rfl⟩
  | cons k ks ih =>
    obtain ⟨l, h1, h2, h3⟩ := ih (fun a ha => h a (by simp [ha]))
    obtain ⟨v, hv⟩ := h k (by simp)
    refine ⟨(k, v) :: l, ?_, fun k' v' => ?_, by simp [h3]⟩
    · rw [List.mapM_cons, hv, h1]; rfl
    · simp only [List.mem_cons, Prod.mk.injEq, h2]
      constructor
      · rintro (⟨rfl, rfl⟩ | ⟨h, h'⟩)
        · exact ⟨Or.inl rfl, hv⟩
        · exact ⟨Or.inr h, h'⟩
      · rintro ⟨rfl | h, h'⟩
        · rw [hv] at h'; cases h'; exact Or.inl ⟨rfl, rfl⟩
        · exact Or.inr ⟨h, h'⟩

/-- **C130.** `m.flat` is a standard dictionary with exactly the names of the mapping, each with the value it
reads in the mapping. -/
theorem c130_flat {order : Finset κ → List κ} (ho : Enumerates order) {m : AMap κ ν} (h : Reachable m) :
    ∃ d : Dict κ ν, m.toFlat order = .ok d ∧ d.WF ∧ d.length = m.len ∧
      ∀ k v, d.get? k = some v ↔ m.getItem k = .ok v := by
  have hm := reachable_good h
  have hread : ∀ k ∈ m.names order, ∃ v, m.getItem k = .ok v := by
    intro k hk
    rw [names_mem ho hm] at hk
    rcases contains_getItem hm k with ⟨_, h'⟩ | ⟨h', _⟩
    · exact h'
    · rw [hk] at h'; cases h'
  obtain ⟨l, h1, h2, h3⟩ := mapM_pairs m.getItem (m.names order) hread
  have hn : Dict.ofItems l = l := Dict.ofItems_nodup l (by rw [h3]; exact names_nodup ho hm)
  refine ⟨Dict.ofItems l, by unfold AMap.toFlat; rw [h1]; rfl, Dict.ofItems_wf l, ?_, fun k v => ?_⟩
  · rw [hn, ← names_length ho m, ← h3, List.length_map]
  · rw [get?_ofItems_fun (β := ν) m.getItem l (fun p hp => ((h2 p.1 p.2).1 hp).2) k v, h2]
    refine ⟨fun h => h.2, fun h' => ⟨?_, h'⟩⟩
    rw [names_mem ho hm]
    rcases contains_getItem hm k with ⟨h, _⟩ | ⟨_, he⟩
    · exact h
    · rw [h'] at he; cases he

/-- **C130.** `freeze()` gives an immutable mapping with the same values and the same aliases. -/
theorem c130_freeze (m : MutMap κ ν) (h : Reachable m.toAMap) (k : κ) :
    m.freeze.getItem k = m.toAMap.getItem k ∧ m.freeze.aliases k = m.toAMap.aliases k := by
  have hm := reachable_good h
  have : m.freeze = m.toAMap := by
    unfold MutMap.freeze AMap.copy
    rw [Dict.ofItems_nodup m.toAMap.dict hm.inv.wf]
    obtain ⟨⟨dict, flat⟩, groups⟩ := m
    have := hm.flat
    simp only at this
    subst this; rfl
  rw [this]
  exact ⟨rfl, rfl⟩

/-- **C130.** `freeze(groups=True)`: when every name in a named group of keys is in the mapping, the frozen
mapping reads under each name what the original reads, including the tuples under the names of groups; but
every alias becomes an entry of its own, with no alias left.  When a named group refers to a name that is
gone, the call raises `KeyError`. -/
theorem c130_freeze_groups_partial {order : Finset κ → List κ} (ho : Enumerates order) (m : MutMap κ ν)
    (h : Reachable m.toAMap) (hw : m.groups.WF) :
    ((∀ p ∈ m.groups, ∀ k ∈ p.2, m.toAMap.contains k = true) →
      ∃ fz, m.freezeGroups order = .ok fz ∧ (∀ k v, fz.getItem k = .ok v ↔ m.read k = .ok v) ∧
        ∀ k, fz.aliases k = if fz.contains k then some {k} else none) ∧
    ((∃ p ∈ m.groups, ∃ k ∈ p.2, m.toAMap.contains k = false) → m.freezeGroups order = .error .keyError) := by
  have hm := reachable_good h
  have hsome : ∀ {k ks}, m.groups.get? k = some ks → (k, ks) ∈ m.groups := fun h => Dict.mem_of_get? h
  constructor
  · intro hg
    have hreadg : ∀ k ∈ m.groups.keys, ∃ v, m.read k = .ok v := by
      intro k hk
      obtain ⟨ks, hks⟩ := Dict.get?_isSome.2 hk
      obtain ⟨vs, hvs, _⟩ := (c130_by_name_partial h ks).1 (fun a ha => hg _ (hsome hks) a ha)
      have hv : (View.byName ks).values m.toAMap = ks.mapM (fun k => m.toAMap.getItem k) := by
        unfold View.values View.keys
        rw [List.mapM_map]; rfl
      rw [hv] at hvs
      refine ⟨.many vs, ?_⟩
      unfold MutMap.read
      rw [hks]
      simp only
      rw [hvs]; rfl
    have hreadn : ∀ k ∈ m.toAMap.names order, ∃ v, m.read k = .ok v := by
      intro k hk
      cases hgk : m.groups.get? k with
      | some ks => exact hreadg k (Dict.get?_isSome.1 ⟨ks, hgk⟩)
      | none =>
        rw [names_mem ho hm] at hk
        rcases contains_getItem hm k with ⟨_, v, hv⟩ | ⟨h', _⟩
        · refine ⟨.one v, ?_⟩
          unfold MutMap.read
          rw [hgk]
          simp only
          rw [hv]; rfl
        · rw [hk] at h'; cases h'
    obtain ⟨grouped, g1, g2, g3⟩ := mapM_pairs m.read m.groups.keys hreadg
    obtain ⟨own, o1, o2, o3⟩ := mapM_pairs m.read (m.toAMap.names order) hreadn
    have hD := get?_ofItems_fun (β := ν) m.read (own ++ grouped) (by
      intro p hp
      rcases List.mem_append.1 hp with hp | hp
      · exact ((o2 p.1 p.2).1 hp).2
      · exact ((g2 p.1 p.2).1 hp).2)
    have hwD : (Dict.ofItems (own ++ grouped)).WF := Dict.ofItems_wf _
    generalize hDe : Dict.ofItems (own ++ grouped) = D at hD hwD
    have hdis : ((D.map (fun p => (Key.name p.1, p.2))).map (fun p => p.1.group)).Pairwise Disjoint := by
      rw [List.map_map, List.pairwise_map]
      unfold Dict.WF Dict.keys List.Nodup at hwD
      rw [List.pairwise_map] at hwD
      refine hwD.imp (fun {p q} hpq => ?_)
      show Disjoint ({p.1} : Finset κ) {q.1}
      simpa using hpq
    have hne : ∀ p ∈ D.map (fun p => (Key.name p.1, p.2)), p.1.group.Nonempty := by
      intro p hp
      obtain ⟨q, _, rfl⟩ := List.mem_map.1 hp
      exact Finset.singleton_nonempty _
    have hdict : (AMap.ofMapping (D.map (fun p => (Key.name p.1, p.2)))).dict =
        D.map (fun p => (({p.1} : Finset κ), p.2)) := by
      show buildFromAliases _ = _
      rw [buildFromAliases_eq _ hdis hne, List.map_map]; rfl
    have hG : Good (AMap.ofMapping (D.map (fun p => (Key.name p.1, p.2)))) :=
      reachable_good (.start _ hdis hne)
    refine ⟨AMap.ofMapping (D.map (fun p => (Key.name p.1, p.2))), ?_, fun k v => ?_, fun k => ?_⟩
    · unfold MutMap.freezeGroups
      rw [g1]
      simp only
      rw [o1]
      simp only
      rw [hDe]
    · rw [getItem_ok hG, hdict]
      constructor
      · rintro ⟨g, hgm, hk⟩
        obtain ⟨p, hp, he⟩ := List.mem_map.1 hgm
        cases he
        rw [Finset.mem_singleton] at hk
        subst hk
        have := (hD p.1 p.2).1 ((Dict.get?_eq_some hwD).2 hp)
        rcases List.mem_append.1 this with hp | hp
        · exact ((o2 _ _).1 hp).2
        · exact ((g2 _ _).1 hp).2
      · intro hr
        have hkk : (k, v) ∈ own ++ grouped := by
          rw [List.mem_append, o2, g2]
          cases hgk : m.groups.get? k with
          | some ks => exact Or.inr ⟨Dict.get?_isSome.1 ⟨ks, hgk⟩, hr⟩
          | none =>
            left
            refine ⟨?_, hr⟩
            rw [names_mem ho hm]
            rcases contains_getItem hm k with ⟨h', _⟩ | ⟨_, he⟩
            · exact h'
            · unfold MutMap.read at hr
              rw [hgk] at hr
              simp only at hr
              rw [he] at hr; cases hr
        have := (Dict.get?_eq_some hwD).1 ((hD k v).2 hkk)
        exact ⟨{k}, List.mem_map.2 ⟨_, this, rfl⟩, Finset.mem_singleton_self k⟩
    · unfold AMap.contains AMap.aliases
      cases hr : (AMap.ofMapping (D.map (fun p => (Key.name p.1, p.2)))).resolve k with
      | none => rfl
      | some g =>
        obtain ⟨hg1, hg2⟩ := (resolve_some hG).1 hr
        rw [hdict] at hg1
        obtain ⟨q, hq, rfl⟩ := List.mem_map.1 hg1
        obtain ⟨p, _, rfl⟩ := List.mem_map.1 hq
        have hg2' : k ∈ ({p.1} : Finset κ) := hg2
        rw [Finset.mem_singleton] at hg2'
        subst hg2'; rfl
  · rintro ⟨p, hp, k, hk, hc⟩
    have hall : ∀ a, (∃ v, m.read a = .ok v) ∨ m.read a = .error .keyError := by
      intro a
      unfold MutMap.read
      cases hga : m.groups.get? a with
      | none =>
        simp only
        rcases getItem_cases hm a with ⟨v, hv⟩ | he
        · left; exact ⟨_, by rw [hv]; rfl⟩
        · right; rw [he]; rfl
      | some ks =>
        simp only
        have hv : (View.byName ks).values m.toAMap = ks.mapM (fun k => m.toAMap.getItem k) := by
          unfold View.values View.keys
          rw [List.mapM_map]; rfl
        rw [← hv]
        obtain ⟨h1, h2, _⟩ := c130_by_name_partial h ks
        by_cases hx : ∀ k ∈ ks, m.toAMap.contains k = true
        · obtain ⟨vs, hvs, _⟩ := h1 hx
          left; exact ⟨_, by rw [hvs]; rfl⟩
        · right
          have : ∃ k ∈ ks, m.toAMap.contains k = false := by
            by_contra hcon
            apply hx
            intro k hk
            by_contra hf
            exact hcon ⟨k, hk, by simpa using hf⟩
          rw [(h2 this).1]; rfl
    have hbad : m.read p.1 = .error .keyError := by
      have hget : m.groups.get? p.1 = some p.2 := (Dict.get?_eq_some hw).2 hp
      unfold MutMap.read
      rw [hget]
      simp only
      have hv : (View.byName p.2).values m.toAMap = p.2.mapM (fun k => m.toAMap.getItem k) := by
        unfold View.values View.keys
        rw [List.mapM_map]; rfl
      rw [← hv, ((c130_by_name_partial h p.2).2.1 ⟨k, hk, hc⟩).1]; rfl
    unfold MutMap.freezeGroups
    rw [mapM_error (fun k => (m.read k).map (fun v => (k, v))) m.groups.keys .keyError (fun a _ => ?_)
      ⟨p.1, List.mem_map.2 ⟨p, hp, rfl⟩, by rw [hbad]; rfl⟩]
    rcases hall a with ⟨v, hv⟩ | he
    · left; exact ⟨_, by rw [hv]; rfl⟩
    · right; rw [he]; rfl

/-! ### Examples -/

/-- An iteration order of groups of small numbers. -/
def demoOrder (g : Finset (Fin 6)) : List (Fin 6) := [5, 4, 3, 2, 1, 0].filter (fun a => decide (a ∈ g))

/-- `{0: 10, (1, 2): 20, (3, 4): 20}` -/
def demoViews : AMap (Fin 6) Nat := AMap.ofMapping [(.name 0, 10), (.tuple [1, 2], 20), (.tuple [3, 4], 20)]

/-- `{4: 20, (0,): 10, (2, 3, 1): 20}` -/
def demoOther : AMap (Fin 6) Nat := AMap.ofMapping [(.name 4, 20), (.name 0, 10), (.tuple [2, 3, 1], 20)]

theorem demoOrder_enumerates : Enumerates demoOrder := by
  intro g
  unfold demoOrder
  refine ⟨List.Nodup.filter _ (by decide), fun a => ?_⟩
  rw [List.mem_filter, decide_eq_true_iff]
  refine ⟨fun h => h.2, fun h => ⟨?_, h⟩⟩
  have all : ∀ b : Fin 6, b ∈ [5, 4, 3, 2, 1, 0] := by decide
  exact all a

theorem demoViews_reachable : Reachable demoViews := by
  refine .start _ (by decide) (fun p hp => ?_)
  simp only [List.mem_cons, List.not_mem_nil, or_false] at hp
  rcases hp with rfl | rfl | rfl <;> decide

theorem demoOther_reachable : Reachable demoOther := by
  refine .start _ (by decide) (fun p hp => ?_)
  simp only [List.mem_cons, List.not_mem_nil, or_false] at hp
  rcases hp with rfl | rfl | rfl <;> decide

example : (demoViews.view demoOrder false).values demoViews = .ok [10, 20, 20, 20, 20] ∧
    demoViews.names demoOrder = [0, 2, 1, 4, 3] ∧ (View.byGroup).values demoViews = .ok [10, 20, 20] := by
  decide
example : demoViews.contains 1 = true ∧ demoViews.contains 5 = false ∧
    (∃ m', demoViews.delItem 1 = .ok m') := by
  refine ⟨by decide, by decide, ?_⟩
  exact ⟨_, rfl⟩
example : demoViews.orPlain demoOrder [(1, 7), (5, 8)] = (demoViews.setItem 1 7).setItem 5 8 :=
  c130_or_plain demoOrder_enumerates demoViews_reachable _
example : (demoViews.orPlain demoOrder [(1, 7), (5, 8)]).getItem 2 = .ok 7 := by decide
example : (∃ b, demoViews.eq demoOrder demoOrder demoOther = .ok b ∧
    (b = true ↔ ∀ k, demoViews.getItem k = demoOther.getItem k)) :=
  c130_eq demoOrder_enumerates demoOrder_enumerates demoViews_reachable demoOther_reachable
example : ∃ d, demoViews.toFlat demoOrder = .ok d ∧ d = [(0, 10), (2, 20), (1, 20), (4, 20), (3, 20)] :=
  ⟨_, rfl, by decide⟩

/-- **C130.** Two mappings with different aliases can be equal: in `demoViews` 1 and 2 are aliases of each
other but not of 3, in `demoOther` all three are, and the mappings are equal. -/
theorem c130_eq_ignores_aliases :
    demoViews.eq demoOrder demoOrder demoOther = .ok true ∧
    demoViews.aliases 1 = some {1, 2} ∧ demoOther.aliases 1 = some {1, 2, 3} := by decide

/-- A mapping with the named group `5: (0, 1)`. -/
def demoGrouped : MutMap (Fin 6) Nat := ⟨demoViews, [(5, [0, 1])]⟩

example : demoGrouped.groups.WF ∧ (∀ p ∈ demoGrouped.groups, ∀ k ∈ p.2, demoGrouped.toAMap.contains k = true) ∧
    demoGrouped.read 5 = .ok (.many [10, 20]) := by
  refine ⟨?_, ?_, by decide⟩
  · unfold Dict.WF; decide
  · decide

/-- **C130.** Freezing with groups loses the aliases: 1 and 2 are aliases in the mapping and not in the
frozen mapping. -/
theorem c130_freeze_groups_loses_aliases :
    demoGrouped.toAMap.aliases 1 = some {1, 2} ∧
    ∃ fz, demoGrouped.freezeGroups demoOrder = .ok fz ∧ fz.aliases 1 = some {1} :=
  ⟨by decide, _, rfl, by decide⟩

end Eprem.Aliased
