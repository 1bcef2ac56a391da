import Verif.Model.Aliased
import Verif.Lemmas.PyDict
import Mathlib.Data.List.Nodup
import Mathlib.Data.Finset.Disjoint

namespace Eprem.Aliased

variable {κ ν : Type} [DecidableEq κ]

/-- Groups are non-empty and pairwise disjoint. -/
structure Inv (d : Dict (Finset κ) ν) : Prop where
  disj : d.keys.Pairwise Disjoint
  nonempty : ∀ g ∈ d.keys, g.Nonempty

/-- The look-up table is up to date and the groups are disjoint. -/
structure Good (m : AMap κ ν) : Prop where
  flat : m.flat = flatOf m.dict
  inv : Inv m.dict

omit [DecidableEq κ] in
theorem disj_forall {l : List (Finset κ)} (h : l.Pairwise Disjoint) {g g' : Finset κ} (hg : g ∈ l) (hg' : g' ∈ l)
    (hne : g ≠ g') : Disjoint g g' := by
  induction l with
  | nil => simp at hg
  | cons x l ih =>
    rw [List.pairwise_cons] at h
    rcases List.mem_cons.1 hg with rfl | h1
    · rcases List.mem_cons.1 hg' with rfl | h2
      · exact absurd rfl hne
      · exact h.1 g' h2
    · rcases List.mem_cons.1 hg' with rfl | h2
      · exact (h.1 g h1).symm
      · exact ih h.2 h1 h2

omit [DecidableEq κ] in
theorem group_unique {l : List (Finset κ)} (h : l.Pairwise Disjoint) {g g' : Finset κ} (hg : g ∈ l) (hg' : g' ∈ l)
    {a : κ} (ha : a ∈ g) (ha' : a ∈ g') : g = g' := by
  by_contra hne
  have := disj_forall h hg hg' hne
  exact Finset.disjoint_left.1 this ha ha'

theorem Inv.wf {d : Dict (Finset κ) ν} (h : Inv d) : d.WF := by
  unfold Dict.WF
  have := h.disj
  have hn := h.nonempty
  generalize Dict.keys d = l at *
  induction l with
  | nil => simp
  | cons g l ih =>
    rw [List.pairwise_cons] at this
    rw [List.nodup_cons]
    refine ⟨fun hg => ?_, ih this.2 (fun x hx => hn x (by simp [hx]))⟩
    have h1 := this.1 g hg
    obtain ⟨a, ha⟩ := hn g (by simp)
    exact Finset.disjoint_left.1 h1 ha ha

theorem flatOf_some {d : Dict (Finset κ) ν} (h : Inv d) {a : κ} {g : Finset κ} :
    flatOf d a = some g ↔ g ∈ d.keys ∧ a ∈ g := by
  unfold flatOf
  cases hf : d.reverse.find? (fun p => decide (a ∈ p.1)) with
  | none =>
    simp only [Option.map_none, reduceCtorEq, false_iff, not_and]
    intro hg ha
    obtain ⟨p, hp, rfl⟩ := List.mem_map.1 hg
    have := List.find?_eq_none.1 hf p (List.mem_reverse.2 hp)
    simp [ha] at this
  | some p =>
    have h1 := List.find?_some hf
    have h2 := List.mem_reverse.1 (List.mem_of_find?_eq_some hf)
    simp only [decide_eq_true_eq] at h1
    have hk : p.1 ∈ d.keys := List.mem_map.2 ⟨p, h2, rfl⟩
    simp only [Option.map_some, Option.some.injEq]
    constructor
    · rintro rfl; exact ⟨hk, h1⟩
    · rintro ⟨hg, ha⟩; exact group_unique h.disj hk hg h1 ha

theorem flatOf_none {d : Dict (Finset κ) ν} (h : Inv d) {a : κ} :
    flatOf d a = none ↔ ∀ g ∈ d.keys, a ∉ g := by
  constructor
  · intro hn g hg ha
    have := (flatOf_some h).2 ⟨hg, ha⟩
    rw [hn] at this; cases this
  · intro hn
    cases hf : flatOf d a with
    | none => rfl
    | some g => exact absurd ((flatOf_some h).1 hf).2 (hn g ((flatOf_some h).1 hf).1)

theorem good_ofDict {d : Dict (Finset κ) ν} (h : Inv d) : Good (AMap.ofDict d) := ⟨rfl, h⟩

section
variable {m : AMap κ ν} (hm : Good m)
include hm

theorem resolve_some {a : κ} {g : Finset κ} : m.resolve a = some g ↔ g ∈ m.dict.keys ∧ a ∈ g := by
  unfold AMap.resolve; rw [hm.flat]; exact flatOf_some hm.inv

theorem resolve_none {a : κ} : m.resolve a = none ↔ ∀ g ∈ m.dict.keys, a ∉ g := by
  unfold AMap.resolve; rw [hm.flat]; exact flatOf_none hm.inv

theorem getItem_ok {a : κ} {v : ν} : m.getItem a = .ok v ↔ ∃ g, (g, v) ∈ m.dict ∧ a ∈ g := by
  unfold AMap.getItem
  cases hr : m.resolve a with
  | none =>
    simp only [reduceCtorEq, false_iff, not_exists, not_and]
    intro g hg
    exact (resolve_none hm).1 hr g (List.mem_map.2 ⟨_, hg, rfl⟩)
  | some g =>
    obtain ⟨hg, ha⟩ := (resolve_some hm).1 hr
    obtain ⟨w, hw⟩ := Dict.get?_isSome.2 hg
    simp only [hw, Except.ok.injEq]
    constructor
    · rintro rfl; exact ⟨g, Dict.mem_of_get? hw, ha⟩
    · rintro ⟨g', hg', ha'⟩
      have : g' = g := group_unique hm.inv.disj (List.mem_map.2 ⟨_, hg', rfl⟩) hg ha' ha
      subst this
      have := Dict.get?_of_mem hm.inv.wf hg'
      rw [hw] at this; exact Option.some.inj this

theorem getItem_error {a : κ} : m.getItem a = .error .keyError ↔ m.resolve a = none := by
  unfold AMap.getItem
  cases hr : m.resolve a with
  | none => simp
  | some g =>
    obtain ⟨w, hw⟩ := Dict.get?_isSome.2 ((resolve_some hm).1 hr).1
    simp [hw]

/-- Every read is a value or a `KeyError`. -/
theorem getItem_cases (a : κ) : (∃ v, m.getItem a = .ok v) ∨ m.getItem a = .error .keyError := by
  unfold AMap.getItem
  cases m.resolve a with
  | none => simp
  | some g => cases h : m.dict.get? g <;> simp [h]

theorem inFlatKeys_iff {a : κ} : m.inFlatKeys a = true ↔ m.resolve a ≠ none := by
  rw [Ne, resolve_none hm]
  unfold AMap.inFlatKeys
  simp only [List.any_eq_true, decide_eq_true_eq, not_forall, not_not]
  constructor
  · rintro ⟨p, hp, ha⟩; exact ⟨p.1, List.mem_map.2 ⟨p, hp, rfl⟩, ha⟩
  · rintro ⟨g, hg, ha⟩
    obtain ⟨p, hp, rfl⟩ := List.mem_map.1 hg
    exact ⟨p, hp, ha⟩

end

/-- Two well-formed mappings with the same items read the same. -/
theorem getItem_congr {m m' : AMap κ ν} (hm : Good m) (hm' : Good m') {a : κ}
    (h : ∀ v, (∃ g, (g, v) ∈ m.dict ∧ a ∈ g) ↔ ∃ g, (g, v) ∈ m'.dict ∧ a ∈ g) : m.getItem a = m'.getItem a := by
  rcases getItem_cases hm a with ⟨v, hv⟩ | he
  · rw [hv]; exact ((getItem_ok hm').2 ((h v).1 ((getItem_ok hm).1 hv))).symm
  · rcases getItem_cases hm' a with ⟨v, hv⟩ | he'
    · rw [(getItem_ok hm).2 ((h v).2 ((getItem_ok hm').1 hv))] at he; cases he
    · rw [he, he']

theorem resolve_congr {m m' : AMap κ ν} (hm : Good m) (hm' : Good m') {a : κ}
    (h : ∀ g, a ∈ g → (g ∈ m.dict.keys ↔ g ∈ m'.dict.keys)) : m.resolve a = m'.resolve a := by
  cases h1 : m.resolve a with
  | none =>
    rw [resolve_none hm] at h1
    exact ((resolve_none hm').2 (fun g hg ha => h1 g ((h g ha).2 hg) ha)).symm
  | some g =>
    obtain ⟨hg, ha⟩ := (resolve_some hm).1 h1
    exact ((resolve_some hm').2 ⟨(h g ha).1 hg, ha⟩).symm

/-! ### `setItem` -/

theorem mem_set {d : Dict (Finset κ) ν} (hw : d.WF) {g g' : Finset κ} {v w : ν} :
    (g', w) ∈ d.set g v ↔ (g' = g ∧ w = v) ∨ (g' ≠ g ∧ (g', w) ∈ d) := by
  rw [← Dict.get?_eq_some (hw.set g v), Dict.get?_set, ← Dict.get?_eq_some hw]
  by_cases h : g = g'
  · subst h; simp [eq_comm]
  · simp [h, Ne.symm h]

theorem mem_del {d : Dict (Finset κ) ν} {g g' : Finset κ} {w : ν} :
    (g', w) ∈ d.del g ↔ g' ≠ g ∧ (g', w) ∈ d := by
  unfold Dict.del
  simp [and_comm]

theorem inv_set {d : Dict (Finset κ) ν} (h : Inv d) {g : Finset κ} (hne : g.Nonempty) (v : ν)
    (hg : g ∈ d.keys ∨ ∀ g' ∈ d.keys, Disjoint g' g) : Inv (d.set g v) := by
  refine ⟨?_, ?_⟩
  · rw [Dict.keys_set]
    split
    · exact h.disj
    · rename_i hn
      rw [List.pairwise_append]
      exact ⟨h.disj, by simp, fun a ha b hb => by
        simp only [List.mem_singleton] at hb; subst hb
        exact (hg.resolve_left hn) a ha⟩
  · intro g' hg'
    rcases Dict.mem_keys_set.1 hg' with rfl | h'
    · exact hne
    · exact h.nonempty g' h'

theorem inv_del {d : Dict (Finset κ) ν} (h : Inv d) (g : Finset κ) : Inv (d.del g) := by
  refine ⟨?_, fun g' hg' => h.nonempty g' (Dict.mem_keys_del.1 hg').1⟩
  unfold Dict.keys Dict.del
  exact h.disj.sublist (List.Sublist.map _ List.filter_sublist)

/-- What assigning through `k` writes to. -/
def target (m : AMap κ ν) (k : κ) : Finset κ := (m.resolve k).getD {k}

theorem mem_target {m : AMap κ ν} (hm : Good m) (k : κ) : k ∈ target m k := by
  unfold target
  cases h : m.resolve k with
  | none => simp
  | some g => exact ((resolve_some hm).1 h).2

theorem target_disj {m : AMap κ ν} (hm : Good m) (k : κ) :
    target m k ∈ m.dict.keys ∨ ∀ g' ∈ m.dict.keys, Disjoint g' (target m k) := by
  unfold target
  cases h : m.resolve k with
  | none =>
    right; intro g' hg'
    simp only [Option.getD_none, Finset.disjoint_singleton_right]
    exact (resolve_none hm).1 h g' hg'
  | some g => exact Or.inl ((resolve_some hm).1 h).1

theorem setItem_spec {m : AMap κ ν} (hm : Good m) (k : κ) (v : ν) :
    Good (m.setItem k v) ∧
    (∀ a, (m.setItem k v).getItem a = if a ∈ target m k then .ok v else m.getItem a) ∧
    (∀ a, (m.setItem k v).resolve a = if a ∈ target m k then some (target m k) else m.resolve a) := by
  have hI : Inv (m.dict.set (target m k) v) := inv_set hm.inv ⟨k, mem_target hm k⟩ v (target_disj hm k)
  have hG : Good (m.setItem k v) := good_ofDict hI
  have hd : (m.setItem k v).dict = m.dict.set (target m k) v := rfl
  refine ⟨hG, fun a => ?_, fun a => ?_⟩
  · split
    · rename_i ha
      rw [getItem_ok hG, hd]
      exact ⟨target m k, (mem_set hm.inv.wf).2 (Or.inl ⟨rfl, rfl⟩), ha⟩
    · rename_i ha
      refine getItem_congr hG hm (fun w => ?_)
      rw [hd]
      constructor
      · rintro ⟨g, hg, hag⟩
        rcases (mem_set hm.inv.wf).1 hg with ⟨rfl, _⟩ | ⟨_, h⟩
        · exact absurd hag ha
        · exact ⟨g, h, hag⟩
      · rintro ⟨g, hg, hag⟩
        exact ⟨g, (mem_set hm.inv.wf).2 (Or.inr ⟨fun h => ha (h ▸ hag), hg⟩), hag⟩
  · split
    · rename_i ha
      rw [resolve_some hG, hd, Dict.mem_keys_set]
      exact ⟨Or.inl rfl, ha⟩
    · rename_i ha
      refine resolve_congr hG hm (fun g hg => ?_)
      rw [hd, Dict.mem_keys_set]
      constructor
      · rintro (rfl | h)
        · exact absurd hg ha
        · exact h
      · exact Or.inr

/-! ### `delItem` -/

theorem delItem_spec {m : AMap κ ν} (hm : Good m) (k : κ) :
    (m.resolve k = none → m.delItem k = .error .keyError) ∧
    ∀ g, m.resolve k = some g → ∃ m', m.delItem k = .ok m' ∧ Good m' ∧
      (∀ a, m'.getItem a = if a ∈ g then .error .keyError else m.getItem a) ∧
      (∀ a, m'.resolve a = if a ∈ g then none else m.resolve a) := by
  refine ⟨fun h => by simp [AMap.delItem, h], fun g h => ?_⟩
  obtain ⟨hg, hk⟩ := (resolve_some hm).1 h
  have hG : Good (AMap.ofDict (m.dict.del g)) := good_ofDict (inv_del hm.inv g)
  have hres : ∀ a, (AMap.ofDict (m.dict.del g)).resolve a = if a ∈ g then none else m.resolve a := by
    intro a
    split
    · rename_i ha
      rw [resolve_none hG]
      intro g' hg' ha'
      obtain ⟨h1, h2⟩ := Dict.mem_keys_del.1 hg'
      exact h2 (group_unique hm.inv.disj h1 hg ha' ha)
    · rename_i ha
      refine resolve_congr hG hm (fun g' hg' => ?_)
      change g' ∈ (m.dict.del g).keys ↔ _
      rw [Dict.mem_keys_del]
      exact ⟨And.left, fun h => ⟨h, fun he => ha (he ▸ hg')⟩⟩
  refine ⟨_, by simp only [AMap.delItem, h], hG, fun a => ?_, hres⟩
  split
  · rename_i ha
    rw [getItem_error hG, hres, if_pos ha]
  · rename_i ha
    refine getItem_congr hG hm (fun w => ?_)
    constructor
    · rintro ⟨g', hg', hag⟩
      exact ⟨g', (mem_del.1 hg').2, hag⟩
    · rintro ⟨g', hg', hag⟩
      exact ⟨g', mem_del.2 ⟨fun he => ha (he ▸ hag), hg'⟩, hag⟩

/-! ### `alias` -/

theorem aliasOne_spec {m : AMap κ ν} (hm : Good m) (k a : κ) :
    ((m.resolve a ≠ none ∨ m.resolve k = none) → ∃ e, m.aliasOne k a = .error e) ∧
    ∀ g, m.resolve k = some g → m.resolve a = none → ∃ m', m.aliasOne k a = .ok m' ∧ Good m' ∧
      (∀ b, m'.getItem b = if b = a then m.getItem k else m.getItem b) ∧
      (∀ b, m'.resolve b = if b ∈ insert a g then some (insert a g) else m.resolve b) := by
  constructor
  · intro h
    unfold AMap.aliasOne
    split
    · cases m.resolve k <;> exact ⟨_, rfl⟩
    · rename_i hf
      rcases h with h | h
      · exact absurd ((inFlatKeys_iff hm).2 h) hf
      · rw [h]; exact ⟨_, rfl⟩
  · intro g hk ha
    obtain ⟨hg, hkg⟩ := (resolve_some hm).1 hk
    have hna := (resolve_none hm).1 ha
    obtain ⟨v, hv⟩ := Dict.get?_isSome.2 hg
    have hget : m.getItem k = .ok v := by simp [AMap.getItem, hk, hv]
    have hnk : insert a g ∉ m.dict.keys := fun h => hna _ h (Finset.mem_insert_self a g)
    have hag : a ∉ g := hna g hg
    have hne : insert a g ≠ g := fun h => hag (h ▸ Finset.mem_insert_self a g)
    -- the dictionary after the step
    have hd : (m.dict.set (insert a g) v).del g = m.dict.del g ++ [(insert a g, v)] := by
      rw [Dict.set_of_not_mem hnk]
      unfold Dict.del
      rw [List.filter_append]
      congr 1
      simp [hne]
    have hdisj : ∀ g' ∈ (m.dict.del g).keys, Disjoint g' (insert a g) := by
      intro g' hg'
      obtain ⟨h1, h2⟩ := Dict.mem_keys_del.1 hg'
      rw [Finset.disjoint_insert_right]
      exact ⟨hna g' h1, disj_forall hm.inv.disj h1 hg h2⟩
    have hI : Inv ((m.dict.set (insert a g) v).del g) := by
      have hnd : insert a g ∉ (m.dict.del g).keys := fun h => hnk (Dict.mem_keys_del.1 h).1
      have := inv_set (inv_del hm.inv g) ⟨a, Finset.mem_insert_self a g⟩ v (Or.inr hdisj)
      rw [Dict.set_of_not_mem hnd] at this
      rw [hd]; exact this
    have hG := good_ofDict hI
    have hmem : ∀ g' w, (g', w) ∈ (m.dict.set (insert a g) v).del g ↔
        (g' = insert a g ∧ w = v) ∨ (g' ≠ g ∧ (g', w) ∈ m.dict) := by
      intro g' w
      rw [hd, List.mem_append, mem_del, List.mem_singleton, Prod.mk.injEq]
      tauto
    have hkeys : ∀ g', g' ∈ ((m.dict.set (insert a g) v).del g).keys ↔
        g' = insert a g ∨ (g' ≠ g ∧ g' ∈ m.dict.keys) := by
      intro g'
      rw [Dict.mem_keys_del, Dict.mem_keys_set]
      constructor
      · rintro ⟨rfl | h, h2⟩
        · exact Or.inl rfl
        · exact Or.inr ⟨h2, h⟩
      · rintro (rfl | ⟨h1, h2⟩)
        · exact ⟨Or.inl rfl, hne⟩
        · exact ⟨Or.inr h2, h1⟩
    have hnf : ¬ m.inFlatKeys a = true := fun h => (inFlatKeys_iff hm).1 h ha
    refine ⟨AMap.ofDict ((m.dict.set (insert a g) v).del g), ?_, hG, fun b => ?_, fun b => ?_⟩
    · unfold AMap.aliasOne
      rw [if_neg hnf]
      simp only [hk, hget]
      unfold AMap.delItem
      have : AMap.resolve (⟨m.dict.set (insert a g) v, m.flat⟩ : AMap κ ν) k = some g := hk
      rw [this]
    · by_cases hb : b ∈ insert a g
      · have h1 : (AMap.ofDict ((m.dict.set (insert a g) v).del g)).getItem b = .ok v :=
          (getItem_ok hG).2 ⟨insert a g, (hmem _ _).2 (Or.inl ⟨rfl, rfl⟩), hb⟩
        rw [h1]
        rcases Finset.mem_insert.1 hb with rfl | hbg
        · rw [if_pos rfl, hget]
        · have hba : b ≠ a := by rintro rfl; exact hag hbg
          rw [if_neg hba, ((getItem_ok hm).2 ⟨g, Dict.mem_of_get? hv, hbg⟩)]
      · have hba : b ≠ a := by rintro rfl; exact hb (Finset.mem_insert_self _ _)
        have hbg : b ∉ g := fun h => hb (Finset.mem_insert_of_mem h)
        rw [if_neg hba]
        refine getItem_congr hG hm (fun w => ?_)
        change (∃ g', (g', w) ∈ (m.dict.set (insert a g) v).del g ∧ b ∈ g') ↔ _
        constructor
        · rintro ⟨g', hg', hbg'⟩
          rcases (hmem _ _).1 hg' with ⟨rfl, _⟩ | ⟨_, h⟩
          · exact absurd hbg' hb
          · exact ⟨g', h, hbg'⟩
        · rintro ⟨g', hg', hbg'⟩
          exact ⟨g', (hmem _ _).2 (Or.inr ⟨fun h => hbg (h ▸ hbg'), hg'⟩), hbg'⟩
    · split
      · rename_i hb
        exact (resolve_some hG).2 ⟨(hkeys _).2 (Or.inl rfl), hb⟩
      · rename_i hb
        have hbg : b ∉ g := fun h => hb (Finset.mem_insert_of_mem h)
        refine resolve_congr hG hm (fun g' hg' => ?_)
        change g' ∈ ((m.dict.set (insert a g) v).del g).keys ↔ _
        rw [hkeys]
        constructor
        · rintro (rfl | h)
          · exact absurd hg' hb
          · exact h.2
        · intro h; exact Or.inr ⟨fun he => hbg (he ▸ hg'), h⟩

theorem aliasLoop_good {m : AMap κ ν} (hm : Good m) (k : κ) (as : List κ) : Good (m.aliasLoop k as).1 := by
  induction as generalizing m with
  | nil => exact hm
  | cons a as ih =>
    rw [AMap.aliasLoop]
    split
    · exact ih hm
    · cases h : m.aliasOne k a with
      | error e => exact hm
      | ok m' =>
        by_cases h1 : m.resolve a ≠ none ∨ m.resolve k = none
        · obtain ⟨e, he⟩ := (aliasOne_spec hm k a).1 h1
          rw [he] at h; cases h
        · simp only [not_or, not_not] at h1
          obtain ⟨g, hg⟩ := Option.ne_none_iff_exists'.1 h1.2
          obtain ⟨m'', h2, h3, _⟩ := (aliasOne_spec hm k a).2 g hg h1.1
          rw [h2] at h; cases h
          exact ih h3

/-- A list of fresh aliases is added as a whole. -/
theorem aliasLoop_ok {m : AMap κ ν} (hm : Good m) (k : κ) (as : List κ) (g : Finset κ) (hk : m.resolve k = some g)
    (hn : (as.filter (fun a => decide (a ≠ k))).Nodup)
    (hf : ∀ a ∈ as, a ≠ k → m.resolve a = none) :
    ∃ m', m.aliasLoop k as = (m', none) ∧ Good m' ∧
      (∀ b, m'.getItem b = if b ∈ as then m.getItem k else m.getItem b) ∧
      (∀ b, m'.resolve b = if b ∈ g ∪ as.toFinset then some (g ∪ as.toFinset) else m.resolve b) := by
  induction as generalizing m g with
  | nil =>
    refine ⟨m, rfl, hm, by simp, fun b => ?_⟩
    simp only [List.toFinset_nil, Finset.union_empty]
    split
    · rename_i hb
      exact (resolve_some hm).2 ⟨((resolve_some hm).1 hk).1, hb⟩
    · rfl
  | cons a as ih =>
    have hkg := ((resolve_some hm).1 hk).2
    rw [AMap.aliasLoop]
    by_cases hak : a = k
    · subst hak
      rw [if_pos rfl]
      obtain ⟨m', h1, h2, h3, h4⟩ := ih hm g hk (by simpa using hn) (fun b hb => hf b (by simp [hb]))
      refine ⟨m', h1, h2, fun b => ?_, fun b => ?_⟩
      · rw [h3]
        by_cases hb : b = a
        · subst hb; simp
        · simp [hb]
      · rw [h4, List.toFinset_cons, Finset.union_insert]
        have : insert a (g ∪ as.toFinset) = g ∪ as.toFinset := by
          rw [Finset.insert_eq_self]; exact Finset.mem_union_left _ hkg
        rw [this]
    · rw [if_neg hak]
      have ha := hf a (by simp) hak
      obtain ⟨m1, h1, h2, h3, h4⟩ := (aliasOne_spec hm k a).2 g hk ha
      rw [h1]
      simp only
      rw [List.filter_cons, if_pos (by simpa using hak), List.nodup_cons] at hn
      have hk1 : m1.resolve k = some (insert a g) := by
        rw [h4, if_pos (Finset.mem_insert_of_mem hkg)]
      have hfr : ∀ b ∈ as, b ≠ k → m1.resolve b = none := by
        intro b hb hbk
        rw [h4, if_neg]
        · exact hf b (by simp [hb]) hbk
        · rw [Finset.mem_insert]
          rintro (rfl | hbg)
          · exact hn.1 (List.mem_filter.2 ⟨hb, by simpa using hbk⟩)
          · have := (resolve_none hm).1 (hf b (by simp [hb]) hbk) g ((resolve_some hm).1 hk).1
            exact this hbg
      obtain ⟨m', i1, i2, i3, i4⟩ := ih h2 (insert a g) hk1 hn.2 hfr
      refine ⟨m', i1, i2, fun b => ?_, fun b => ?_⟩
      · rw [i3, h3, h3, if_neg (Ne.symm hak)]
        by_cases hb : b ∈ as
        · simp [hb]
        · by_cases hba : b = a
          · simp [hba]
          · simp [hb, hba]
      · rw [i4, h4]
        have e : insert a g ∪ as.toFinset = g ∪ (a :: as).toFinset := by
          rw [List.toFinset_cons, Finset.union_insert, Finset.insert_union]
        rw [e]
        by_cases hb : b ∈ g ∪ (a :: as).toFinset
        · rw [if_pos hb, if_pos hb]
        · rw [if_neg hb, if_neg hb, if_neg]
          intro h
          apply hb
          rw [← e]; exact Finset.mem_union_left _ h

/-! ### Builders -/

theorem buildFromAliases_eq (mapping : List (Key κ × ν))
    (hd : (mapping.map (fun p => p.1.group)).Pairwise Disjoint)
    (hn : ∀ p ∈ mapping, p.1.group.Nonempty) :
    buildFromAliases mapping = mapping.map (fun p => (p.1.group, p.2)) := by
  have key : ∀ (l : List (Key κ × ν)) (out : Dict (Finset κ) ν),
      (out.keys ++ l.map (fun p => p.1.group)).Pairwise Disjoint → (∀ p ∈ l, p.1.group.Nonempty) →
      l.foldl buildStep out = out ++ l.map (fun p => (p.1.group, p.2)) := by
    intro l
    induction l with
    | nil => intro out _ _; simp
    | cons p l ih =>
      intro out h hn
      have hnp := hn p (by simp)
      have hdis : ∀ g ∈ out.keys, Disjoint g p.1.group := by
        rw [List.pairwise_append] at h
        intro g hg
        exact h.2.2 g hg _ (by simp)
      have hnot : p.1.group ∉ out.keys := by
        intro hin
        obtain ⟨a, ha⟩ := hnp
        exact Finset.disjoint_left.1 (hdis _ hin) ha ha
      have hstep : buildStep out p = out ++ [(p.1.group, p.2)] := by
        rw [← Dict.set_of_not_mem hnot]
        unfold buildStep
        obtain ⟨k, v⟩ := p
        cases k with
        | name k =>
          have : out.find? (fun q => decide (k ∈ q.1)) = none := by
            rw [List.find?_eq_none]
            intro q hq
            have := hdis q.1 (List.mem_map.2 ⟨q, hq, rfl⟩)
            simp only [Key.group, Finset.disjoint_singleton_right] at this
            simpa using this
          simp only [this, Key.group]
        | tuple ks => rfl
      rw [List.foldl_cons, hstep, ih]
      · simp
      · simpa [Dict.keys] using h
      · intro q hq; exact hn q (by simp [hq])
  have := key mapping [] (by simpa [Dict.keys] using hd) hn
  simpa [buildFromAliases] using this

theorem inv_of_list (l : List (Finset κ × ν)) (hd : (l.map Prod.fst).Pairwise Disjoint)
    (hn : ∀ p ∈ l, p.1.Nonempty) : Inv (l : Dict (Finset κ) ν) := by
  refine ⟨hd, fun g hg => ?_⟩
  obtain ⟨p, hp, rfl⟩ := List.mem_map.1 hg
  exact hn p hp

theorem ofItems_eq (l : List (Finset κ × ν)) (hd : (l.map Prod.fst).Pairwise Disjoint)
    (hn : ∀ p ∈ l, p.1.Nonempty) : Dict.ofItems l = l :=
  Dict.ofItems_nodup l (inv_of_list l hd hn).wf

theorem copy_good {m : AMap κ ν} (hm : Good m) : Good m.copy ∧ (∀ a, m.copy.getItem a = m.getItem a) ∧
    ∀ a, m.copy.resolve a = m.resolve a := by
  have e : m.copy = m := by
    obtain ⟨d, f⟩ := m
    have := hm.flat
    simp only at this
    unfold AMap.copy AMap.ofDict
    rw [Dict.ofItems_nodup d hm.inv.wf, this]
  rw [e]; exact ⟨hm, fun _ => rfl, fun _ => rfl⟩

/-- The number of aliases is the number of names that are keys. -/
theorem len_spec {m : AMap κ ν} (hm : Good m) :
    ∃ s : Finset κ, (∀ a, a ∈ s ↔ m.contains a = true) ∧ m.len = s.card := by
  have key : ∀ l : List (Finset κ × ν), (l.map Prod.fst).Pairwise Disjoint →
      ∃ s : Finset κ, (∀ a, a ∈ s ↔ ∃ p ∈ l, a ∈ p.1) ∧ (l.map (fun p => p.1.card)).sum = s.card := by
    intro l
    induction l with
    | nil => intro _; exact ⟨∅, by simp, by simp⟩
    | cons p l ih =>
      intro h
      rw [List.map_cons, List.pairwise_cons] at h
      obtain ⟨s, h1, h2⟩ := ih h.2
      refine ⟨p.1 ∪ s, fun a => ?_, ?_⟩
      · simp [h1]
      · rw [List.map_cons, List.sum_cons, h2, Finset.card_union_of_disjoint]
        rw [Finset.disjoint_left]
        intro a ha hs
        obtain ⟨q, hq, haq⟩ := (h1 a).1 hs
        exact Finset.disjoint_left.1 (h.1 q.1 (List.mem_map.2 ⟨q, hq, rfl⟩)) ha haq
  obtain ⟨s, h1, h2⟩ := key m.dict hm.inv.disj
  refine ⟨s, fun a => ?_, h2⟩
  rw [h1]
  unfold AMap.contains
  rw [Option.isSome_iff_ne_none, Ne, resolve_none hm]
  simp only [not_forall, not_not]
  constructor
  · rintro ⟨p, hp, ha⟩; exact ⟨p.1, List.mem_map.2 ⟨p, hp, rfl⟩, ha⟩
  · rintro ⟨g, hg, ha⟩
    obtain ⟨p, hp, rfl⟩ := List.mem_map.1 hg
    exact ⟨p, hp, ha⟩

end Eprem.Aliased
