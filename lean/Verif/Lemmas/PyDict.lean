import Verif.Model.PyDict
import Mathlib.Data.List.Nodup

namespace Eprem.Dict

variable {κ ν : Type} [DecidableEq κ]

@[simp] theorem get?_nil (k : κ) : get? ([] : Dict κ ν) k = none := rfl

theorem get?_cons (a : κ) (b : ν) (d : Dict κ ν) (k : κ) :
    get? ((a, b) :: d) k = if a = k then some b else get? d k := rfl

theorem get?_set (d : Dict κ ν) (k : κ) (v : ν) (k' : κ) :
    (d.set k v).get? k' = if k = k' then some v else d.get? k' := by
  induction d with
  | nil => simp [set, get?]
  | cons p d ih =>
    obtain ⟨a, b⟩ := p
    by_cases h : a = k
    · subst h; by_cases h2 : a = k' <;> simp [set, get?, h2]
    · simp only [set, h, if_false, get?_cons, ih]
      by_cases h2 : a = k'
      · subst h2; simp [Ne.symm h]
      · simp [h2]

theorem mem_of_get? {d : Dict κ ν} {k : κ} {v : ν} (h : d.get? k = some v) : (k, v) ∈ d := by
  induction d with
  | nil => simp at h
  | cons p d ih =>
    obtain ⟨a, b⟩ := p
    rw [get?_cons] at h
    by_cases h2 : a = k
    · simp [h2] at h; simp [h2, h]
    · simp [h2] at h; exact List.mem_cons_of_mem _ (ih h)

theorem get?_eq_none {d : Dict κ ν} {k : κ} : d.get? k = none ↔ k ∉ d.keys := by
  induction d with
  | nil => simp [keys]
  | cons p d ih =>
    obtain ⟨a, b⟩ := p
    rw [get?_cons]
    by_cases h2 : a = k
    · simp [h2, keys]
    · simp only [h2, if_false, ih]
      simp [keys, Ne.symm h2]

theorem get?_isSome {d : Dict κ ν} {k : κ} : (∃ v, d.get? k = some v) ↔ k ∈ d.keys := by
  rw [← not_iff_not, ← get?_eq_none]
  cases h : d.get? k <;> simp

theorem get?_of_mem {d : Dict κ ν} (hw : d.WF) {k : κ} {v : ν} (h : (k, v) ∈ d) :
    d.get? k = some v := by
  induction d with
  | nil => simp at h
  | cons p d ih =>
    obtain ⟨a, b⟩ := p
    have hw' : a ∉ keys d ∧ WF d := by
      unfold WF at hw ⊢; simpa [keys] using hw
    rw [get?_cons]
    rcases List.mem_cons.1 h with h | h
    · cases h; simp
    · have : k ∈ keys d := List.mem_map.2 ⟨(k, v), h, rfl⟩
      have hne : a ≠ k := by rintro rfl; exact hw'.1 this
      simp [hne, ih hw'.2 h]

theorem get?_eq_some {d : Dict κ ν} (hw : d.WF) {k : κ} {v : ν} : d.get? k = some v ↔ (k, v) ∈ d :=
  ⟨mem_of_get?, get?_of_mem hw⟩

theorem keys_set (d : Dict κ ν) (k : κ) (v : ν) :
    (d.set k v).keys = if k ∈ d.keys then d.keys else d.keys ++ [k] := by
  induction d with
  | nil => simp [set, keys]
  | cons p d ih =>
    obtain ⟨a, b⟩ := p
    by_cases h : a = k
    · subst h; simp [set, keys]
    · simp only [set, h, if_false]
      simp only [keys, List.map_cons, List.mem_cons, Ne.symm h, false_or] at *
      rw [ih]; by_cases hm : k ∈ List.map Prod.fst d <;> simp [hm]

theorem WF.set {d : Dict κ ν} (hw : d.WF) (k : κ) (v : ν) : WF (d.set k v) := by
  unfold WF; rw [keys_set]; split
  · exact hw
  · rename_i h
    exact List.Nodup.append hw (by simp) (by simpa using h)

theorem mem_keys_set {d : Dict κ ν} {k k' : κ} {v : ν} :
    k' ∈ (d.set k v).keys ↔ k' = k ∨ k' ∈ d.keys := by
  rw [keys_set]; split
  · rename_i h; constructor
    · exact Or.inr
    · rintro (rfl | h') <;> assumption
  · simp [or_comm]

theorem set_of_not_mem {d : Dict κ ν} {k : κ} {v : ν} (h : k ∉ d.keys) :
    d.set k v = d ++ [(k, v)] := by
  induction d with
  | nil => simp [set]
  | cons p d ih =>
    obtain ⟨a, b⟩ := p
    simp only [keys, List.map_cons, List.mem_cons, not_or] at h
    simp only [set, Ne.symm h.1, if_false, ih h.2, List.cons_append]

theorem get?_del (d : Dict κ ν) (k k' : κ) :
    (d.del k).get? k' = if k = k' then none else d.get? k' := by
  induction d with
  | nil => simp [del]
  | cons p d ih =>
    obtain ⟨a, b⟩ := p
    unfold del at ih ⊢
    rw [List.filter_cons]
    by_cases h : a = k
    · subst h
      simp only [ne_eq, not_true_eq_false, decide_false, Bool.false_eq_true, if_false]
      rw [ih, get?_cons]; split <;> rfl
    · simp only [ne_eq, h, not_false_eq_true, decide_true, if_true, get?_cons, ih]
      by_cases h2 : a = k'
      · subst h2; simp [Ne.symm h]
      · simp [h2]

theorem WF.del {d : Dict κ ν} (hw : d.WF) (k : κ) : WF (d.del k) := by
  unfold WF keys Dict.del
  exact List.Nodup.sublist (List.Sublist.map _ List.filter_sublist) hw

omit [DecidableEq κ] in
theorem WF.nil : WF ([] : Dict κ ν) := by simp [WF, keys]

theorem foldl_set_wf (l : List (κ × ν)) (d : Dict κ ν) (hw : d.WF) :
    WF (l.foldl (fun d p => d.set p.1 p.2) d) := by
  induction l generalizing d with
  | nil => exact hw
  | cons p l ih => exact ih _ (hw.set _ _)

theorem ofItems_wf (l : List (κ × ν)) : WF (ofItems l) := foldl_set_wf l _ WF.nil

theorem foldl_set_nodup (l : List (κ × ν)) (d : Dict κ ν) (h : (d.keys ++ l.map Prod.fst).Nodup) :
    l.foldl (fun d p => d.set p.1 p.2) d = d ++ l := by
  induction l generalizing d with
  | nil => simp
  | cons p l ih =>
    obtain ⟨k, v⟩ := p
    have hk : k ∉ d.keys := by
      intro hk
      exact (List.nodup_append.1 h).2.2 k hk k (by simp) rfl
    rw [List.foldl_cons, set_of_not_mem hk, ih]
    · simp
    · simpa [keys] using h

theorem ofItems_nodup (l : List (κ × ν)) (h : (l.map Prod.fst).Nodup) : ofItems l = l := by
  unfold ofItems; rw [foldl_set_nodup]
  · rfl
  · simpa [keys] using h

theorem del_eq_self {d : Dict κ ν} {k : κ} (h : k ∉ d.keys) : d.del k = d := by
  unfold del; rw [List.filter_eq_self]
  rintro ⟨a, b⟩ hm; simp only [ne_eq, decide_not, Bool.not_eq_eq_eq_not, Bool.not_true, decide_eq_false_iff_not]
  rintro rfl; exact h (List.mem_map.2 ⟨_, hm, rfl⟩)

theorem mem_keys_del {d : Dict κ ν} {k k' : κ} : k' ∈ (d.del k).keys ↔ k' ∈ d.keys ∧ k' ≠ k := by
  unfold del keys; constructor
  · intro h
    obtain ⟨p, hp, rfl⟩ := List.mem_map.1 h
    rw [List.mem_filter] at hp
    exact ⟨List.mem_map.2 ⟨p, hp.1, rfl⟩, by simpa using hp.2⟩
  · rintro ⟨h, hne⟩
    obtain ⟨p, hp, rfl⟩ := List.mem_map.1 h
    exact List.mem_map.2 ⟨p, List.mem_filter.2 ⟨hp, by simpa using hne⟩, rfl⟩

end Eprem.Dict
