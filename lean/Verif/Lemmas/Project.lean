import Verif.Lemmas.PyDict
import Verif.Model.Project

namespace Eprem.Project

open Eprem

variable {κ : Type} [DecidableEq κ] {ε : Type}

/-! ## Look-ups after each primitive -/

theorem get?_filter {κ ν : Type} [DecidableEq κ] (d : Dict κ ν) (P : κ → Bool) (q : κ) :
    Dict.get? (d.filter (fun e => P e.1)) q = if P q then Dict.get? d q else none := by
  induction d with
  | nil => simp [Dict.get?]
  | cons e d ih =>
    obtain ⟨a, b⟩ := e
    by_cases ha : P a
    · rw [List.filter_cons_of_pos (by exact ha)]
      simp only [Dict.get?]
      by_cases h : a = q
      · subst h; simp [ha]
      · simp [h, ih]
    · rw [List.filter_cons_of_neg (by exact ha), ih]
      simp only [Dict.get?]
      by_cases h : a = q
      · subst h; simp [ha]
      · simp [h]

theorem get?_map {κ ν : Type} [DecidableEq κ] (d : Dict κ ν) (f : κ → κ) (q q' : κ)
    (h : ∀ p ∈ d.keys, f p = q ↔ p = q') :
    Dict.get? (d.map (fun e => (f e.1, e.2))) q = Dict.get? d q' := by
  induction d with
  | nil => simp [Dict.get?]
  | cons e d ih =>
    obtain ⟨a, b⟩ := e
    have ha := h a (by simp [Dict.keys])
    have := ih (fun p hp => h p (by simp only [Dict.keys, List.map_cons, List.mem_cons]; exact Or.inr hp))
    simp only [List.map_cons, Dict.get?, this]
    by_cases hc : a = q'
    · rw [if_pos hc, if_pos (ha.2 hc)]
    · rw [if_neg hc, if_neg (fun h' => hc (ha.1 h'))]

theorem get?_map_none {κ ν : Type} [DecidableEq κ] (d : Dict κ ν) (f : κ → κ) (q : κ)
    (h : ∀ p ∈ d.keys, f p ≠ q) :
    Dict.get? (d.map (fun e => (f e.1, e.2))) q = none := by
  induction d with
  | nil => simp [Dict.get?]
  | cons e d ih =>
    obtain ⟨a, b⟩ := e
    have ha := h a (by simp [Dict.keys])
    have := ih (fun p hp => h p (by simp only [Dict.keys, List.map_cons, List.mem_cons]; exact Or.inr hp))
    simp only [List.map_cons, Dict.get?, this, if_neg ha]

@[simp] theorem under_iff {d p : Path κ} : under d p = true ↔ d <+: p := by
  unfold under; exact List.isPrefixOf_iff_prefix

theorem under_false {d p : Path κ} : under d p = false ↔ ¬ d <+: p := by
  rw [← under_iff, Bool.not_eq_true]

theorem get?_mkdirP (fs : FS κ) (p q : Path κ) :
    (mkdirP fs p).get? q = if q <+: p ∧ fs.get? q = none then some .dir else fs.get? q := by
  have key : ∀ (l : List (Path κ)) (fs : FS κ), Dict.get?
      (l.foldl (fun fs q => if fs.get? q = none then Dict.set fs q Node.dir else fs) fs) q =
      if q ∈ l ∧ fs.get? q = none then some .dir else fs.get? q := by
    intro l
    induction l with
    | nil => intro fs; simp
    | cons x l ih =>
      intro fs
      rw [List.foldl_cons, ih]
      by_cases hx : fs.get? x = none
      · rw [if_pos hx, Dict.get?_set]
        by_cases hq : x = q
        · subst hq; simp [hx]
        · simp [hq, Ne.symm hq]
      · rw [if_neg hx]
        by_cases hq : q = x
        · subst hq; simp [hx]
        · simp [hq]
  unfold mkdirP
  rw [key]
  simp [List.mem_inits]

theorem get?_rmtree (fs : FS κ) (p q : Path κ) :
    (rmtree fs p).get? q = if p <+: q then none else fs.get? q := by
  unfold rmtree
  rw [get?_filter fs (fun k => !under p k) q]
  by_cases h : p <+: q
  · simp [h, under_iff.2 h]
  · simp [h, under_false.2 h]

theorem mem_keys_iff {κ ν : Type} [DecidableEq κ] {d : Dict κ ν} {k : κ} : k ∈ d.keys ↔ d.get? k ≠ none := by
  rw [Ne, Dict.get?_eq_none, not_not]

theorem get?_renameDir (fs : FS κ) (a b q : Path κ) (hba : ¬ b <+: a) (hab : ¬ a <+: b) :
    (renameDir fs a b).get? q =
      if b <+: q then fs.get? (a ++ q.drop b.length) else if a <+: q then none else fs.get? q := by
  unfold renameDir
  have hfun : (fun e : Path κ × Node => if under a e.1 then (b ++ e.1.drop a.length, e.2) else e) =
      fun e => ((fun p => if under a p then b ++ p.drop a.length else p) e.1, e.2) := by
    funext e; dsimp only; split <;> rfl
  rw [hfun]
  have hk : ∀ p ∈ (rmtree fs b).keys, ¬ b <+: p := by
    intro p hp hbp
    rw [mem_keys_iff, get?_rmtree, if_pos hbp] at hp
    exact hp rfl
  by_cases hb : b <+: q
  · rw [if_pos hb]
    obtain ⟨r, rfl⟩ := hb
    rw [List.drop_left]
    rw [get?_map (rmtree fs b) (fun p => if under a p then b ++ p.drop a.length else p) (b ++ r) (a ++ r)]
    · rw [get?_rmtree, if_neg]
      intro h
      rcases List.prefix_or_prefix_of_prefix h (List.prefix_append a r) with h | h
      · exact hba h
      · exact hab h
    · intro p hp
      split
      · rename_i h
        rw [under_iff] at h
        obtain ⟨t, rfl⟩ := h
        rw [List.drop_left, List.append_cancel_left_eq, List.append_cancel_left_eq]
      · rename_i h
        rw [under_iff] at h
        constructor
        · rintro rfl; exact absurd (List.prefix_append b r) (hk _ hp)
        · rintro rfl; exact absurd (List.prefix_append a r) h
  · rw [if_neg hb]
    by_cases ha : a <+: q
    · rw [if_pos ha]
      refine get?_map_none (rmtree fs b) (fun p => if under a p then b ++ p.drop a.length else p) q
        (fun p hp => ?_)
      split
      · rintro rfl; exact hb (List.prefix_append _ _)
      · rename_i h
        rw [under_iff] at h
        rintro rfl; exact h ha
    · rw [if_neg ha]
      rw [get?_map (rmtree fs b) (fun p => if under a p then b ++ p.drop a.length else p) q q]
      · rw [get?_rmtree, if_neg hb]
      · intro p hp
        split
        · rename_i h
          rw [under_iff] at h
          constructor
          · rintro rfl; exact absurd (List.prefix_append _ _) hb
          · rintro rfl; exact absurd h ha
        · rfl

theorem get?_rewrite (fs : FS κ) (p q : Path κ) (files : List (Path κ × Node)) (h : ¬ (p <+: q ∧ q ≠ p)) :
    (rewrite fs p files).get? q = fs.get? q := by
  have key : ∀ (l : List (Path κ × Node)) (fs : FS κ), (∀ f ∈ l, f.1 ≠ []) →
      Dict.get? (l.foldl (fun fs f => Dict.set fs (p ++ f.1) f.2) fs) q = fs.get? q := by
    intro l
    induction l with
    | nil => intro fs _; rfl
    | cons f l ih =>
      intro fs hf
      rw [List.foldl_cons, ih _ (fun g hg => hf g (by simp [hg])), Dict.get?_set, if_neg]
      rintro rfl
      refine h ⟨List.prefix_append _ _, fun hh => hf f (by simp) ?_⟩
      simpa using hh
  unfold rewrite
  rw [key]
  · rw [get?_filter fs (fun k => !(under p k && k != p)) q]
    have : (!(under p q && q != p)) = true := by
      by_cases h1 : p <+: q
      · have : q = p := by
          by_contra h2
          exact h ⟨h1, h2⟩
        simp [this]
      · simp [under_false.2 h1]
    rw [if_pos this]
  · intro f hf
    have := (List.mem_filter.1 hf).2
    simpa using this

/-! ## The loop -/

theorem loop_final {α : Type} {f : State κ ε → α → Exec κ ε} {I : State κ ε → Prop} {xs : List α}
    (h : ∀ s, ∀ x ∈ xs, I s → I (f s x).final) {s : State κ ε} (hs : I s) : I (loop f s xs).final := by
  induction xs generalizing s with
  | nil => exact hs
  | cons x xs ih =>
    have hx := h s x (by simp) hs
    have := ih (fun t y hy => h t y (by simp [hy])) hx
    simp only [loop]
    split
    · exact hx
    · exact this

theorem loop_visited {α : Type} {f : State κ ε → α → Exec κ ε} {I J : State κ ε → Prop} {xs : List α}
    (h : ∀ s, ∀ x ∈ xs, I s → I (f s x).final) (h' : ∀ s, ∀ x ∈ xs, I s → ∀ t ∈ (f s x).visited, J t)
    {s : State κ ε} (hs : I s) : ∀ t ∈ (loop f s xs).visited, J t := by
  induction xs generalizing s with
  | nil => simp [loop]
  | cons x xs ih =>
    have hx := h s x (by simp) hs
    have hv := h' s x (by simp) hs
    have := ih (fun t y hy => h t y (by simp [hy])) (fun t y hy => h' t y (by simp [hy])) hx
    intro t ht
    simp only [loop] at ht
    split at ht
    · exact hv t ht
    · simp only [Exec.after, List.mem_append] at ht
      rcases ht with ht | ht
      · exact hv t ht
      · exact this t ht

/-- If no element raises in the states reached, every element is processed. -/
theorem loop_no_exc {α : Type} {f : State κ ε → α → Exec κ ε} {I : State κ ε → Prop} {xs : List α}
    (h : ∀ s, ∀ x ∈ xs, I s → I (f s x).final) (he : ∀ s, ∀ x ∈ xs, I s → (f s x).exc = none)
    {s : State κ ε} (hs : I s) :
    (loop f s xs).exc = none ∧ (loop f s xs).final = xs.foldl (fun t x => (f t x).final) s := by
  induction xs generalizing s with
  | nil => exact ⟨rfl, rfl⟩
  | cons x xs ih =>
    have hx := h s x (by simp) hs
    have e := he s x (by simp) hs
    have := ih (fun t y hy => h t y (by simp [hy])) (fun t y hy => he t y (by simp [hy])) hx
    simp only [loop, e, Exec.after, List.foldl_cons]
    exact this

/-! ## Run directories -/

theorem listing_length {P : Paths κ} {d d' : Path κ} (h : d ∈ P.listing) (h' : d' ∈ P.listing) :
    d.length = d'.length := by
  unfold Paths.listing at h h'
  split at h
  · rename_i hb
    rw [if_pos hb] at h'
    simp only [List.mem_singleton] at h h'
    rw [h, h']
  · rename_i hb
    rw [if_neg hb] at h'
    obtain ⟨x, _, rfl⟩ := List.mem_map.1 h
    obtain ⟨y, _, rfl⟩ := List.mem_map.1 h'
    simp

theorem rundirs_sub {P : Paths κ} {bs : List κ} {d : Path κ} (h : d ∈ P.rundirs bs) : d ∈ P.listing := by
  unfold Paths.rundirs at h
  split at h
  · exact h
  · exact (List.mem_filter.1 h).1

theorem prefix_eq {p q : Path κ} (h : p <+: q) (hl : p.length = q.length) : p = q :=
  h.eq_of_length hl

end Eprem.Project
