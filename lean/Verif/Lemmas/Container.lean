import Verif.Model.Container
import Verif.Spec.Container
import Verif.Lemmas.PyDict
import Verif.Lemmas.Print
import Mathlib.Data.List.Basic
import Mathlib.Algebra.Field.Basic
import Mathlib.Tactic.IntervalCases

namespace Eprem.Container

variable {α κ ν : Type}

/-! ## `Before` -/

theorem before_cons {a b x : α} {l : List α} : Before a b (x :: l) ↔ (a = x ∧ b ∈ l) ∨ Before a b l := by
  unfold Before
  rw [List.sublist_cons_iff]
  constructor
  · rintro (h | ⟨r, hr, h⟩)
    · exact Or.inr h
    · cases hr; exact Or.inl ⟨rfl, by simpa using h⟩
  · rintro (⟨rfl, h⟩ | h)
    · exact Or.inr ⟨[b], rfl, by simpa using h⟩
    · exact Or.inl h

theorem not_before_nil {a b : α} : ¬ Before a b [] := by simp [Before]

theorem before_mem {a b : α} {l : List α} (h : Before a b l) : a ∈ l ∧ b ∈ l :=
  ⟨h.subset (by simp), h.subset (by simp)⟩

theorem before_append {a b : α} {l m : List α} :
    Before a b (l ++ m) ↔ Before a b l ∨ Before a b m ∨ (a ∈ l ∧ b ∈ m) := by
  induction l with
  | nil => simp [not_before_nil]
  | cons x l ih =>
    rw [List.cons_append, before_cons, ih, before_cons]
    simp only [List.mem_append, List.mem_cons]
    tauto

theorem before_asymm {a b : α} {l : List α} (hn : l.Nodup) (h : Before a b l) (h' : Before b a l) : False := by
  induction l with
  | nil => exact not_before_nil h
  | cons x l ih =>
    rw [List.nodup_cons] at hn
    rw [before_cons] at h h'
    rcases h with ⟨rfl, h⟩ | h
    · rcases h' with ⟨rfl, h'⟩ | h'
      · exact hn.1 h
      · exact hn.1 (before_mem h').2
    · rcases h' with ⟨rfl, h'⟩ | h'
      · exact hn.1 (before_mem h).2
      · exact ih hn.2 h h'

theorem before_filter {a b : α} {l : List α} {p : α → Bool} :
    Before a b (l.filter p) ↔ Before a b l ∧ p a = true ∧ p b = true := by
  constructor
  · intro h
    have := before_mem h
    simp only [List.mem_filter] at this
    exact ⟨h.trans List.filter_sublist, this.1.2, this.2.2⟩
  · rintro ⟨h, ha, hb⟩
    have := List.Sublist.filter p h
    simpa [Before, ha, hb] using this

theorem eq_of_before {l l' : List α} (hn : l.Nodup) (hn' : l'.Nodup) (hm : ∀ x, x ∈ l ↔ x ∈ l')
    (hb : ∀ a b, Before a b l → ¬ Before b a l') : l = l' := by
  induction l generalizing l' with
  | nil =>
    cases l' with
    | nil => rfl
    | cons y _ => exact absurd ((hm y).2 (by simp)) (by simp)
  | cons a t ih =>
    rw [List.nodup_cons] at hn
    obtain ⟨p, s, rfl⟩ := List.append_of_mem ((hm a).1 (by simp))
    have hp : p = [] := by
      cases p with
      | nil => rfl
      | cons c p =>
        exfalso
        have hc : c ∈ a :: t := (hm c).2 (by simp)
        have hca : c ≠ a := by
          rintro rfl
          simp at hn'
        have hct : c ∈ t := by simpa [hca] using hc
        exact hb a c (before_cons.2 (Or.inl ⟨rfl, hct⟩)) (before_cons.2 (Or.inl ⟨rfl, by simp⟩))
    subst hp
    simp only [List.nil_append, List.nodup_cons] at *
    congr 1
    refine ih hn.2 hn'.2 (fun x => ?_) (fun b c h h' => hb b c (before_cons.2 (Or.inr h)) (before_cons.2 (Or.inr h')))
    have := hm x
    simp only [List.mem_cons] at this
    constructor
    · intro hx
      rcases this.1 (Or.inr hx) with rfl | h
      · exact absurd hx hn.1
      · exact h
    · intro hx
      rcases this.2 (Or.inr hx) with rfl | h
      · exact absurd hx hn'.1
      · exact h

/-! ## `unique` -/

theorem uniqueLoop_spec [DecidableEq α] (xs pre coll : List α) (h : FirstOccurrences pre coll) :
    FirstOccurrences (pre ++ xs) (uniqueLoop coll xs) := by
  induction xs generalizing pre coll with
  | nil => simpa [uniqueLoop] using h
  | cons x xs ih =>
    rw [uniqueLoop]
    have hidx : ∀ a ∈ coll, (pre ++ [x]).idxOf a = pre.idxOf a :=
      fun a ha => List.idxOf_append_of_mem ((h.mem a).1 ha)
    split
    · rename_i hx
      have := ih (pre ++ [x]) coll ⟨h.nodup, ?_, ?_⟩
      · simpa using this
      · intro y
        rw [h.mem]
        simp only [List.mem_append, List.mem_singleton]
        constructor
        · exact Or.inl
        · rintro (hy | rfl)
          · exact hy
          · exact (h.mem y).1 hx
      · intro a b hb
        have hm := before_mem hb
        rw [hidx a hm.1, hidx b hm.2]
        exact h.order a b hb
    · rename_i hx
      have := ih (pre ++ [x]) (coll ++ [x]) ⟨?_, ?_, ?_⟩
      · simpa using this
      · exact List.Nodup.append h.nodup (by simp) (by simpa using hx)
      · intro y; simp [h.mem]
      · intro a b hb
        rcases before_append.1 hb with hb | hb | ⟨ha, hb⟩
        · have hm := before_mem hb
          rw [hidx a hm.1, hidx b hm.2]
          exact h.order a b hb
        · exact absurd hb (by simp [Before, List.sublist_cons_iff])
        · have hbx : b = x := by simpa using hb
          subst hbx
          have hp : b ∉ pre := fun hp => hx ((h.mem b).2 hp)
          rw [hidx a ha, List.idxOf_append_of_notMem hp]
          have := List.idxOf_lt_length_of_mem ((h.mem a).1 ha)
          omega

theorem unique_spec [DecidableEq α] (l : List α) : FirstOccurrences l (unique l) := by
  have := uniqueLoop_spec l [] [] ⟨by simp, by simp, fun a b h => absurd h not_before_nil⟩
  simpa [unique] using this

theorem uniqueLoop_nodup [DecidableEq α] (xs coll : List α) (h : (coll ++ xs).Nodup) :
    uniqueLoop coll xs = coll ++ xs := by
  induction xs generalizing coll with
  | nil => simp [uniqueLoop]
  | cons x xs ih =>
    have hx : x ∉ coll := fun hx => (List.nodup_append.1 h).2.2 x hx x (by simp) rfl
    rw [uniqueLoop, if_neg hx, ih]
    · simp
    · simpa using h

theorem unique_nodup [DecidableEq α] (l : List α) (h : l.Nodup) : unique l = l := by
  simpa [unique] using uniqueLoop_nodup l [] (by simpa using h)

theorem uniqueLoop_length [DecidableEq α] (xs coll : List α) :
    (uniqueLoop coll xs).length ≤ coll.length + xs.length ∧
    ((uniqueLoop coll xs).length = coll.length + xs.length → coll.Nodup → (coll ++ xs).Nodup) := by
  induction xs generalizing coll with
  | nil => simp [uniqueLoop]
  | cons x xs ih =>
    rw [uniqueLoop]
    split
    · have := (ih coll).1
      simp only [List.length_cons]
      refine ⟨by omega, fun h => by omega⟩
    · rename_i hx
      have h1 := ih (coll ++ [x])
      simp only [List.length_append, List.length_cons, List.length_nil, List.append_assoc, List.cons_append,
        List.nil_append] at h1 ⊢
      refine ⟨by omega, fun h hn => h1.2 (by omega) ?_⟩
      exact List.Nodup.append hn (by simp) (by simpa using hx)

theorem unique_length_iff [DecidableEq α] (l : List α) :
    (unique l).length ≤ l.length ∧ ((unique l).length = l.length ↔ l.Nodup) := by
  have h := uniqueLoop_length l []
  simp only [List.length_nil, Nat.zero_add, List.nil_append] at h
  refine ⟨h.1, fun h' => h.2 h' (by simp), fun h' => ?_⟩
  rw [unique_nodup l h']

/-! ## `merge` -/

theorem idxOf_drop [DecidableEq α] {x p X' : List α} {za : Nat} {v : α} (hx : x.Nodup)
    (h : x.drop za = p ++ v :: X') : x.idxOf v = za + p.length ∧ x.drop (za + p.length + 1) = X' := by
  have hle : za ≤ x.length := by
    by_contra hlt
    rw [List.drop_eq_nil_of_le (by omega)] at h
    simp at h
  have hsplit : x = x.take za ++ (p ++ v :: X') := by rw [← h, List.take_append_drop]
  have hlen : (x.take za).length = za := by simp [hle]
  have hnd : (x.take za ++ (p ++ v :: X')).Nodup := hsplit ▸ hx
  have h1 : v ∉ x.take za := fun hv => (List.nodup_append.1 hnd).2.2 v hv v (by simp) rfl
  have h2 : v ∉ p := by
    intro hv
    have := (List.nodup_append.1 hnd).2.1
    exact (List.nodup_append.1 this).2.2 v hv v (by simp) rfl
  constructor
  · conv_lhs => rw [hsplit]
    rw [List.idxOf_append_of_notMem h1, hlen, List.idxOf_append_of_notMem h2, List.idxOf_cons_self]
    omega
  · rw [show za + p.length + 1 = za + (p.length + 1) by omega, ← List.drop_drop, h]
    simp

theorem mergeLoop_spec [DecidableEq α] {x y : List α} (hx : x.Nodup) (hy : y.Nodup) (vs : List α) :
    ∀ s za zb, (x.drop za).filter (fun i => decide (i ∈ y)) = vs →
      (y.drop zb).filter (fun i => decide (i ∈ x)) = vs →
      ∃ r, mergeLoop x y vs s za zb = s ++ r ∧ IsMerge (x.drop za) (y.drop zb) r := by
  induction vs with
  | nil =>
    intro s za zb h1 h2
    refine ⟨_, rfl, ?_, ?_, ?_, ?_⟩
    · refine List.Nodup.append (hx.sublist (List.drop_sublist _ _)) (hy.sublist (List.drop_sublist _ _)) ?_
      intro a ha hb
      have : a ∈ (x.drop za).filter (fun i => decide (i ∈ y)) :=
        List.mem_filter.2 ⟨ha, by simpa using List.mem_of_mem_drop hb⟩
      rw [h1] at this; simp at this
    · simp
    · exact List.sublist_append_left _ _
    · exact List.sublist_append_right _ _
  | cons v vs ih =>
    intro s za zb h1 h2
    obtain ⟨p, X', hX, hp, hv, hvs⟩ := List.filter_eq_cons_iff.1 h1
    obtain ⟨q, Y', hY, hq, hv', hvs'⟩ := List.filter_eq_cons_iff.1 h2
    obtain ⟨ia, dX⟩ := idxOf_drop hx hX
    obtain ⟨ib, dY⟩ := idxOf_drop hy hY
    obtain ⟨r, hr, hm⟩ := ih
      (s ++ ((x.drop za).take (x.idxOf v - za) ++ (y.drop zb).take (y.idxOf v - zb)) ++ [v])
      (x.idxOf v + 1) (y.idxOf v + 1) (by rw [ia, dX]; exact hvs) (by rw [ib, dY]; exact hvs')
    rw [ia, dX, ib, dY] at hm
    refine ⟨p ++ q ++ v :: r, ?_, ?_⟩
    · rw [mergeLoop, hr, ia, ib, hX, hY]
      simp
    · have hpy : ∀ a ∈ p, a ∉ y := fun a ha => by simpa using hp a ha
      have hqx : ∀ a ∈ q, a ∉ x := fun a ha => by simpa using hq a ha
      have hXs : ∀ a ∈ p ++ v :: X', a ∈ x := fun a ha => List.mem_of_mem_drop (i := za) (hX ▸ ha)
      have hYs : ∀ a ∈ q ++ v :: Y', a ∈ y := fun a ha => List.mem_of_mem_drop (i := zb) (hY ▸ ha)
      have nX : (p ++ v :: X').Nodup := hX ▸ hx.sublist (List.drop_sublist _ _)
      have nY : (q ++ v :: Y').Nodup := hY ▸ hy.sublist (List.drop_sublist _ _)
      rw [List.nodup_append, List.nodup_cons] at nX nY
      rw [hX, hY]
      refine ⟨?_, ?_, ?_, ?_⟩
      · rw [List.append_assoc, List.nodup_append, List.nodup_append, List.nodup_cons]
        refine ⟨nX.1, ⟨nY.1, ⟨?_, hm.nodup⟩, ?_⟩, ?_⟩
        · rw [hm.mem]
          rintro (h | h)
          · exact nX.2.1.1 h
          · exact nY.2.1.1 h
        · rintro a ha b hb rfl
          rcases List.mem_cons.1 hb with rfl | hb
          · exact nY.2.2 a ha a (by simp) rfl
          · rcases (hm.mem a).1 hb with h | h
            · exact hqx a ha (hXs a (by simp [h]))
            · exact nY.2.2 a ha a (by simp [h]) rfl
        · rintro a ha b hb rfl
          rcases List.mem_append.1 hb with hb | hb
          · exact hpy a ha (hYs a (by simp [hb]))
          rcases List.mem_cons.1 hb with rfl | hb
          · exact nX.2.2 a ha a (by simp) rfl
          · rcases (hm.mem a).1 hb with h | h
            · exact nX.2.2 a ha a (by simp [h]) rfl
            · exact hpy a ha (hYs a (by simp [h]))
      · intro a
        simp only [List.mem_append, List.mem_cons, hm.mem]
        tauto
      · refine List.Sublist.append (List.sublist_append_left _ _) (hm.left.cons_cons _)
      · refine List.Sublist.append (List.sublist_append_right _ _) (hm.right.cons_cons _)

theorem orderConflict_iff [DecidableEq α] {x y : List α} (hx : x.Nodup) (hy : y.Nodup) :
    OrderConflict x y ↔ x.filter (fun i => decide (i ∈ y)) ≠ y.filter (fun i => decide (i ∈ x)) := by
  constructor
  · rintro ⟨a, b, h1, h2⟩ he
    have m1 := before_mem h1
    have m2 := before_mem h2
    have h1' : Before a b (x.filter (fun i => decide (i ∈ y))) :=
      before_filter.2 ⟨h1, by simpa using m2.2, by simpa using m2.1⟩
    have h2' : Before b a (y.filter (fun i => decide (i ∈ x))) :=
      before_filter.2 ⟨h2, by simpa using m1.2, by simpa using m1.1⟩
    rw [he] at h1'
    exact before_asymm (hy.filter _) h1' h2'
  · intro hne
    by_contra hc
    apply hne
    refine eq_of_before (hx.filter _) (hy.filter _) (fun z => ?_) (fun a b h h' => ?_)
    · simp only [List.mem_filter, decide_eq_true_eq]; tauto
    · exact hc ⟨a, b, (before_filter.1 h).1, (before_filter.1 h').1⟩

/-! ## `Graph` -/

section Graph
variable {𝕜 : Type} [DecidableEq κ]

theorem get?_addEdge (g : Graph κ 𝕜) (e e' : κ × κ) (w : 𝕜) :
    (addEdge g e w).get? e' = match g.get? e' with
      | some x => some x
      | none => if e = e' then some w else none := by
  unfold addEdge
  by_cases h : e = e'
  · subst h
    cases hg : g.get? e with
    | none => simp [Dict.get?_set]
    | some x => simp [hg]
  · cases hg : g.get? e with
    | none => simp only [Dict.get?_set, if_neg h]; cases g.get? e' <;> rfl
    | some x => simp only [if_neg h]; cases g.get? e' <;> rfl

/-- Both directions are stored, with reciprocal weights. -/
def Symm [Field 𝕜] (g : Graph κ 𝕜) : Prop := ∀ a b, a ≠ b →
  (g.get? (a, b) = none ↔ g.get? (b, a) = none) ∧
  ∀ u v, g.get? (a, b) = some u → g.get? (b, a) = some v → u ≠ 0 ∧ u * v = 1

theorem addConnection_keeps [DecidableEq 𝕜] [Field 𝕜] (g : Graph κ 𝕜) (s e : κ) (w : 𝕜) (x : κ × κ) (u : 𝕜)
    (h : g.get? x = some u) : (addConnection g s e w).get? x = some u := by
  unfold addConnection
  simp only [get?_addEdge, h]

theorem build_keeps [DecidableEq 𝕜] [Field 𝕜] (base : List ((κ × κ) × 𝕜)) (g : Graph κ 𝕜) (x : κ × κ) (u : 𝕜)
    (h : g.get? x = some u) :
    (base.foldl (fun g c => addConnection g c.1.1 c.1.2 c.2) g).get? x = some u := by
  induction base generalizing g with
  | nil => exact h
  | cons c base ih => exact ih _ (addConnection_keeps g _ _ _ x u h)

theorem addConnection_symm [DecidableEq 𝕜] [Field 𝕜] (g : Graph κ 𝕜) (s e : κ) (w : 𝕜) (hw : w ≠ 0)
    (h : Symm g) : Symm (addConnection g s e w) := by
  intro a b hab
  have hs := h a b hab
  simp only [addConnection, get?_addEdge, if_neg hw, Prod.mk.injEq]
  cases h1 : g.get? (a, b) with
  | some u =>
    cases h2 : g.get? (b, a) with
    | some v => simpa [h1, h2] using hs
    | none => simp [h1, h2] at hs
  | none =>
    have h2 : g.get? (b, a) = none := hs.1.1 h1
    simp only [h2]
    by_cases c1 : s = a ∧ e = b
    · obtain ⟨rfl, rfl⟩ := c1
      simp [hab, Ne.symm hab, hw]
    · by_cases c2 : e = a ∧ s = b
      · obtain ⟨rfl, rfl⟩ := c2
        simp [hab, Ne.symm hab, hw]
      · have c3 : ¬ (s = b ∧ e = a) := fun h => c2 h.symm
        have c4 : ¬ (e = b ∧ s = a) := fun h => c1 h.symm
        simp [c1, c2, c3, c4]

theorem build_symm [DecidableEq 𝕜] [Field 𝕜] (base : List ((κ × κ) × 𝕜)) (hb : ∀ c ∈ base, c.2 ≠ 0)
    (g : Graph κ 𝕜) (h : Symm g) : Symm (base.foldl (fun g c => addConnection g c.1.1 c.1.2 c.2) g) := by
  induction base generalizing g with
  | nil => exact h
  | cons c base ih =>
    exact ih (fun x hx => hb x (by simp [hx])) _ (addConnection_symm g _ _ _ (hb c (by simp)) h)

theorem addEdge_wf (g : Graph κ 𝕜) (e : κ × κ) (w : 𝕜) (h : g.WF) : (addEdge g e w).WF := by
  unfold addEdge; split
  · exact h
  · exact h.set _ _

theorem build_wf [DecidableEq 𝕜] [Field 𝕜] (base : List ((κ × κ) × 𝕜)) (g : Graph κ 𝕜) (h : g.WF) :
    Dict.WF (base.foldl (fun g c => addConnection g c.1.1 c.1.2 c.2) g) := by
  induction base generalizing g with
  | nil => exact h
  | cons c base ih => exact ih _ (addEdge_wf _ _ _ (addEdge_wf _ _ _ h))

end Graph

/-! ## `Table` -/

theorem isKey_iff [DecidableEq κ] (t : Table κ ν) (k : κ) :
    isKey t k = true ↔ t ≠ [] ∧ ∀ e ∈ t, k ∈ Dict.keys e := by
  cases t with
  | nil => simp [isKey]
  | cons e es => simp [isKey]

theorem filter_singleton {p : α → Bool} {l : List α} {e : α} (h : l.filter p = [e]) :
    OnlyOne (fun x => p x = true) l e := by
  obtain ⟨pre, post, rfl, hpre, he, hpost⟩ := List.filter_eq_cons_iff.1 h
  refine ⟨pre, post, rfl, he, fun x hx => hpre x hx, fun x hx hp => ?_⟩
  have : x ∈ post.filter p := List.mem_filter.2 ⟨hx, hp⟩
  rw [hpost] at this; simp at this

theorem filter_of_onlyOne {p : α → Bool} {l : List α} {e : α} (h : OnlyOne (fun x => p x = true) l e) :
    l.filter p = [e] := by
  obtain ⟨pre, post, rfl, he, hpre, hpost⟩ := h
  rw [List.filter_append, List.filter_cons, if_pos he, List.filter_eq_nil_iff.2 hpre,
    List.filter_eq_nil_iff.2 hpost]
  rfl

theorem onlyOne_congr {P Q : α → Prop} {l : List α} {e : α} (h : ∀ x ∈ l, P x ↔ Q x) :
    OnlyOne P l e ↔ OnlyOne Q l e := by
  constructor
  · rintro ⟨pre, post, rfl, he, h1, h2⟩
    exact ⟨pre, post, rfl, (h _ (by simp)).1 he, fun x hx hq => h1 x hx ((h x (by simp [hx])).2 hq),
      fun x hx hq => h2 x hx ((h x (by simp [hx])).2 hq)⟩
  · rintro ⟨pre, post, rfl, he, h1, h2⟩
    exact ⟨pre, post, rfl, (h _ (by simp)).2 he, fun x hx hq => h1 x hx ((h x (by simp [hx])).1 hq),
      fun x hx hq => h2 x hx ((h x (by simp [hx])).1 hq)⟩

theorem mem_values {d : Dict κ ν} {v : ν} : v ∈ d.values ↔ HasValue d v := by
  unfold Dict.values HasValue
  constructor
  · intro h
    obtain ⟨⟨k, w⟩, hm, rfl⟩ := List.mem_map.1 h
    exact ⟨k, hm⟩
  · rintro ⟨k, hm⟩
    exact List.mem_map.2 ⟨_, hm, rfl⟩

section Table
variable [DecidableEq κ] [DecidableEq ν]

/-- The rows matching every pair, by the model's own comparison. -/
def sel (request : List (κ × ν)) (e : Dict κ ν) : Bool := request.all (fun p => decide (e.get? p.1 = some p.2))

theorem sel_iff {request : List (κ × ν)} {e : Dict κ ν} (hw : e.WF) : sel request e = true ↔ Matches e request := by
  unfold sel Matches
  simp only [List.all_eq_true, decide_eq_true_eq, Dict.get?_eq_some hw]

theorem column_ok {t : Table κ ν} {k : κ} {col : List ν} (h : column t k = .ok col) :
    isKey t k = true ∧ col = t.filterMap (·.get? k) := by
  unfold column at h
  split at h
  · cases h; exact ⟨by assumption, rfl⟩
  · cases h

theorem callLoop_strict (t : Table κ ν) (total n : Nat) (req done : List (κ × ν)) (e : Dict κ ν) :
    callLoop t true total n req (t.filter (sel done)) = .ok e ↔
      (∀ p ∈ req, isKey t p.1 = true) ∧ t.filter (sel (done ++ req)) = [e] := by
  induction req generalizing n done with
  | nil =>
    simp only [callLoop, List.not_mem_nil, false_implies, implies_true, true_and, List.append_nil]
    cases h : t.filter (sel done) with
    | nil => simp
    | cons a l => cases l <;> simp
  | cons p req ih =>
    obtain ⟨k, v⟩ := p
    have hsub : (t.filter (sel done)).filter (fun e => decide (e.get? k = some v)) =
        t.filter (sel (done ++ [(k, v)])) := by
      rw [List.filter_filter]; congr 1; funext e; simp [sel, Bool.and_comm]
    simp only [callLoop]
    rw [hsub]
    cases hc : column t k with
    | error err =>
      simp only [reduceCtorEq, false_iff, not_and]
      intro hk
      have := hk (k, v) (by simp)
      simp [column, this] at hc
    | ok col =>
      have := column_ok hc
      simp only [if_true]
      rw [ih, List.append_assoc]
      simp [this.1]

theorem callLoop_iter {t : Table κ ν} {total : Nat} {req : List (κ × ν)} {n : Nat} {done : List (κ × ν)}
    {e : Dict κ ν} (h : callLoop t false total n req (t.filter (sel done)) = .ok e) :
    ∃ first rest, req = first ++ rest ∧ first ≠ [] ∧ t.filter (sel (done ++ first)) = [e] := by
  induction req generalizing n done with
  | nil => simp [callLoop] at h
  | cons p req ih =>
    obtain ⟨k, v⟩ := p
    have hsub : (t.filter (sel done)).filter (fun e => decide (e.get? k = some v)) =
        t.filter (sel (done ++ [(k, v)])) := by
      rw [List.filter_filter]; congr 1; funext e; simp [sel, Bool.and_comm]
    simp only [callLoop] at h
    rw [hsub] at h
    cases hc : column t k with
    | error err => simp [hc] at h
    | ok col =>
      simp only [hc, Bool.false_eq_true, if_false] at h
      split at h
      · cases h
      · split at h
        · rename_i e' he
          cases h
          exact ⟨[(k, v)], req, rfl, by simp, he⟩
        · obtain ⟨first, rest, h1, h2, h3⟩ := ih h
          exact ⟨(k, v) :: first, rest, by simp [h1], by simp, by simpa using h3⟩

end Table

/-! ## `ObjectRegistry` -/

theorem sep_inj {c : Char} {p p' s s' : List Char} (h : p ++ c :: s = p' ++ c :: s') (hs : c ∉ s) (hs' : c ∉ s') :
    s = s' := by
  rcases List.append_eq_append_iff.1 h with ⟨a, h1, h2⟩ | ⟨a, h1, h2⟩
  · cases a with
    | nil => simpa using h2
    | cons x a =>
      simp only [List.cons_append, List.cons.injEq] at h2
      exact absurd (h2.2 ▸ by simp : c ∈ s) hs
  · cases a with
    | nil => simpa using h2.symm
    | cons x a =>
      simp only [List.cons_append, List.cons.injEq] at h2
      exact absurd (h2.2 ▸ by simp : c ∈ s') hs'

theorem showNat_mem {n : Nat} {c : Char} (h : c ∈ Symbolic.showNat n) :
    c ∈ ['0', '1', '2', '3', '4', '5', '6', '7', '8', '9'] := by
  have h0 : Symbolic.isDigit c = true := (Symbolic.showNat_digits n).2 c h
  simp only [Symbolic.isDigit, decide_eq_true_eq] at h0
  have e : Char.ofNat c.toNat = c := Char.ofNat_toNat c
  have h1 : 48 ≤ c.toNat := h0.1
  have h2 : c.toNat ≤ 57 := h0.2
  rw [← e]
  generalize c.toNat = m at h1 h2
  interval_cases m <;> decide

theorem showNat_inj {n m : Nat} (h : Symbolic.showNat n = Symbolic.showNat m) : n = m := by
  rw [← Symbolic.showNat_val n, h, Symbolic.showNat_val]

theorem showNat_ne {n : Nat} : Symbolic.showNat n ≠ [] := (Symbolic.showNat_digits n).1

theorem numbered_show (p : List Char) (n : Nat) : Numbered (p ++ '_' :: Symbolic.showNat n) :=
  ⟨p, _, rfl, showNat_ne, fun _ h => showNat_mem h⟩

theorem under_not_mem (n : Nat) : '_' ∉ Symbolic.showNat n := fun h => by
  have := showNat_mem h; revert this; decide

/-- Every key is a plain name or was made with an earlier count. -/
def RegInv {ν : Type} (r : Registry ν) : Prop :=
  ∀ k, r.items.get? k ≠ none → ¬ Numbered k ∨ ∃ p n, n < r.count ∧ k = p ++ '_' :: Symbolic.showNat n

theorem mappingKey_fresh {ν : Type} (r : Registry ν) (hr : RegInv r) (p : List Char) (u : Option (List Char))
    (hp : ¬ Numbered p) (hu : ∀ x, u = some x → ¬ Numbered x) :
    let q := r.mappingKey p u false
    q.2.items = r.items ∧ q.2.init = r.init ∧ r.count ≤ q.2.count ∧ r.items.get? q.1 = none ∧
      (¬ Numbered q.1 ∨ ∃ p n, n < q.2.count ∧ q.1 = p ++ '_' :: Symbolic.showNat n) := by
  have hd : (r.defaultKey p).2.items = r.items ∧ (r.defaultKey p).2.init = r.init ∧
      r.count ≤ (r.defaultKey p).2.count ∧ r.items.get? (r.defaultKey p).1 = none ∧
      (¬ Numbered (r.defaultKey p).1 ∨ ∃ p' n, n < (r.defaultKey p).2.count ∧
        (r.defaultKey p).1 = p' ++ '_' :: Symbolic.showNat n) := by
    unfold Registry.defaultKey
    cases h : r.items.get? p with
    | none => exact ⟨rfl, rfl, Nat.le_refl _, h, Or.inl hp⟩
    | some x =>
      refine ⟨rfl, rfl, Nat.le_succ _, ?_, Or.inr ⟨p, r.count, Nat.lt_succ_self _, rfl⟩⟩
      by_contra hne
      rcases hr _ hne with hk | ⟨p', n, hn, hk⟩
      · exact hk (numbered_show p r.count)
      · have := showNat_inj (sep_inj hk (under_not_mem _) (under_not_mem _))
        omega
  simp only [Registry.mappingKey]
  cases u with
  | none => exact hd
  | some u =>
    simp only
    split
    · rename_i h
      rcases h.2 with h' | h'
      · exact ⟨rfl, rfl, Nat.le_refl _, h', Or.inl (hu u rfl)⟩
      · cases h'
    · exact hd

/-! ## `nearest` -/

section Nearest
variable {𝕜 : Type} [LinearOrder 𝕜] [AddCommGroup 𝕜]

theorem argminLoop_spec (t : 𝕜) (as pre : List 𝕜) (b : 𝕜) (bi : Nat) (hb : NearestAt pre t bi)
    (hv : ∃ v, pre[bi]? = some v ∧ b = |v - t|) :
    NearestAt (pre ++ as) t (argminLoop t as pre.length b bi) := by
  induction as generalizing pre b bi with
  | nil => simpa [argminLoop] using hb
  | cons a as ih =>
    obtain ⟨v, hv1, hv2⟩ := hv
    obtain ⟨v', hv1', hmin⟩ := hb
    have hvv : v' = v := by rw [hv1] at hv1'; exact (Option.some.inj hv1').symm
    subst hvv
    have hlt : bi < pre.length := (List.getElem?_eq_some_iff.1 hv1).1
    have key : ∀ k x, (pre ++ [a])[k]? = some x → (k < pre.length ∧ pre[k]? = some x) ∨ (k = pre.length ∧ x = a) := by
      intro k x hx
      by_cases hk : k < pre.length
      · rw [List.getElem?_append_left hk] at hx; exact Or.inl ⟨hk, hx⟩
      · rw [List.getElem?_append_right (by omega)] at hx
        have hk' : k - pre.length = 0 := by
          have := (List.getElem?_eq_some_iff.1 hx).1
          simp at this; omega
        rw [hk'] at hx
        exact Or.inr ⟨by omega, by simpa using hx.symm⟩
    rw [argminLoop]
    split
    · rename_i h
      have := ih (pre ++ [a]) |a - t| pre.length ⟨a, by simp, ?_⟩ ⟨a, by simp, rfl⟩
      · simpa using this
      · intro k x hx
        rcases key k x hx with ⟨hk, hx⟩ | ⟨rfl, rfl⟩
        · have := (hmin k x hx).1
          rw [hv2] at h
          exact ⟨le_of_lt (lt_of_lt_of_le h this), fun he => absurd (lt_of_lt_of_le h this) (by rw [he]; exact lt_irrefl _)⟩
        · exact ⟨le_refl _, fun _ => Nat.le_refl _⟩
    · rename_i h
      have := ih (pre ++ [a]) b bi ⟨v', by rw [List.getElem?_append_left hlt]; exact hv1, ?_⟩
        ⟨v', by rw [List.getElem?_append_left hlt]; exact hv1, hv2⟩
      · simpa using this
      · intro k x hx
        rcases key k x hx with ⟨hk, hx⟩ | ⟨rfl, rfl⟩
        · exact hmin k x hx
        · rw [hv2, not_lt] at h
          exact ⟨h, fun _ => by omega⟩

theorem argmin_spec (l : List 𝕜) (t : 𝕜) (hne : l ≠ []) : ∃ i, argmin l t = .ok i ∧ NearestAt l t i := by
  cases l with
  | nil => exact absurd rfl hne
  | cons a as =>
    refine ⟨_, rfl, ?_⟩
    have := argminLoop_spec t as [a] |a - t| 0 ⟨a, by simp, ?_⟩ ⟨a, by simp, rfl⟩
    · simpa using this
    · intro k x hx
      have hk : k = 0 := by
        have := (List.getElem?_eq_some_iff.1 hx).1
        simpa using this
      subst hk
      have : a = x := by simpa using hx
      subst this
      exact ⟨le_refl _, fun _ => Nat.le_refl _⟩

theorem lowerLoop_spec (l : List 𝕜) (t : 𝕜) (fuel i : Nat) (hf : l.length < fuel + i) :
    (∃ j v, lowerLoop l t fuel i = (j : Nat) ∧ l[j]? = some v ∧ t ≤ v ∧ i ≤ j ∧
      ∀ k x, i ≤ k → k < j → l[k]? = some x → x < t) ∨
    (lowerLoop l t fuel i = -1 ∧ ∀ k x, i ≤ k → l[k]? = some x → x < t) := by
  induction fuel generalizing i with
  | zero =>
    refine Or.inr ⟨rfl, fun k x hk hx => ?_⟩
    have := (List.getElem?_eq_some_iff.1 hx).1
    omega
  | succ fuel ih =>
    rw [lowerLoop]
    cases h : l[i]? with
    | none =>
      refine Or.inr ⟨rfl, fun k x hk hx => ?_⟩
      have := (List.getElem?_eq_some_iff.1 hx).1
      have := List.getElem?_eq_none_iff.1 h
      omega
    | some a =>
      simp only
      split
      · rename_i ha
        rcases ih (i + 1) (by omega) with ⟨j, v, h1, h2, h3, h4, h5⟩ | ⟨h1, h2⟩
        · refine Or.inl ⟨j, v, h1, h2, h3, by omega, fun k x hk hkj hx => ?_⟩
          by_cases hki : k = i
          · subst hki; rw [h] at hx; cases hx; exact ha
          · exact h5 k x (by omega) hkj hx
        · refine Or.inr ⟨h1, fun k x hk hx => ?_⟩
          by_cases hki : k = i
          · subst hki; rw [h] at hx; cases hx; exact ha
          · exact h2 k x (by omega) hx
      · rename_i ha
        exact Or.inl ⟨i, a, rfl, h, not_lt.1 ha, Nat.le_refl _, fun k x h1 h2 => by omega⟩

theorem pyGet?_nat (l : List 𝕜) (i : Nat) : pyGet? l (i : Int) = l[i]? := by
  simp [pyGet?]

theorem pyGet?_none {l : List 𝕜} {i : Int} (h : pyGet? l i = none) : (l.length : Int) ≤ i ∨ i < -l.length := by
  unfold pyGet? at h
  split at h
  · rw [List.getElem?_eq_none_iff] at h; left; omega
  · split at h
    · rw [List.getElem?_eq_none_iff] at h; omega
    · right; omega

theorem upperLoop_spec (l : List 𝕜) (t : 𝕜) (fuel : Nat) (i : Int) (hi : i < l.length)
    (hf : i + l.length + 1 < fuel + 1) :
    (∃ j v, upperLoop l t fuel i = j ∧ pyGet? l j = some v ∧ v ≤ t ∧ j ≤ i ∧
      ∀ k x, j < k → k ≤ i → pyGet? l k = some x → t < x) ∨
    (upperLoop l t fuel i = 0 ∧ ∀ k x, k ≤ i → pyGet? l k = some x → t < x) := by
  induction fuel generalizing i with
  | zero =>
    refine Or.inr ⟨rfl, fun k x hk hx => ?_⟩
    exfalso
    unfold pyGet? at hx
    split at hx
    · omega
    · split at hx
      · omega
      · cases hx
  | succ fuel ih =>
    rw [upperLoop]
    cases h : pyGet? l i with
    | none =>
      refine Or.inr ⟨rfl, fun k x hk hx => ?_⟩
      exfalso
      rcases pyGet?_none h with h | h
      · omega
      · unfold pyGet? at hx
        split at hx
        · omega
        · split at hx
          · omega
          · cases hx
    | some a =>
      simp only
      split
      · rename_i ha
        rcases ih (i - 1) (by omega) (by omega) with ⟨j, v, h1, h2, h3, h4, h5⟩ | ⟨h1, h2⟩
        · refine Or.inl ⟨j, v, h1, h2, h3, by omega, fun k x hk hkj hx => ?_⟩
          by_cases hki : k = i
          · subst hki; rw [h] at hx; cases hx; exact ha
          · exact h5 k x (by omega) (by omega) hx
        · refine Or.inr ⟨h1, fun k x hk hx => ?_⟩
          by_cases hki : k = i
          · subst hki; rw [h] at hx; cases hx; exact ha
          · exact h2 k x (by omega) hx
      · rename_i ha
        exact Or.inl ⟨i, a, rfl, h, not_lt.1 ha, Int.le_refl _, fun k x h1 h2 => by omega⟩

end Nearest

end Eprem.Container
