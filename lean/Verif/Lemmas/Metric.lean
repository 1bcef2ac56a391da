import Verif.Model.Metric
import Verif.Spec.Metric
import Verif.Lemmas.PyDict
import Mathlib.Tactic.FieldSimp
import Mathlib.Tactic.Linarith

/-! # Lemmas for unit conversion -/

namespace Eprem.Metric

open Eprem Eprem.Container

theorem truthy_some {K : Type} [Zero K] [DecidableEq K] {o : Option K} {f : K} (h : truthy o = some f) :
    o = some f ∧ f ≠ 0 := by
  cases o with
  | none => simp [truthy] at h
  | some g =>
    simp only [truthy] at h
    split at h
    · cases h
    · cases h; exact ⟨rfl, by assumption⟩

theorem truthy_none_of_ne {K : Type} [Zero K] [DecidableEq K] {o : Option K} (h : truthy o = none) :
    ∀ f, o = some f → f = 0 := by
  intro f hf
  subst hf
  simp only [truthy] at h
  split at h
  · assumption
  · cases h

/-- the sizes agree with what an environment reads -/
abbrev Env.Sizes (E : Env) (φ : Name → ℚ) : Prop := Metric.Sizes E.named (fun a b => E.graph.get? (a, b)) φ

section
variable {E : Env} {φ : Name → ℚ} (h : E.Sizes φ)
include h

theorem ratio_sound {a b : Name} {e₀ e₁ : Entry} (ha : E.named a = some e₀) (hb : E.named b = some e₁) {r : ℚ}
    (hr : ratio e₀ e₁ = some r) : r = φ a / φ b := by
  unfold ratio at hr
  split at hr
  next heq =>
    obtain ⟨h1, h2⟩ := heq
    cases hr
    have hs := h.scale a b e₀ e₁ ha hb h2.symm
    have hs' := h.scale a a e₀ e₀ ha ha rfl
    rw [h1] at hs
    rw [← hs, hs', div_self (h.pos a).ne']
  next =>
    split at hr
    · cases hr
    next hb' =>
      cases hr
      exact h.scale a b e₀ e₁ ha hb (not_not.1 hb').symm

theorem aliasesOf_size {a x : Name} (hx : x ∈ aliasesOf E a) : φ x = φ a := by
  unfold aliasesOf at hx
  rcases List.mem_cons.1 hx with rfl | hx
  · rfl
  · cases hn : E.named a with
    | none => rw [hn] at hx; cases hx
    | some e =>
      rw [hn] at hx
      simp only [List.mem_cons, List.not_mem_nil, or_false] at hx
      rcases hx with rfl | rfl
      · exact h.symbol a e hn
      · exact h.name a e hn

theorem search_sound {u₀ u₁ : Name} {w : ℚ} (hw : search E u₀ u₁ = some w) : w = φ u₀ / φ u₁ := by
  unfold search at hw
  split at hw
  next w' hg => cases hw; exact h.edge _ _ _ hg
  next =>
    obtain ⟨x, hx, hx'⟩ := List.exists_of_findSome?_eq_some hw
    obtain ⟨y, hy, hy'⟩ := List.exists_of_findSome?_eq_some hx'
    rw [h.edge _ _ _ hy', aliasesOf_size h hx, aliasesOf_size h hy]

theorem simple_sound {u₀ u₁ : Name} {s w : ℚ} (hw : simpleConversion E u₀ u₁ s = some w) :
    w = s * (φ u₀ / φ u₁) := by
  unfold simpleConversion at hw
  split at hw
  next heq => cases hw; rw [heq, div_self (h.pos u₁).ne', mul_one]
  next =>
    split at hw
    next f hf => cases hw; rw [search_sound h (truthy_some hf).1]
    next =>
      split at hw
      next e₀ e₁ h0 h1 =>
        cases hr : ratio e₀ e₁ with
        | none => rw [hr] at hw; cases hw
        | some r =>
          rw [hr] at hw
          cases hw
          rw [ratio_sound h h0 h1 hr]
      next => cases hw

theorem rescaleLoop_sound {u₀ u₁ : Name} {e₀ : Entry} (h0 : E.named u₀ = some e₀) {w : ℚ} :
    ∀ {l : List Name}, rescaleLoop E e₀ u₁ l = some w → w = φ u₀ / φ u₁
  | [], hw => by cases hw
  | ux :: l, hw => by
    unfold rescaleLoop at hw
    split at hw
    · exact rescaleLoop_sound h0 hw
    next ex hx =>
      split at hw
      · split at hw
        next f hf =>
          cases hr : ratio e₀ ex with
          | none => rw [hr] at hw; cases hw
          | some r =>
            rw [hr] at hw
            cases hw
            rw [ratio_sound h h0 hx hr, search_sound h (truthy_some hf).1]
            have := (h.pos ux).ne'
            have := (h.pos u₁).ne'
            field_simp
        next => exact rescaleLoop_sound h0 hw
      · exact rescaleLoop_sound h0 hw

theorem rescale_sound {u₀ u₁ : Name} {w : ℚ} (hw : rescale E u₀ u₁ = some w) : w = φ u₀ / φ u₁ := by
  unfold rescale at hw
  split at hw
  · cases hw
  next e₀ h0 => exact rescaleLoop_sound h h0 hw

theorem rescaleConversion_sound {u₀ u₁ : Name} {s w : ℚ} (hw : rescaleConversion E u₀ u₁ s = some w) :
    w = s * (φ u₀ / φ u₁) := by
  unfold rescaleConversion at hw
  split at hw
  next c hc =>
    cases hw
    split at hc
    · cases hc
    · rw [rescale_sound h (truthy_some hc).1]
  next =>
    split at hw
    next c hc =>
      cases hw
      split at hc
      · cases hc
      · rw [rescale_sound h (truthy_some hc).1]
        have := (h.pos u₀).ne'
        have := (h.pos u₁).ne'
        field_simp
    next => cases hw

theorem standard_sound {u₀ u₁ : Name} {s w : ℚ} (hw : standardConversion E u₀ u₁ s = some w) :
    w = s * (φ u₀ / φ u₁) := by
  unfold standardConversion at hw
  split at hw
  next f hf => cases hw; exact simple_sound h (truthy_some hf).1
  next => exact rescaleConversion_sound h (truthy_some hw).1

end

theorem mem_getAdjacencies {g : Graph Name ℚ} {a b : Name} {w : ℚ} (hm : (b, w) ∈ getAdjacencies g a) :
    ((a, b), w) ∈ g := by
  unfold getAdjacencies at hm
  split at hm
  · simp only [List.mem_map, List.mem_filter, decide_eq_true_eq, Prod.mk.injEq] at hm
    obtain ⟨⟨⟨x, y⟩, z⟩, ⟨h1, h2⟩, h3, h4⟩ := hm
    simp only at h2 h3 h4
    subst h2 h3 h4
    exact h1
  · cases hm

section
variable {E : Env} {φ : Name → ℚ}

theorem recursiveLoop_sound {u₀ u₁ : Name} {s w : ℚ} (h : E.Sizes φ)
    {go : List Name → Name → List Name × Option ℚ}
    (hgo : ∀ ch u w, (go ch u).2 = some w → w = s * (φ u / φ u₁)) :
    ∀ (adj : List (Name × ℚ)), (∀ b w, (b, w) ∈ adj → w = φ u₀ / φ b) → ∀ ch,
      (recursiveLoop go adj ch).2 = some w → w = s * (φ u₀ / φ u₁)
  | [], _, ch, hw => by cases hw
  | (b, wt) :: adj, hadj, ch, hw => by
    unfold recursiveLoop at hw
    split at hw
    next v hv =>
      cases hw
      rw [hgo _ _ _ (truthy_some hv).1, hadj b wt (by simp)]
      have := (h.pos b).ne'
      have := (h.pos u₁).ne'
      field_simp
    next =>
      exact recursiveLoop_sound h hgo adj (fun b w hm => hadj b w (List.mem_cons_of_mem _ hm)) _ hw

theorem recursive_sound (h : E.Sizes φ) (hwf : E.graph.WF) {u₁ : Name} {s : ℚ} :
    ∀ (n : Nat) (ch : List Name) (u₀ : Name) (w : ℚ),
      (recursiveConversion E u₁ s n ch u₀).2 = some w → w = s * (φ u₀ / φ u₁)
  | 0, ch, u₀, w, hw => by cases hw
  | n + 1, ch, u₀, w, hw => by
    unfold recursiveConversion at hw
    split at hw
    · cases hw
    · split at hw
      next f hf => cases hw; exact standard_sound h (truthy_some hf).1
      next =>
        refine recursiveLoop_sound h (recursive_sound h hwf n) _ ?_ _ hw
        intro b w hm
        exact h.edge u₀ b w ((Dict.get?_eq_some hwf).2 (mem_getAdjacencies hm))

theorem strings_sound (h : E.Sizes φ) (hwf : E.graph.WF) {u₀ u₁ : Name} {f : ℚ}
    (hf : convertAsStrings E u₀ u₁ = some f) : f = φ u₀ / φ u₁ := by
  have := recursive_sound h hwf _ _ _ _ (truthy_some hf).1
  rwa [one_mul] at this

end

/-! ### Completeness of the search -/

section
variable {E : Env}

/-- what a failed search has seen -/
structure Seen (E : Env) (u₁ : Name) (before after : List Name) : Prop where
  mono : before ⊆ after
  closed : ∀ x ∈ after, x ∉ before → ∀ y w, (y, w) ∈ getAdjacencies E.graph x → y ∈ after
  target : u₁ ∉ before → u₁ ∉ after

theorem Seen.refl (u₁ : Name) (l : List Name) : Seen E u₁ l l :=
  ⟨fun _ h => h, fun _ h h' => absurd h h', fun h => h⟩

theorem Seen.trans {u₁ : Name} {a b c : List Name} (h1 : Seen E u₁ a b) (h2 : Seen E u₁ b c) : Seen E u₁ a c := by
  refine ⟨fun x h => h2.mono (h1.mono h), ?_, fun h => h2.target (h1.target h)⟩
  intro x hx hxa y w hy
  by_cases hb : x ∈ b
  · exact h2.mono (h1.closed x hb hxa y w hy)
  · exact h2.closed x hx hb y w hy

theorem mem_adj_ends {g : Graph Name ℚ} {a b : Name} {w : ℚ} (hm : (b, w) ∈ getAdjacencies g a) :
    b ∈ (g.keys.flatMap (fun e => [e.1, e.2])) := by
  have := mem_getAdjacencies hm
  refine List.mem_flatMap.2 ⟨(a, b), List.mem_map.2 ⟨_, this, rfl⟩, by simp⟩

theorem recursiveLoop_none {u₁ : Name} (U : Finset Name) (n : Nat)
    {go : List Name → Name → List Name × Option ℚ}
    (hgo : ∀ ch u, u ∈ U → (U \ ch.toFinset).card < n → truthy (go ch u).2 = none →
      Seen E u₁ ch (go ch u).1 ∧ u ∈ (go ch u).1) :
    ∀ (adj : List (Name × ℚ)), (∀ b w, (b, w) ∈ adj → b ∈ U) → ∀ ch, (U \ ch.toFinset).card < n →
      (recursiveLoop go adj ch).2 = none →
      Seen E u₁ ch (recursiveLoop go adj ch).1 ∧ ∀ b w, (b, w) ∈ adj → b ∈ (recursiveLoop go adj ch).1
  | [], _, ch, _, _ => ⟨Seen.refl _ _, by simp⟩
  | (b, wt) :: adj, hadj, ch, hc, hn => by
    unfold recursiveLoop at hn ⊢
    split
    next v hv => simp [hv] at hn
    next hv =>
      simp only [hv] at hn
      obtain ⟨h1, h2⟩ := hgo ch b (hadj b wt (by simp)) hc hv
      have hc' : (U \ (go ch b).1.toFinset).card < n := by
        refine lt_of_le_of_lt (Finset.card_le_card ?_) hc
        intro x hx
        simp only [Finset.mem_sdiff, List.mem_toFinset] at hx ⊢
        exact ⟨hx.1, fun h => hx.2 (h1.mono h)⟩
      obtain ⟨h3, h4⟩ := recursiveLoop_none U n hgo adj (fun b w hm => hadj b w (List.mem_cons_of_mem _ hm)) _ hc' hn
      refine ⟨h1.trans h3, ?_⟩
      intro b' w' hm
      rcases List.mem_cons.1 hm with he | hm
      · cases he; exact h3.mono h2
      · exact h4 b' w' hm

theorem recursiveLoop_truthy {go : List Name → Name → List Name × Option ℚ} :
    ∀ (adj : List (Name × ℚ)), (∀ b w, (b, w) ∈ adj → w ≠ 0) → ∀ ch,
      truthy (recursiveLoop go adj ch).2 = (recursiveLoop go adj ch).2
  | [], _, ch => rfl
  | (b, wt) :: adj, hadj, ch => by
    unfold recursiveLoop
    split
    next v hv =>
      have := mul_ne_zero (hadj b wt (by simp)) (truthy_some hv).2
      simp [truthy, this]
    next => exact recursiveLoop_truthy adj (fun b w hm => hadj b w (List.mem_cons_of_mem _ hm)) _

theorem recursive_truthy (hw : ∀ a b w, ((a, b), w) ∈ E.graph → w ≠ 0) {u₁ : Name} {s : ℚ} (n : Nat)
    (ch : List Name) (u₀ : Name) :
    truthy (recursiveConversion E u₁ s n ch u₀).2 = (recursiveConversion E u₁ s n ch u₀).2 := by
  cases n with
  | zero => rfl
  | succ n =>
    unfold recursiveConversion
    split
    · rfl
    · split
      next f hf => simp [truthy, (truthy_some hf).2]
      next => exact recursiveLoop_truthy _ (fun b w hm => hw _ _ _ (mem_getAdjacencies hm)) _

theorem recursive_none (hw : ∀ a b w, ((a, b), w) ∈ E.graph → w ≠ 0) {u₁ : Name} (U : Finset Name)
    (hU : ∀ x ∈ E.graph.keys.flatMap (fun e => [e.1, e.2]), x ∈ U) :
    ∀ (n : Nat) (ch : List Name) (u₀ : Name), u₀ ∈ U → (U \ ch.toFinset).card < n →
      truthy (recursiveConversion E u₁ 1 n ch u₀).2 = none →
      Seen E u₁ ch (recursiveConversion E u₁ 1 n ch u₀).1 ∧ u₀ ∈ (recursiveConversion E u₁ 1 n ch u₀).1
  | 0, ch, u₀, _, hc, _ => by omega
  | n + 1, ch, u₀, hu, hc, hn => by
    rw [recursive_truthy hw] at hn
    unfold recursiveConversion at hn ⊢
    split
    next hm => exact ⟨Seen.refl _ _, hm⟩
    next hm =>
      rw [if_neg hm] at hn
      split
      next f hf => simp [hf] at hn
      next hf =>
        simp only [hf] at hn
        have hne : u₀ ≠ u₁ := by
          rintro rfl
          have h1 : simpleConversion E u₀ u₀ 1 = some 1 := by unfold simpleConversion; rw [if_pos rfl]
          have h2 : standardConversion E u₀ u₀ 1 = some 1 := by
            unfold standardConversion; rw [h1]; simp [truthy]
          rw [h2] at hf
          simp [truthy] at hf
        have hc' : (U \ (ch ++ [u₀]).toFinset).card < n := by
          have : (U \ (ch ++ [u₀]).toFinset).card < (U \ ch.toFinset).card := by
            refine Finset.card_lt_card ⟨?_, ?_⟩
            · intro x hx
              simp only [Finset.mem_sdiff, List.mem_toFinset, List.mem_append, not_or] at hx ⊢
              exact ⟨hx.1, hx.2.1⟩
            · intro hsub
              have : u₀ ∈ U \ (ch ++ [u₀]).toFinset := hsub (by simp [hu, hm])
              simp at this
          omega
        obtain ⟨h1, h2⟩ := recursiveLoop_none (E := E) (u₁ := u₁) U n
          (fun ch u h1 h2 h3 => recursive_none hw U hU n ch u h1 h2 h3)
          (getAdjacencies E.graph u₀) (fun b w h => hU _ (mem_adj_ends h)) (ch ++ [u₀]) hc' hn
        refine ⟨⟨fun x hx => h1.mono (by simp [hx]), ?_, ?_⟩, h1.mono (by simp)⟩
        · intro x hx hxc y w hy
          by_cases he : x = u₀
          · subst he; exact h2 y w hy
          · exact h1.closed x hx (by simp [hxc, he]) y w hy
        · intro ht
          exact h1.target (by simp [ht, Ne.symm hne])

end

theorem getAdjacencies_mem {g : Graph Name ℚ} {a b : Name} {w : ℚ} (hm : ((a, b), w) ∈ g) :
    (b, w) ∈ getAdjacencies g a := by
  unfold getAdjacencies
  have hin : a ∈ List.flatMap (fun e => [e.1, e.2]) (Dict.keys g) :=
    List.mem_flatMap.2 ⟨(a, b), List.mem_map.2 ⟨_, hm, rfl⟩, by simp⟩
  rw [if_pos hin]
  exact List.mem_map.2 ⟨((a, b), w), by simp [hm], rfl⟩

theorem strings_complete {E : Env} (hw : ∀ a b w, ((a, b), w) ∈ E.graph → w ≠ 0) (hwf : E.graph.WF) {u₀ u₁ : Name}
    {p : ℚ} (h : Route (fun a b => E.graph.get? (a, b)) u₀ u₁ p) : ∃ f, convertAsStrings E u₀ u₁ = some f := by
  by_contra hcon
  have hnone : truthy (recursiveConversion E u₁ 1 (2 * E.graph.length + 2) [] u₀).2 = none := by
    cases hc : convertAsStrings E u₀ u₁ with
    | none => exact hc
    | some f => exact absurd ⟨f, hc⟩ hcon
  set U : Finset Name := insert u₀ (E.graph.keys.flatMap (fun e => [e.1, e.2])).toFinset with hUdef
  have hcard : (U \ ([] : List Name).toFinset).card < 2 * E.graph.length + 2 := by
    have h1 : U.card ≤ (E.graph.keys.flatMap (fun e => [e.1, e.2])).toFinset.card + 1 := Finset.card_insert_le _ _
    have h2 := List.toFinset_card_le (E.graph.keys.flatMap (fun e => [e.1, e.2]))
    have h3 : (E.graph.keys.flatMap (fun e => [e.1, e.2])).length = 2 * E.graph.length := by
      have : ∀ l : List (Name × Name), (l.flatMap (fun e => [e.1, e.2])).length = 2 * l.length := by
        intro l; induction l with
        | nil => rfl
        | cons a l ih => simp only [List.flatMap_cons, List.length_append, List.length_cons, List.length_nil, ih]; omega
      rw [this]; simp [Dict.keys]
    simp only [List.toFinset_nil, Finset.sdiff_empty]
    omega
  obtain ⟨h1, h2⟩ := recursive_none hw U (fun x hx => by simp [hUdef, List.mem_toFinset.2 hx]) _ [] u₀
    (by simp [hUdef]) hcard hnone
  set R := (recursiveConversion E u₁ 1 (2 * E.graph.length + 2) [] u₀).1
  have key : ∀ {x y q}, Route (fun a b => E.graph.get? (a, b)) x y q → x ∈ R → y ∈ R := by
    intro x y q hr
    induction hr with
    | refl => exact id
    | step hwt _ ih =>
      intro hx
      exact ih (h1.closed _ hx (by simp) _ _ (getAdjacencies_mem ((Dict.get?_eq_some hwf).1 hwt)))
  exact h1.target (by simp) (key h h2)

theorem route_size {E : Env} {φ : Name → ℚ} (h : E.Sizes φ) {u₀ u₁ : Name} {p : ℚ}
    (hr : Route (fun a b => E.graph.get? (a, b)) u₀ u₁ p) : p = φ u₀ / φ u₁ := by
  induction hr with
  | refl u => rw [div_self (h.pos u).ne']
  | @step a b c w q hw _ ih =>
    have := (h.pos b).ne'
    have := (h.pos c).ne'
    rw [h.edge _ _ _ hw, ih]; field_simp

end Eprem.Metric
