import Verif.Lemmas.NamedArray

/-! # Dimension names and arithmetic by name (C30, C31) -/

namespace Eprem.Numeric

open Eprem

variable {κ α β γ : Type} [DecidableEq κ]

/-! ## C30: dimension names -/

/-- **C30**, names are distinct and keep their order of first occurrence. -/
theorem c30_unique (names : List κ) : Container.FirstOccurrences names (dimensions names) := Container.c08_unique names

/-- **C30**, intersection: the common names, in the order of the first operand. -/
theorem c30_intersection (a b : List κ) (ha : a.Nodup) :
    (dimsAnd a b).Nodup ∧ (∀ n, n ∈ dimsAnd a b ↔ n ∈ a ∧ n ∈ b) ∧ (dimsAnd a b).Sublist a := by
  have h := Container.c08_unique ((a ++ b).filter (fun n => decide (n ∈ a ∧ n ∈ b)))
  have hm : ∀ n, n ∈ dimsAnd a b ↔ n ∈ a ∧ n ∈ b := by
    intro n
    unfold dimsAnd dimensions
    rw [h.mem]
    simp only [List.mem_filter, List.mem_append, decide_eq_true_eq]
    tauto
  refine ⟨h.nodup, hm, ?_⟩
  have heq : dimsAnd a b = a.filter (fun n => decide (n ∈ b)) := by
    symm
    refine Container.c08_unique_determined _ _ ⟨ha.filter _, ?_, ?_⟩
    · intro n
      simp only [List.mem_filter, List.mem_append, decide_eq_true_eq]
      tauto
    · intro x y hxy
      rw [List.filter_append]
      have e : a.filter (fun n => decide (n ∈ a ∧ n ∈ b)) = a.filter (fun n => decide (n ∈ b)) := by
        apply List.filter_congr; intro n hn; simp [hn]
      rw [e]
      have hx : x ∈ a.filter (fun n => decide (n ∈ b)) := hxy.subset (by simp)
      have hy : y ∈ a.filter (fun n => decide (n ∈ b)) := hxy.subset (by simp)
      rw [List.idxOf_append_of_mem hx, List.idxOf_append_of_mem hy]
      have hu := Container.c08_unique (a.filter (fun n => decide (n ∈ b)))
      have := dimensions_nodup (ha.filter (fun n => decide (n ∈ b)))
      unfold dimensions at this
      rw [this] at hu
      exact hu.order x y hxy
  rw [heq]; exact List.filter_sublist

/-- **C30**, difference: the names of the first operand that the second has not, in order. -/
theorem c30_difference (a b : List κ) (ha : a.Nodup) :
    (dimsSub a b).Nodup ∧ (∀ n, n ∈ dimsSub a b ↔ n ∈ a ∧ n ∉ b) ∧ (dimsSub a b).Sublist a := by
  unfold dimsSub
  rw [dimensions_nodup (ha.filter _)]
  exact ⟨ha.filter _, by simp, List.filter_sublist⟩

/-- **C30**, union: if the operands agree on the order of their common names, all names, in an order that agrees with
both; otherwise a `ValueError`. -/
theorem c30_union (a b : List κ) (ha : a.Nodup) (hb : b.Nodup) :
    (¬ Container.OrderConflict a b → ∃ r, dimsOr a b = .ok r ∧ Container.IsMerge a b r) ∧
    (Container.OrderConflict a b → dimsOr a b = .error .value) := by
  unfold dimsOr
  constructor
  · intro h
    cases hm : Container.merge a b with
    | error e => exact absurd ((Container.c09_merge_fails_iff a b ha hb).1 ⟨e, hm⟩) h
    | ok m =>
      have := Container.c09_merge_ok a b m ha hb hm
      exact ⟨m, by simp only [dimensions_nodup this.nodup], this⟩
  · intro h
    obtain ⟨e, he⟩ := (Container.c09_merge_fails_iff a b ha hb).2 h
    rw [he]

example : dimsOr ["x", "y"] ["y", "z"] = .ok ["x", "y", "z"] ∧ dimsOr ["x", "y"] ["y", "x"] = .error .value := by decide

/-- **C30**, replacement of a name by a new one, or by itself: the names stay distinct, in place. -/
theorem c30_replace (a : List κ) (old new : κ) (ha : a.Nodup) (hn : new ∉ a ∨ new = old) :
    dimsReplace a old new = a.map (fun n => if n = old then new else n) ∧ (dimsReplace a old new).Nodup := by
  have : (a.map (fun n => if n = old then new else n)).Nodup := by
    refine List.Nodup.map_on ?_ ha
    intro x hx y hy hxy
    by_cases h1 : x = old <;> by_cases h2 : y = old <;> simp only [h1, h2, if_true, if_false] at hxy ⊢
    · rcases hn with hn | hn
      · exact absurd (hxy ▸ hy) hn
      · rw [← hn]; exact hxy
    · rcases hn with hn | hn
      · exact absurd (hxy ▸ hx) hn
      · exact absurd (hxy.trans hn) h1
    · exact hxy
  unfold dimsReplace
  rw [dimensions_nodup this]
  exact ⟨rfl, this⟩

/-- **C30**, replacement by a name that is already there loses a dimension, without an error. -/
theorem c30_replace_existing : dimsReplace ["x", "y", "z"] "x" "z" = ["z", "y"] := by decide

/-- **C30**, insertion of a new name at a position of the list (counted from the end if negative). -/
theorem c30_insert (a : List κ) (name : κ) (i : ℤ) (ha : a.Nodup) (hn : name ∉ a) :
    ∃ b c, a = b ++ c ∧ dimsInsert a name (some i) = b ++ name :: c ∧
      dimsInsert a name none = a ++ [name] ∧
      (0 ≤ i → i ≤ a.length → (b.length : ℤ) = i) ∧ (i < 0 → -i ≤ a.length → (c.length : ℤ) = -i) := by
  have nd : ∀ b c : List κ, a = b ++ c → (b ++ name :: c).Nodup := by
    intro b c h
    have h1 : name ∉ b ++ c := h ▸ hn
    have h2 : (b ++ c).Nodup := h ▸ ha
    exact (List.perm_middle.nodup_iff).2 (List.nodup_cons.2 ⟨h1, h2⟩)
  refine ⟨_, _, (List.take_append_drop
    (if i < 0 then max (i + a.length) 0 else min i a.length).toNat a).symm, ?_, ?_, ?_, ?_⟩
  · unfold dimsInsert listInsert
    simp only
    exact dimensions_nodup (nd _ _ (List.take_append_drop _ a).symm)
  · unfold dimsInsert
    exact dimensions_nodup (nd a [] (by simp))
  · intro h1 h2
    rw [if_neg (by omega), List.length_take]; omega
  · intro h1 h2
    rw [if_pos h1, List.length_drop]; omega

example : dimsInsert ["x", "y"] "t" (some 0) = ["t", "x", "y"] ∧ dimsInsert ["x", "y"] "t" (some (-1)) = ["x", "t", "y"] := by
  decide

/-- **C30**, symmetric difference is not available: it always raises `TypeError`. -/
theorem c30_xor (a b : List κ) : dimsXor a b = .error .type := rfl

theorem namesAt_some {a : List κ} {axes : List ℤ} {names : List κ} (h : namesAt a axes = some names) :
    List.Forall₂ (fun i n => ∃ j, axisIndex a.length i = .ok j ∧ a[j]? = some n) axes names := by
  induction axes generalizing names with
  | nil => simp only [namesAt] at h; cases h; exact .nil
  | cons i is ih =>
    simp only [namesAt] at h
    split at h
    · cases h
    next j hj =>
      split at h
      next n ns hn hns => cases h; exact .cons ⟨j, hj, hn⟩ (ih hns)
      · cases h

/-- **C30**, permutation: the result has the same names; if there are as many axes as names, the name at each place is
the one at the given axis. -/
theorem c30_permute (a : List κ) (axes : List ℤ) (r : List κ) (h : dimsPermute a axes = .ok r) (ha : a.Nodup) :
    r.Perm a ∧ (axes.length = a.length →
      List.Forall₂ (fun i n => ∃ j, axisIndex a.length i = .ok j ∧ a[j]? = some n) axes r) := by
  unfold dimsPermute at h
  split at h
  · cases h
  next names hn =>
    split at h
    · cases h
    next hm =>
      cases h
      have hf := namesAt_some hn
      have hsub : ∀ n ∈ names, n ∈ a := by
        intro n hn'
        have := List.forall₂_iff_get.1 hf
        obtain ⟨k, hk, rfl⟩ := List.getElem_of_mem hn'
        obtain ⟨j, _, hj⟩ := this.2 k (by rw [this.1]; exact hk) hk
        exact List.mem_of_getElem? hj
      have hsup : ∀ n ∈ a, n ∈ names := by
        simp only [dimsMismatch, Bool.or_eq_true, Bool.and_eq_true, List.all_eq_true, decide_eq_true_eq,
          Bool.not_eq_true', not_or, not_and, Bool.not_eq_false] at hm
        have := hm.2 hsub
        simpa [List.all_eq_true] using this
      have hu := Container.c08_unique names
      refine ⟨(List.perm_ext_iff_of_nodup hu.nodup ha).2 (fun n => ?_), fun hl => ?_⟩
      · show n ∈ dimensions names ↔ _
        unfold dimensions
        rw [hu.mem]; exact ⟨hsub n, hsup n⟩
      · have hlen : names.length = a.length := by rw [← hf.length_eq, hl]
        have hnd : names.Nodup := by
          have hp : a.Subperm names := ha.subperm (fun n hn => hsup n hn)
          exact ((hp.perm_of_length_le (by omega)).nodup_iff).1 ha
        rw [dimensions_nodup hnd]; exact hf

example : dimsPermute ["x", "y", "z"] [2, 0, -2] = .ok ["z", "x", "y"] ∧ dimsPermute ["x", "y"] [0, 0] = .error .value := by
  decide

/-- **C30**, superfluous axes are ignored instead of refused. -/
theorem c30_permute_repeated : dimsPermute ["x", "y"] [0, 1, 1] = .ok ["x", "y"] := by decide

/-! ## C31: arithmetic by name -/

/-- **C31**.  If the product (quotient, ...) of two arrays is computed, it has the names of both, and at every named
position it holds `f` of the elements of the operands at that position. -/
theorem c31_aligned (f : α → β → γ) (a : Named κ α) (b : Named κ β) (r : Named κ γ) (ha : WellNamed a) (hb : WellNamed b)
    (h : multiplicative f a b = .ok r) : Combines f a b r := by
  unfold multiplicative at h
  split at h
  · cases h
  · cases h
  next ds x y hm =>
    split at h
    · cases h
    next z hz =>
      unfold remesh at hm
      split at hm
      · cases hm
      next ds' hu =>
        split at hm
        · cases hm
        next hc =>
          simp only at hm
          split at hm
          · cases hm
          next x' hx =>
            split at hm
            · cases hm
            next y' hy =>
              cases hm
              have hmerge : Container.IsMerge a.dims b.dims ds := by
                unfold unionDims at hu
                split at hu
                · cases hu
                · by_cases hoc : Container.OrderConflict a.dims b.dims
                  · rw [(c30_union _ _ ha.nodup hb.nodup).2 hoc] at hu; cases hu
                  · obtain ⟨r', hr', hmr⟩ := (c30_union _ _ ha.nodup hb.nodup).1 hoc
                    rw [hr'] at hu; cases hu; exact hmr
              obtain ⟨g, hg, hgs, hge⟩ := meshOperand_spec ha hmerge.left (fun d => le_max_left _ _) hx
              obtain ⟨k, hk, hks, hke⟩ := meshOperand_spec hb hmerge.right (fun d => le_max_right _ _) hy
              obtain ⟨hs, he⟩ := zip_mesh hg hk hz
              obtain ⟨r1, r2, r3, r4⟩ := arrayFactory_ok h hmerge.nodup
              have hw : WellNamed r := ⟨by rw [r2]; exact hmerge.nodup, by rw [r1, r2]; exact r4⟩
              have hsg : ∀ d ∈ ds, r.shapeGet d = if g d = 1 then k d else g d := by
                intro d hd
                have h1 := shape_eq hw
                rw [r1, r2, hs] at h1
                exact ((List.map_inj_left.1 h1) d hd).symm
              have hsz : ∀ d ∈ ds, r.shapeGet d = max (a.shapeGet d) (b.shapeGet d) := by
                intro d hd
                rw [hsg d hd]
                have h1 := hgs d hd
                have h2 := hks d hd
                rw [h1.1, h2.1] at *
                by_cases e1 : a.shapeGet d = 1
                · rw [if_pos e1]
                  rcases h2.2 with e | e
                  · rw [e, e1]; rfl
                  · exact e
                · rw [if_neg e1]
                  rcases h1.2 with e | e
                  · exact absurd e e1
                  · exact e
              refine ⟨hw, by rw [r2]; exact hmerge, ?_, ?_, ?_, ?_⟩
              · intro d hd
                rw [r2] at hd
                rw [sizeAlong_some hw (by rw [r2]; exact hd), hsz d hd, ← shapeGet_eq ha, ← shapeGet_eq hb]
              · intro d n hn
                by_cases hd : d ∈ a.dims
                · have hds := hmerge.left.subset hd
                  rw [sizeAlong_some ha hd] at hn
                  cases hn
                  rw [sizeAlong_some hw (by rw [r2]; exact hds), hsz d hds]
                  have := hgs d hds
                  rw [this.1] at this
                  rcases this.2 with e | e
                  · exact .inl e
                  · exact .inr (by rw [← e])
                · rw [sizeAlong_none ha hd] at hn; cases hn
              · intro d n hn
                by_cases hd : d ∈ b.dims
                · have hds := hmerge.right.subset hd
                  rw [sizeAlong_some hb hd] at hn
                  cases hn
                  rw [sizeAlong_some hw (by rw [r2]; exact hds), hsz d hds]
                  have := hks d hds
                  rw [this.1] at this
                  rcases this.2 with e | e
                  · exact .inl e
                  · exact .inr (by rw [← e])
                · rw [sizeAlong_none hb hd] at hn; cases hn
              · intro ρ hρ
                have hρ' := (has_iff hw ρ).1 hρ
                rw [r2] at hρ'
                have hlt : ∀ d ∈ ds, ρ d < if g d = 1 then k d else g d := fun d hd => by
                  rw [← hsg d hd]; exact hρ' d hd
                unfold Named.at at *
                rw [r1, r2, he ρ hlt]
                have ha' := hge (fun d => if g d = 1 then 0 else ρ d) (by
                  intro d hd
                  by_cases e : g d = 1
                  · simp [e]
                  · have := hlt d hd; rw [if_neg e] at this; simpa only [if_neg e] using this)
                have hb' := hke (fun d => if k d = 1 then 0 else ρ d) (by
                  intro d hd
                  by_cases e : k d = 1
                  · simp [e]
                  · have h1 := hlt d hd
                    simp only [if_neg e]
                    by_cases e1 : g d = 1
                    · rw [if_pos e1] at h1; exact h1
                    · rw [if_neg e1] at h1
                      have h3 := (hgs d hd).2
                      have h4 := (hks d hd).2
                      have : g d = k d := by
                        rcases h3 with h3 | h3
                        · exact absurd h3 e1
                        · rcases h4 with h4 | h4
                          · exact absurd h4 e
                          · rw [h3, h4]
                      rw [← this]; exact h1)
                rw [ha', hb']
                congr 1
                · refine at_congr (a := a) (fun d hd => ?_)
                  have := (hgs d (hmerge.left.subset hd)).1
                  rw [sizeAlong_some ha hd]
                  simp only [this, Option.some.injEq]
                · refine at_congr (a := b) (fun d hd => ?_)
                  have := (hks d (hmerge.right.subset hd)).1
                  rw [sizeAlong_some hb hd]
                  simp only [this, Option.some.injEq]

/-- An array over `x` (of length 2) and `y` (of length 3), and one over `y` and `z`. -/
def exampleXY : Named String Nat := ⟨⟨[2, 3], id⟩, ["x", "y"], false⟩
def exampleYZ : Named String Nat := ⟨⟨[3, 2], fun k => 10 * k⟩, ["y", "z"], false⟩

example : WellNamed exampleXY ∧ WellNamed exampleYZ ∧
    ((multiplicative (· + ·) exampleXY exampleYZ).map (fun r => (r.dims, r.data.shape, r.data.get [1, 2, 1]))) =
      .ok (["x", "y", "z"], [2, 3, 2], 55) := ⟨⟨by decide, rfl⟩, ⟨by decide, rfl⟩, by decide⟩

/-- **C31**, when the product is computed: the arrays agree on the order and on the lengths of their common dimensions,
no length is zero, and the names are not both default names. -/
theorem c31_computed (f : α → β → γ) (a : Named κ α) (b : Named κ β) (ha : WellNamed a) (hb : WellNamed b)
    (hp : ¬ (a.plain = true ∧ b.plain = true)) (hc : ¬ Container.OrderConflict a.dims b.dims)
    (hs : ∀ d ∈ a.dims, d ∈ b.dims → a.sizeAlong d = b.sizeAlong d)
    (h0 : ∀ d, a.sizeAlong d ≠ some 0 ∧ b.sizeAlong d ≠ some 0) : ∃ r, multiplicative f a b = .ok r := by
  obtain ⟨ds, hds, hm⟩ := (c30_union _ _ ha.nodup hb.nodup).1 hc
  have posa : ∀ d, 1 ≤ a.shapeGet d := by
    intro d
    by_cases hd : d ∈ a.dims
    · have h1 := (h0 d).1
      rw [sizeAlong_some ha hd] at h1
      simp only [ne_eq, Option.some.injEq] at h1; omega
    · rw [shapeGet_not_mem ha hd]
  have posb : ∀ d, 1 ≤ b.shapeGet d := by
    intro d
    by_cases hd : d ∈ b.dims
    · have h1 := (h0 d).2
      rw [sizeAlong_some hb hd] at h1
      simp only [ne_eq, Option.some.injEq] at h1; omega
    · rw [shapeGet_not_mem hb hd]
  have eqab : ∀ d, d ∈ a.dims → d ∈ b.dims → a.shapeGet d = b.shapeGet d := by
    intro d h1 h2
    have := hs d h1 h2
    rw [sizeAlong_some ha h1, sizeAlong_some hb h2] at this
    simpa using this
  have hmax : ∀ d, (d ∈ a.dims → max (a.shapeGet d) (b.shapeGet d) = a.shapeGet d) ∧
      (d ∈ b.dims → max (a.shapeGet d) (b.shapeGet d) = b.shapeGet d) := by
    intro d
    constructor
    · intro h1
      by_cases h2 : d ∈ b.dims
      · rw [eqab d h1 h2]; simp
      · rw [shapeGet_not_mem hb h2]; exact max_eq_left (posa d)
    · intro h2
      by_cases h1 : d ∈ a.dims
      · rw [eqab d h1 h2]; simp
      · rw [shapeGet_not_mem ha h1]; exact max_eq_right (posb d)
  have hx : ∃ x, meshOperand ds (fun d => max (a.shapeGet d) (b.shapeGet d)) a = .ok x := by
    unfold meshOperand
    split
    · exact ⟨_, rfl⟩
    · rw [if_pos]
      · exact ⟨_, rfl⟩
      · simp only [List.all_eq_true, decide_eq_true_eq]
        intro d hd
        exact le_of_eq ((hmax d).1 hd)
  have hy : ∃ y, meshOperand ds (fun d => max (a.shapeGet d) (b.shapeGet d)) b = .ok y := by
    unfold meshOperand
    split
    · exact ⟨_, rfl⟩
    · rw [if_pos]
      · exact ⟨_, rfl⟩
      · simp only [List.all_eq_true, decide_eq_true_eq]
        intro d hd
        exact le_of_eq ((hmax d).2 hd)
  obtain ⟨x, hx⟩ := hx
  obtain ⟨y, hy⟩ := hy
  have hr : remesh a b = .ok (ds, x, y) := by
    unfold remesh unionDims
    rw [if_neg hp, hds]
    simp only
    rw [if_neg, hx]
    · simp only [hy]
    · simp only [List.any_eq_true, decide_eq_true_eq, not_exists, not_and]
      rintro d hd h1 h2 h3
      have da : d ∈ a.dims := by
        by_contra hn
        rw [shapeGet_not_mem ha hn] at h1; omega
      have db : d ∈ b.dims := by
        by_contra hn
        rw [shapeGet_not_mem hb hn] at h2; omega
      exact h3 (eqab d da db)
  obtain ⟨g, hg, hgs, _⟩ := meshOperand_spec ha hm.left (fun d => le_max_left _ _) hx
  obtain ⟨k, hk, hks, _⟩ := meshOperand_spec hb hm.right (fun d => le_max_right _ _) hy
  obtain ⟨z, hz⟩ := zip_mesh_ok (f := f) hg hk (fun d hd => by
    rcases (hgs d hd).2 with e | e
    · exact .inr (.inl e)
    · rcases (hks d hd).2 with e' | e'
      · exact .inr (.inr e')
      · exact .inl (by rw [e, e']))
  obtain ⟨hsh, _⟩ := zip_mesh hg hk hz
  unfold multiplicative
  simp only [hr, hz]
  unfold arrayFactory
  rw [dimensions_nodup hm.nodup, if_pos (by rw [ND.ndim, hsh, List.length_map])]
  exact ⟨_, rfl⟩

/-- **C31**, the result does not depend on how the operands store their dimensions, beyond the order of its own. -/
theorem c31_storage_order (f : α → β → γ) (a a' : Named κ α) (b b' : Named κ β) (r r' : Named κ γ)
    (ha : WellNamed a) (hb : WellNamed b) (haa : SameByName a a') (hbb : SameByName b b')
    (h : multiplicative f a b = .ok r) (h' : multiplicative f a' b' = .ok r') : SameByName r r' := by
  have hr := c31_aligned f a b r ha hb h
  have hr' := c31_aligned f a' b' r' haa.named hbb.named h'
  have hdims : ∀ d, d ∈ r'.dims ↔ d ∈ r.dims := by
    intro d
    rw [hr.dims.mem, hr'.dims.mem, haa.dims, hbb.dims]
  have hsize : ∀ d, r'.sizeAlong d = r.sizeAlong d := by
    intro d
    by_cases hd : d ∈ r.dims
    · rw [hr.size d hd, hr'.size d ((hdims d).2 hd), haa.size, hbb.size]
    · rw [sizeAlong_none hr.named hd, sizeAlong_none hr'.named (fun h => hd ((hdims d).1 h))]
  have clip : ∀ {δ : Type} {x x' : Named κ δ} {ρ : κ → Nat}, SameByName x x' →
      (∀ d n, x.sizeAlong d = some n → n = 1 ∨ r.sizeAlong d = some n) → r.Has ρ → x'.read ρ = x.read ρ := by
    intro δ x x' ρ hx hle hρ
    unfold Named.read
    rw [show (fun d => if x'.sizeAlong d = some 1 then 0 else ρ d) =
      (fun d => if x.sizeAlong d = some 1 then 0 else ρ d) from funext (fun d => by rw [hx.size])]
    apply hx.element
    intro d n hn
    by_cases h1 : n = 1
    · subst h1; simp [hn]
    · show (if x.sizeAlong d = some 1 then 0 else ρ d) < n
      rw [if_neg (by rw [hn]; simpa using h1)]
      rcases hle d n hn with e | e
      · exact absurd e h1
      · exact hρ d n e
  refine ⟨hr'.named, hdims, hsize, ?_⟩
  intro ρ hρ
  rw [hr.element ρ hρ, hr'.element ρ (by intro d n hn; rw [hsize] at hn; exact hρ d n hn),
    clip haa hr.left hρ, clip hbb hr.right hρ]

/-- **C31** does not hold along a common dimension in which only one of the arrays has length one (unless that array
has a single element): numpy would broadcast it, and the code raises `IndexError`. -/
theorem c31_length_one :
    (multiplicative (· * ·) (⟨⟨[3, 1], id⟩, ["x", "y"], false⟩ : Named String Nat) ⟨⟨[4], id⟩, ["y"], false⟩).map
      (fun r => r.dims) = .error .index ∧
    (multiplicative (· * ·) (⟨⟨[1, 1], id⟩, ["x", "y"], false⟩ : Named String Nat) ⟨⟨[4], id⟩, ["y"], false⟩).map
      (fun r => r.data.shape) = .ok [1, 4] := by decide

/-- **C31** does not hold for two arrays with default names, or with names from `transpose`: their names are plain
tuples, which have no union. -/
theorem c31_default_names (f : α → β → γ) (a : Named κ α) (b : Named κ β) (ha : a.plain = true) (hb : b.plain = true) :
    multiplicative f a b = .error .operand := by
  unfold multiplicative remesh unionDims
  rw [if_pos ⟨ha, hb⟩]

/-- **C31**, sums and differences are only formed for the same dimensions in the same order; for arrays of the same
shape they combine the elements at the same position. -/
theorem c31_additive (f : α → β → γ) (a : Named κ α) (b : Named κ β) (ha : WellNamed a) (hb : WellNamed b) :
    (a.dims ≠ b.dims → additive f a b = .error .value) ∧
    (a.dims = b.dims → a.data.shape = b.data.shape → ∃ r, additive f a b = .ok r ∧ WellNamed r ∧ r.dims = a.dims ∧
      r.data.shape = a.data.shape ∧ ∀ ρ, r.Has ρ → r.at ρ = f (a.at ρ) (b.at ρ)) := by
  constructor
  · intro h; unfold additive; rw [if_pos h]
  · intro hd hsh
    have hga := shape_eq ha
    have hgb : b.data.shape = a.dims.map a.shapeGet := by rw [← hsh, hga]
    obtain ⟨z, hz⟩ := zip_mesh_ok (f := f) hga hgb (fun d _ => .inl rfl)
    obtain ⟨hs, he⟩ := zip_mesh hga hgb hz
    have hs' : z.shape = a.dims.map a.shapeGet := by rw [hs]; apply List.map_congr_left; intro d _; simp
    have hn : z.ndim = a.dims.length := by rw [ND.ndim, hs', List.length_map]
    refine ⟨⟨z, a.dims, false⟩, ?_, ⟨ha.nodup, hn.symm⟩, rfl, ?_, ?_⟩
    · unfold additive arrayFactory
      rw [if_neg (by simpa using hd), hz]
      simp only
      rw [dimensions_nodup ha.nodup, if_pos hn.symm]
    · show z.shape = _; rw [hs', ← hga]
    · intro ρ hρ
      have hw : WellNamed (⟨z, a.dims, false⟩ : Named κ γ) := ⟨ha.nodup, hn.symm⟩
      have hρ' := (has_iff hw ρ).1 hρ
      have hsg : ∀ d ∈ a.dims, (⟨z, a.dims, false⟩ : Named κ γ).shapeGet d = a.shapeGet d := by
        have h1 := shape_eq hw
        simp only [hs'] at h1
        intro d hd
        exact ((List.map_inj_left.1 h1) d hd).symm
      have hlt : ∀ d ∈ a.dims, ρ d < a.shapeGet d := fun d hd => by rw [← hsg d hd]; exact hρ' d hd
      have hclip : a.dims.map (fun d => if a.shapeGet d = 1 then 0 else ρ d) = a.dims.map ρ := by
        apply List.map_congr_left
        intro d hd
        by_cases e : a.shapeGet d = 1
        · have := hlt d hd; simp only [e, if_true]; omega
        · simp [e]
      unfold Named.at
      simp only
      rw [he ρ (fun d hd => by simpa using hlt d hd), hclip, hd]

/-- **C31**, arithmetic with a number and unary operations keep the dimensions and act on each element. -/
theorem c31_scalar (f : α → β → γ) (g : α → γ) (a : Named κ α) (x : β) (ha : WellNamed a) :
    (∃ r, scaleBy f a x = .ok r ∧ WellNamed r ∧ r.dims = a.dims ∧ r.data.shape = a.data.shape ∧
      ∀ ρ, r.at ρ = f (a.at ρ) x) ∧
    (∃ r, unary g a = .ok r ∧ WellNamed r ∧ r.dims = a.dims ∧ r.data.shape = a.data.shape ∧
      ∀ ρ, r.at ρ = g (a.at ρ)) := by
  constructor
  · refine ⟨⟨a.data.map (fun y => f y x), a.dims, false⟩, ?_, ⟨ha.nodup, ha.length⟩, rfl, rfl, fun ρ => rfl⟩
    unfold scaleBy arrayFactory
    rw [dimensions_nodup ha.nodup, if_pos (show a.dims.length = (a.data.map (fun y => f y x)).ndim from ha.length)]
  · refine ⟨⟨a.data.map g, a.dims, false⟩, ?_, ⟨ha.nodup, ha.length⟩, rfl, rfl, fun ρ => rfl⟩
    unfold unary arrayFactory
    rw [dimensions_nodup ha.nodup, if_pos (show a.dims.length = (a.data.map g).ndim from ha.length)]

end Eprem.Numeric
