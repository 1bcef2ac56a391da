import Verif.Spec.NamedArray
import Verif.Lemmas.Numpy
import Verif.Props.Container

/-! # Lemmas about arrays with named dimensions -/

namespace Eprem.Numeric

open Eprem

variable {κ α β γ : Type} [DecidableEq κ]

/-! ## Names and sizes -/

theorem dimensions_nodup {l : List κ} (h : l.Nodup) : dimensions l = l :=
  (Container.c08_unique_determined l l ⟨h, fun _ => Iff.rfl, fun a b hab => by
    obtain ⟨i, j, hij⟩ : ∃ i j, i < j ∧ l[i]? = some a ∧ l[j]? = some b := by
      obtain ⟨f, hf⟩ := List.sublist_iff_exists_orderEmbedding_getElem?_eq.1 hab
      exact ⟨f 0, f 1, f.lt_iff_lt.2 (by omega), by simpa using (hf 0).symm, by simpa using (hf 1).symm⟩
    obtain ⟨hlt, hi, hj⟩ := hij
    obtain ⟨h1, rfl⟩ := List.getElem?_eq_some_iff.1 hi
    obtain ⟨h2, rfl⟩ := List.getElem?_eq_some_iff.1 hj
    rw [h.idxOf_getElem, h.idxOf_getElem]; exact hlt⟩).symm

theorem get?_zip {ν : Type} (ks : List κ) (vs : List ν) (h : ks.length = vs.length) (d : κ) :
    Dict.get? (ks.zip vs) d = vs[ks.idxOf d]? := by
  induction ks generalizing vs with
  | nil => cases vs with
    | nil => rfl
    | cons => simp at h
  | cons k ks ih => cases vs with
    | nil => simp at h
    | cons v vs =>
      simp only [List.zip_cons_cons, Dict.get?, List.idxOf_cons]
      by_cases hk : k = d
      · simp [hk]
      · have : (k == d) = false := by simpa using hk
        rw [this]
        simp only [Bool.cond_false, List.getElem?_cons_succ]
        rw [if_neg hk]
        exact ih vs (by simpa using h)

theorem shapeGet_eq {a : Named κ α} (h : WellNamed a) (d : κ) : a.shapeGet d = (a.sizeAlong d).getD 1 := by
  unfold Named.shapeGet Named.sizeAlong
  rw [get?_zip _ _ h.length]

theorem sizeAlong_some {a : Named κ α} (h : WellNamed a) {d : κ} (hd : d ∈ a.dims) :
    a.sizeAlong d = some (a.shapeGet d) := by
  have hi := List.idxOf_lt_length_of_mem hd
  rw [shapeGet_eq h]
  unfold Named.sizeAlong
  rw [List.getElem?_eq_getElem (by rw [← h.length]; exact hi)]
  rfl

theorem sizeAlong_none {a : Named κ α} (h : WellNamed a) {d : κ} (hd : d ∉ a.dims) : a.sizeAlong d = none := by
  unfold Named.sizeAlong
  rw [List.idxOf_eq_length hd, h.length, List.getElem?_eq_none (le_refl _)]

theorem shapeGet_not_mem {a : Named κ α} (h : WellNamed a) {d : κ} (hd : d ∉ a.dims) : a.shapeGet d = 1 := by
  rw [shapeGet_eq h, sizeAlong_none h hd]; rfl

/-- the shape in terms of the names -/
theorem shape_eq {a : Named κ α} (h : WellNamed a) : a.data.shape = a.dims.map a.shapeGet := by
  apply List.ext_getElem
  · rw [List.length_map, h.length]
  · intro i h1 h2
    rw [List.getElem_map]
    have hi : i < a.dims.length := by rw [h.length]; exact h1
    rw [shapeGet_eq h]
    unfold Named.sizeAlong
    rw [h.nodup.idxOf_getElem, List.getElem?_eq_getElem h1]
    rfl

theorem has_iff {a : Named κ α} (h : WellNamed a) (ρ : κ → Nat) : a.Has ρ ↔ ∀ d ∈ a.dims, ρ d < a.shapeGet d := by
  constructor
  · intro hh d hd; exact hh d _ (sizeAlong_some h hd)
  · intro hh d n hn
    by_cases hd : d ∈ a.dims
    · have := sizeAlong_some h hd
      rw [this] at hn; cases hn; exact hh d hd
    · rw [sizeAlong_none h hd] at hn; cases hn

theorem valid_map {ds : List κ} {ρ g : κ → Nat} : Valid (ds.map ρ) (ds.map g) ↔ ∀ d ∈ ds, ρ d < g d := by
  induction ds with
  | nil => simp [Valid]
  | cons d ds ih => simp [valid_cons, ih]

theorem getD_map_idxOf {ds : List κ} {ρ : κ → Nat} {d : κ} (h : d ∈ ds) : (ds.map ρ).getD (ds.idxOf d) 0 = ρ d := by
  have hi := List.idxOf_lt_length_of_mem h
  rw [List.getD_eq_getElem?_getD, List.getElem?_map, List.getElem?_eq_getElem hi, List.getElem_idxOf]
  rfl

theorem clipTo_map (ds : List κ) (g ρ : κ → Nat) :
    clipTo (ds.map g) (ds.map ρ) = ds.map (fun d => if g d = 1 then 0 else ρ d) := by
  induction ds with
  | nil => rfl
  | cons d ds ih => simp only [List.map_cons, clipTo, ih]

theorem broadcastShape_map {ds : List κ} {g h : κ → Nat} {s : List Nat}
    (hs : broadcastShape (ds.map g) (ds.map h) = .ok s) :
    s = ds.map (fun d => if g d = 1 then h d else g d) := by
  induction ds generalizing s with
  | nil => simp only [List.map_nil, broadcastShape] at hs; cases hs; rfl
  | cons d ds ih =>
    simp only [List.map_cons, broadcastShape] at hs
    split at hs
    · cases hs
    next k hk =>
      split at hs
      · cases hs
      next r hr =>
        cases hs
        rw [List.map_cons, ih hr]
        congr 1
        unfold broadcastDim at hk
        split at hk
        · cases hk; rename_i e; rw [e]; simp
        · split at hk
          · cases hk; simp [*]
          · split at hk
            · cases hk; simp [*]
            · cases hk

theorem broadcastShape_ok {ds : List κ} {g h : κ → Nat} (hgh : ∀ d ∈ ds, g d = h d ∨ g d = 1 ∨ h d = 1) :
    ∃ s, broadcastShape (ds.map g) (ds.map h) = .ok s := by
  induction ds with
  | nil => exact ⟨[], rfl⟩
  | cons d ds ih =>
    obtain ⟨s, hs⟩ := ih (fun x hx => hgh x (List.mem_cons_of_mem _ hx))
    have : ∃ k, broadcastDim (g d) (h d) = .ok k := by
      unfold broadcastDim
      rcases hgh d (by simp) with e | e | e
      · exact ⟨_, if_pos e⟩
      · by_cases e' : g d = h d
        · exact ⟨_, if_pos e'⟩
        · exact ⟨_, by rw [if_neg e', if_pos e]⟩
      · by_cases e' : g d = h d
        · exact ⟨_, if_pos e'⟩
        · by_cases e'' : g d = 1
          · exact ⟨_, by rw [if_neg e', if_pos e'']⟩
          · exact ⟨_, by rw [if_neg e', if_neg e'', if_pos e]⟩
    obtain ⟨k, hk⟩ := this
    exact ⟨k :: s, by simp only [List.map_cons, broadcastShape, hk, hs]⟩

theorem sizeOf_eq_one {s : List Nat} (h : sizeOf s = 1) : ∀ n ∈ s, n = 1 := by
  induction s with
  | nil => simp
  | cons n s ih =>
    rw [sizeOf_cons] at h
    have : n = 1 ∧ sizeOf s = 1 := ⟨Nat.dvd_one.1 ⟨_, h.symm⟩, Nat.dvd_one.1 ⟨n, by rw [Nat.mul_comm]; exact h.symm⟩⟩
    intro m hm
    rcases List.mem_cons.1 hm with rfl | hm
    · exact this.1
    · exact ih this.2 m hm

theorem map_zero {ds : List κ} {ρ : κ → Nat} (h : ∀ d ∈ ds, ρ d = 0) : ds.map ρ = List.replicate ds.length 0 :=
  List.eq_replicate_iff.2 ⟨by simp, fun b hb => by obtain ⟨d, hd, rfl⟩ := List.mem_map.1 hb; exact h d hd⟩

/-- One operand of `remesh`: its shape over the merged dimensions, and its elements. -/
theorem meshOperand_spec {ds : List κ} {shape : κ → Nat} {a : Named κ α} {x : ND α} (ha : WellNamed a)
    (hsub : a.dims.Sublist ds) (hge : ∀ d, a.shapeGet d ≤ shape d) (hx : meshOperand ds shape a = .ok x) :
    ∃ g : κ → Nat, x.shape = ds.map g ∧ (∀ d ∈ ds, (g d = a.shapeGet d) ∧ (g d = 1 ∨ g d = shape d)) ∧
      ∀ ρ, (∀ d ∈ ds, ρ d < g d) → x.get (ds.map ρ) = a.at ρ := by
  unfold meshOperand at hx
  split at hx
  next h1 =>
    cases hx
    have ones : ∀ d, a.shapeGet d = 1 := by
      intro d
      by_cases hd : d ∈ a.dims
      · refine sizeOf_eq_one h1 _ ?_
        rw [shape_eq ha]; exact List.mem_map.2 ⟨d, hd, rfl⟩
      · exact shapeGet_not_mem ha hd
    have hl : a.dims.length ≤ ds.length := hsub.length_le
    refine ⟨fun _ => 1, ?_, fun d _ => ⟨(ones d).symm, Or.inl rfl⟩, ?_⟩
    · unfold ND.atLeast
      have : a.data.shape = List.replicate a.dims.length 1 := by
        rw [shape_eq ha]
        exact List.eq_replicate_iff.2 ⟨by simp, fun b hb => by obtain ⟨d, _, rfl⟩ := List.mem_map.1 hb; exact ones d⟩
      show List.replicate (ds.length - a.data.shape.length) 1 ++ a.data.shape = _
      rw [← ha.length, this, List.replicate_append_replicate, List.map_const']
      congr 1; omega
    · intro ρ hρ
      have h0 : ∀ d ∈ ds, ρ d = 0 := fun d hd => by have := hρ d hd; simp only at this; omega
      unfold Named.at
      rw [map_zero h0, map_zero (fun d hd => h0 d (hsub.subset hd)), ← get_atLeast a.data ds.length]
      congr 1
      show _ = List.replicate (ds.length - a.data.shape.length) 0 ++ _
      rw [← ha.length, List.replicate_append_replicate]
      congr 1; omega
  next h1 =>
    split at hx
    next hall =>
      cases hx
      simp only [List.all_eq_true, decide_eq_true_eq] at hall
      have heq : ∀ d ∈ a.dims, shape d = a.shapeGet d := fun d hd => le_antisymm (hall d hd) (hge d)
      refine ⟨fun d => if d ∈ a.dims then shape d else 1, rfl, ?_, ?_⟩
      · intro d _
        by_cases hd : d ∈ a.dims
        · simp only [if_pos hd]; exact ⟨heq d hd, Or.inr trivial⟩
        · simp only [if_neg hd]; exact ⟨(shapeGet_not_mem ha hd).symm, Or.inl trivial⟩
      · intro ρ hρ
        rw [get_ofFn (valid_map.2 hρ)]
        unfold Named.at
        congr 1
        apply List.map_congr_left
        intro d hd
        exact getD_map_idxOf (hsub.subset hd)
    next => cases hx

theorem at_congr {a : Named κ α} {ρ σ : κ → Nat} (h : ∀ d ∈ a.dims, ρ d = σ d) : a.at ρ = a.at σ := by
  unfold Named.at
  rw [List.map_congr_left h]

theorem arrayFactory_ok {data : ND α} {ds : List κ} {r : Named κ α} (h : arrayFactory data ds = .ok r) (hn : ds.Nodup) :
    r.data = data ∧ r.dims = ds ∧ r.plain = false ∧ ds.length = data.ndim := by
  unfold arrayFactory at h
  rw [dimensions_nodup hn] at h
  split at h
  next hl => cases h; exact ⟨rfl, rfl, rfl, hl⟩
  next => cases h

/-- the elements of the result of a numpy operation on two meshes -/
theorem zip_mesh {ds : List κ} {f : α → β → γ} {x : ND α} {y : ND β} {r : ND γ} {g h : κ → Nat}
    (hx : x.shape = ds.map g) (hy : y.shape = ds.map h) (hr : ND.zip f x y = .ok r) :
    r.shape = ds.map (fun d => if g d = 1 then h d else g d) ∧
    ∀ ρ, (∀ d ∈ ds, ρ d < if g d = 1 then h d else g d) →
      r.get (ds.map ρ) = f (x.get (ds.map (fun d => if g d = 1 then 0 else ρ d)))
        (y.get (ds.map (fun d => if h d = 1 then 0 else ρ d))) := by
  unfold ND.zip at hr
  have h1 : x.atLeast y.ndim = x := atLeast_self _ _ (by simp [ND.ndim, hx, hy])
  simp only [h1] at hr
  have h2 : y.atLeast x.ndim = y := atLeast_self _ _ (by simp [ND.ndim, hx, hy])
  simp only [h2, hx, hy] at hr
  split at hr
  · cases hr
  next s hs =>
    cases hr
    have := broadcastShape_map hs
    subst this
    refine ⟨rfl, fun ρ hρ => ?_⟩
    rw [get_ofFn (valid_map.2 hρ), clipTo_map, clipTo_map]

theorem zip_mesh_ok {ds : List κ} {f : α → β → γ} {x : ND α} {y : ND β} {g h : κ → Nat}
    (hx : x.shape = ds.map g) (hy : y.shape = ds.map h) (hgh : ∀ d ∈ ds, g d = h d ∨ g d = 1 ∨ h d = 1) :
    ∃ r, ND.zip f x y = .ok r := by
  unfold ND.zip
  have h1 : x.atLeast y.ndim = x := atLeast_self _ _ (by simp [ND.ndim, hx, hy])
  simp only [h1]
  have h2 : y.atLeast x.ndim = y := atLeast_self _ _ (by simp [ND.ndim, hx, hy])
  simp only [h2, hx, hy]
  obtain ⟨s, hs⟩ := broadcastShape_ok hgh
  exact ⟨_, by rw [hs]⟩

end Eprem.Numeric
