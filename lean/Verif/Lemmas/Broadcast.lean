import Verif.Spec.Transport
import Verif.Lemmas.ObservableAlgebra
import Verif.Lemmas.Distribution

/-!
# Products of arrays of different sizes, and with different axes
-/

namespace Eprem.Observable

open Eprem Eprem.Symbolic Eprem.Metric Eprem.Numeric Eprem.Measured Eprem.Physical

variable {κ ν : Type} [DecidableEq κ]

/-- The product with an array of one element is computed. -/
theorem computed_single {α β γ : Type} (f : α → β → γ) (a : Named κ α) (b : Named κ β) (ha : WellNamed a) (hb : WellNamed b)
    (hp : ¬ (a.plain = true ∧ b.plain = true)) (hc : ¬ Container.OrderConflict a.dims b.dims)
    (hs : ∀ d, b.shapeGet d = 1) (hz : b.data.size = 1)
    (h0 : ∀ d, a.sizeAlong d ≠ some 0) : ∃ r, Numeric.multiplicative f a b = .ok r := by
  obtain ⟨ds, hds, hm⟩ := (c30_union _ _ ha.nodup hb.nodup).1 hc
  have posa : ∀ d, 1 ≤ a.shapeGet d := by
    intro d
    by_cases hd : d ∈ a.dims
    · have h1 := h0 d
      rw [sizeAlong_some ha hd] at h1
      simp only [ne_eq, Option.some.injEq] at h1; omega
    · rw [shapeGet_not_mem ha hd]
  have hx : ∃ x, meshOperand ds (fun d => max (a.shapeGet d) (b.shapeGet d)) a = .ok x := by
    unfold meshOperand
    split
    · exact ⟨_, rfl⟩
    · rw [if_pos]
      · exact ⟨_, rfl⟩
      · simp only [List.all_eq_true, decide_eq_true_eq]
        intro d hd
        rw [hs d]
        exact le_of_eq (max_eq_left (posa d))
  have hy : ∃ y, meshOperand ds (fun d => max (a.shapeGet d) (b.shapeGet d)) b = .ok y := by
    unfold meshOperand
    rw [if_pos hz]
    exact ⟨_, rfl⟩
  obtain ⟨x, hx⟩ := hx
  obtain ⟨y, hy⟩ := hy
  have hr : remesh a b = .ok (ds, x, y) := by
    unfold remesh unionDims
    rw [if_neg hp, hds]
    simp only
    rw [if_neg, hx]
    · simp only [hy]
    · simp only [List.any_eq_true, decide_eq_true_eq, not_exists, not_and]
      rintro d hd h1 h2 h3
      rw [hs d] at h2
      omega
  obtain ⟨g, hg, hgs, _⟩ := meshOperand_spec ha hm.left (fun d => le_max_left _ _) hx
  obtain ⟨k, hk, hks, _⟩ := meshOperand_spec hb hm.right (fun d => le_max_right _ _) hy
  obtain ⟨z, hz⟩ := zip_mesh_ok (f := f) hg hk (fun d hd => by
    rcases (hgs d hd).2 with e | e
    · exact .inr (.inl e)
    · rcases (hks d hd).2 with e' | e'
      · exact .inr (.inr e')
      · exact .inl (by rw [e, e']))
  obtain ⟨hsh, _⟩ := zip_mesh hg hk hz
  unfold Numeric.multiplicative
  simp only [hr, hz]
  unfold arrayFactory
  rw [dimensions_nodup hm.nodup, if_pos (by rw [ND.ndim, hsh, List.length_map])]
  exact ⟨_, rfl⟩

/-- The position that is read of an array on a grid whose dimensions may have length one. -/
def Grid.clip (G : Grid κ ν) (p : κ → Nat) : κ → Nat := fun d => if G.size d = 1 then 0 else p d

theorem sizeOf_ones {s : List Nat} (h : ∀ n ∈ s, n = 1) : Numeric.sizeOf s = 1 := by
  induction s with
  | nil => rfl
  | cons n s ih =>
    have h1 := h n (by simp)
    have h2 := ih (fun n hn => h n (by simp [hn]))
    subst h1
    simpa [Numeric.sizeOf] using h2

/-- The product of arrays on two grids that agree about the sizes, except that the second may have a single element.  The axes
are those of the second array, if it has them. -/
theorem mul_grids (order : List System) (tm : Bool) (f : ℝ → ℝ → ℝ) {G₁ G₂ G₃ : Grid κ ν} {d1 d2 d3 : List κ}
    {u v w : List Term} {g h : (κ → Nat) → ℝ} {a b : Operand κ ν ℝ} (ha : OnGrid G₁ d1 u g a) (hb : OnGrid G₂ d2 v h b)
    (hm : Container.merge d1 d2 = .ok d3) (hu : combineUnits order tm u v = .ok w)
    (hsz : (∀ d ∈ d1, d ∈ d2 → G₁.size d = G₂.size d) ∨ ∀ d ∈ d2, G₂.size d = 1)
    (h1 : ∀ d ∈ d1, G₃.size d = G₁.size d) (h2 : ∀ d ∈ d2, d ∉ d1 → G₃.size d = G₂.size d)
    (x2 : ∀ d ∈ d2, G₃.axis d = G₂.axis d) (x1 : ∀ d ∈ d1, d ∉ d2 → G₃.axis d = G₁.axis d) :
    ∃ r, Physical.multiplicative order tm f a b = .ok r ∧ OnGrid G₃ d3 w (fun p => f (g (G₁.clip p)) (h (G₂.clip p))) r := by
  obtain ⟨hn, c, rfl, hp, hd, hs, hax, hcu, hg⟩ := ha
  obtain ⟨hn', c', rfl, hp', hd', hs', hax', hcu', hh⟩ := hb
  have hM := Container.c09_merge_ok d1 d2 d3 hn hn' hm
  have hc : ¬ Container.OrderConflict d1 d2 := fun hc => by
    obtain ⟨e, he⟩ := (Container.c09_merge_fails_iff d1 d2 hn hn').2 hc
    rw [he] at hm; cases hm
  have w1 := OnGrid.wellNamed hn hd hs
  have w2 := OnGrid.wellNamed hn' hd' hs'
  have e1 : c.arr.data.dims = d1 := hd
  have e2 : c'.arr.data.dims = d2 := hd'
  have s1 : c.arr.data.data.shape = d1.map G₁.size := hs
  have s2 : c'.arr.data.data.shape = d2.map G₂.size := hs'
  have z1 : ∀ d, c.arr.data.sizeAlong d ≠ some 0 := by
    intro d
    by_cases hdd : d ∈ d1
    · rw [sizeAlong_grid e1 s1 hdd]; intro h0; have := G₁.pos d; simp at h0; omega
    · rw [sizeAlong_none w1 (by rw [e1]; exact hdd)]; nofun
  have z2 : ∀ d, c'.arr.data.sizeAlong d ≠ some 0 := by
    intro d
    by_cases hdd : d ∈ d2
    · rw [sizeAlong_grid e2 s2 hdd]; intro h0; have := G₂.pos d; simp at h0; omega
    · rw [sizeAlong_none w2 (by rw [e2]; exact hdd)]; nofun
  have hpl : ¬ (c.arr.data.plain = true ∧ c'.arr.data.plain = true) := by
    rintro ⟨h1, _⟩
    have : c.arr.raw.plain = true := h1
    rw [hp] at this; cases this
  obtain ⟨r, hr1⟩ : ∃ r, Numeric.multiplicative f c.arr.data c'.arr.data = .ok r := by
    rcases hsz with hsz | hsz
    · exact c31_computed f c.arr.data c'.arr.data w1 w2 hpl (by rw [e1, e2]; exact hc)
        (fun d h1 h2 => by
          rw [sizeAlong_grid e1 s1 (e1 ▸ h1), sizeAlong_grid e2 s2 (e2 ▸ h2), hsz d (e1 ▸ h1) (e2 ▸ h2)])
        (fun d => ⟨z1 d, z2 d⟩)
    · refine computed_single f c.arr.data c'.arr.data w1 w2 hpl (by rw [e1, e2]; exact hc) (fun d => ?_) ?_ z1
      · by_cases hdd : d ∈ d2
        · have := sizeAlong_some w2 (e2 ▸ hdd : d ∈ c'.arr.data.dims)
          rw [sizeAlong_grid e2 s2 hdd, hsz d hdd] at this
          exact (Option.some.inj this).symm
        · exact shapeGet_not_mem w2 (by rw [e2]; exact hdd)
      · rw [ND.size, s2]
        refine sizeOf_ones (fun n hn => ?_)
        obtain ⟨d, hd, rfl⟩ := List.mem_map.1 hn
        exact hsz d hd
  have hC := c31_aligned f _ _ _ w1 w2 hr1
  have hrd : r.dims = d3 := by
    have := multiplicative_dims w1 w2 hr1
    rw [e1, e2, hm] at this
    exact (Except.ok.inj this).symm
  have hsz' : ∀ d ∈ d3, r.sizeAlong d = some (G₃.size d) := by
    intro d hdm
    rw [hC.size d (hrd ▸ hdm)]
    congr 1
    have hpd := G₁.pos d
    have hpd2 := G₂.pos d
    by_cases k1 : d ∈ d1
    · rw [sizeAlong_grid e1 s1 k1, h1 d k1]
      by_cases k2 : d ∈ d2
      · rw [sizeAlong_grid e2 s2 k2]
        rcases hsz with hsz | hsz
        · rw [hsz d k1 k2]; simp
        · rw [hsz d k2]; simp; omega
      · rw [sizeAlong_none w2 (by rw [e2]; exact k2)]; simp; omega
    · have k2 := ((hM.mem d).1 hdm).resolve_left k1
      rw [sizeAlong_none w1 (by rw [e1]; exact k1), h2 d k2 k1]
      rw [sizeAlong_grid e2 s2 k2]; simp; omega
  have hrs : r.data.shape = d3.map G₃.size := by
    rw [shape_eq hC.named, hrd]
    apply List.map_congr_left
    intro d hdm
    rw [shapeGet_eq hC.named, hsz' d hdm]; rfl
  obtain ⟨axes, m1, m2, m3, m4⟩ := Axes.union_aux (G₁.axes d1) (G₂.axes d2)
    (by unfold Dict.WF; rw [keys_axes]; exact hn) (by unfold Dict.WF; rw [keys_axes]; exact hn')
    (by rw [keys_axes, keys_axes]; exact hc)
  have hk : axes.keys = d3 := by rw [keys_axes, keys_axes, hm] at m2; exact (Except.ok.inj m2).symm
  have haxes : axes = G₃.axes d3 := by
    refine get_eq_dict (by rw [hk, keys_axes]) (by unfold Dict.WF; rw [hk]; exact hM.nodup) (fun k hkm => ?_)
    rw [hk] at hkm
    rw [get_axes hkm, m4 k]
    by_cases k2 : k ∈ d2
    · rw [get_axes k2, x2 k k2]
    · have : (G₂.axes d2).get? k = none := by rw [Dict.get?_eq_none, keys_axes]; exact k2
      rw [this]
      have k1 := ((hM.mem k).1 hkm).resolve_right k2
      rw [x1 k k1 k2]
      exact get_axes k1
  obtain ⟨z, hz1, hz2⟩ := newArray_grid (u := w) hM.nodup hrs (g := fun p => f (g (G₁.clip p)) (h (G₂.clip p))) (fun pos hpos => by
    have hh1 : r.Has pos := (has_iff hC.named pos).2 (fun d hdm => by
      rw [shapeGet_eq hC.named, hsz' d (hrd ▸ hdm)]
      exact hpos d (hrd ▸ hdm))
    have := hC.element pos hh1
    unfold Named.read at this
    have r1 : c.arr.data.at (fun d => if c.arr.data.sizeAlong d = some 1 then 0 else pos d) = g (G₁.clip pos) := by
      have hpe : c.arr.data.at (fun d => if c.arr.data.sizeAlong d = some 1 then 0 else pos d) = c.arr.data.at (G₁.clip pos) := by
        unfold Named.at
        congr 1
        apply List.map_congr_left
        intro d hdm
        rw [sizeAlong_grid e1 s1 (e1 ▸ hdm), Grid.clip]
        simp
      rw [hpe]
      refine hg _ (fun d hdm => ?_)
      unfold Grid.clip
      split
      · exact G₁.pos d
      · have := hpos d ((hM.mem d).2 (.inl hdm))
        rwa [h1 d hdm] at this
    have r2 : c'.arr.data.at (fun d => if c'.arr.data.sizeAlong d = some 1 then 0 else pos d) = h (G₂.clip pos) := by
      have hpe : c'.arr.data.at (fun d => if c'.arr.data.sizeAlong d = some 1 then 0 else pos d) = c'.arr.data.at (G₂.clip pos) := by
        unfold Named.at
        congr 1
        apply List.map_congr_left
        intro d hdm
        rw [sizeAlong_grid e2 s2 (e2 ▸ hdm), Grid.clip]
        simp
      rw [hpe]
      refine hh _ (fun d hdm => ?_)
      unfold Grid.clip
      split
      · exact G₂.pos d
      · rename_i hne
        have := hpos d ((hM.mem d).2 (.inr hdm))
        by_cases k1 : d ∈ d1
        · rw [h1 d k1] at this
          rcases hsz with hsz | hsz
          · rwa [hsz d k1 hdm] at this
          · exact absurd (hsz d hdm) hne
        · rwa [h2 d hdm k1] at this
    rw [r1, r2] at this
    rw [← this, Named.at, hrd])
  refine ⟨z, ?_, hz2⟩
  simp only [Physical.multiplicative, Operand.unit, hcu, hcu', hu, multiplyMeasured, hr1, hax, hax', m1, haxes]
  exact hz1

theorem single_atLeast {a b : ND ℝ} (hb : b.shape = [1]) (ha : a.shape ≠ []) :
    a.atLeast b.ndim = a ∧ (b.atLeast a.ndim).shape = List.replicate a.shape.length 1 := by
  have hl : 1 ≤ a.shape.length := List.length_pos_iff.2 ha
  constructor
  · unfold ND.atLeast ND.ndim
    rw [hb, List.length_singleton, Nat.sub_eq_zero_of_le hl]
    rfl
  · unfold ND.atLeast ND.ndim
    rw [hb, List.length_singleton]
    obtain ⟨n, hn⟩ : ∃ n, a.shape.length = n + 1 := ⟨a.shape.length - 1, by omega⟩
    rw [hn, Nat.add_sub_cancel, List.replicate_succ']

theorem single_spread {b : ND ℝ} (hb : b.shape = [1]) {p : List Nat} (hp : p ≠ []) : b.spread p = b.get [0] := by
  unfold ND.spread trail
  rw [hb]
  have : ∃ i, p.drop (p.length - [1].length) = [i] := by
    refine List.length_eq_one_iff.1 ?_
    have : 1 ≤ p.length := List.length_pos_iff.2 hp
    rw [List.length_drop, List.length_singleton]; omega
  obtain ⟨i, hi⟩ := this
  rw [hi]
  rfl

theorem zip_single (f : ℝ → ℝ → ℝ) (a b : ND ℝ) (hb : b.shape = [1]) (ha : a.shape ≠ []) :
    ∃ r, ND.zip f a b = .ok r ∧ r.shape = a.shape ∧ ∀ p, Valid p a.shape → r.get p = f (a.get p) (b.get [0]) := by
  obtain ⟨h1, h2⟩ := single_atLeast hb ha
  obtain ⟨r, hr⟩ : ∃ r, ND.zip f a b = .ok r := by
    unfold ND.zip
    simp only [h1, h2, broadcast_ones]
    exact ⟨_, rfl⟩
  have hs : r.shape = a.shape := by
    have h := hr
    unfold ND.zip at h
    simp only [h1, h2, broadcast_ones] at h
    cases h
    rfl
  refine ⟨r, hr, hs, fun p hp => ?_⟩
  rw [(zip_spread hr).2 p (hs ▸ hp), spread_self hp, single_spread hb]
  rintro rfl
  have := hp.length_eq
  simp at this
  exact ha (by simpa using this.symm)

/-- The values of an array depend on the position in its own dimensions only. -/
theorem OnGrid.own {G : Grid κ ν} {dims : List κ} {u : List Term} {g : (κ → Nat) → ℝ} {a : Operand κ ν ℝ} (h : OnGrid G dims u g a)
    {p p' : κ → Nat} (hp : G.Inside dims p) (he : ∀ d ∈ dims, p' d = p d) : g p' = g p := by
  obtain ⟨hn, c, rfl, hpl, hd, hs, hax, hcu, hg⟩ := h
  rw [← hg p hp, ← hg p' (fun d hdm => by rw [he d hdm]; exact hp d hdm)]
  unfold Named.at
  have hd' : c.arr.data.dims = dims := hd
  rw [hd', List.map_congr_left he]

theorem OnGrid.eq_inside {G : Grid κ ν} {dims : List κ} {u : List Term} {g h : (κ → Nat) → ℝ} {a : Operand κ ν ℝ}
    (ha : OnGrid G dims u g a) (hg : ∀ pos, G.Inside dims pos → g pos = h pos) : OnGrid G dims u h a := by
  obtain ⟨hn, c, hc, hpl, hd, hsh, haxs, hu, he⟩ := ha
  exact ⟨hn, c, hc, hpl, hd, hsh, haxs, hu, fun pos hp => (he pos hp).trans (hg pos hp)⟩

theorem clip_of_lt {G : Grid κ ν} {p : κ → Nat} {d : κ} (h : p d < G.size d) : G.clip p d = p d := by
  unfold Grid.clip
  split
  · omega
  · rfl

/-- The product of arrays on two grids that agree about the sizes. -/
theorem mul_regrid (order : List System) (tm : Bool) (f : ℝ → ℝ → ℝ) {G₁ G₂ : Grid κ ν} (G₃ : Grid κ ν) {d1 d2 d3 : List κ}
    {u v w : List Term} {g h : (κ → Nat) → ℝ} {a b : Operand κ ν ℝ} (ha : OnGrid G₁ d1 u g a) (hb : OnGrid G₂ d2 v h b)
    (hm : Container.merge d1 d2 = .ok d3) (hu : combineUnits order tm u v = .ok w)
    (h1 : ∀ d ∈ d1, G₃.size d = G₁.size d) (h2 : ∀ d ∈ d2, G₃.size d = G₂.size d)
    (x2 : ∀ d ∈ d2, G₃.axis d = G₂.axis d) (x1 : ∀ d ∈ d1, d ∉ d2 → G₃.axis d = G₁.axis d) :
    ∃ r, Physical.multiplicative order tm f a b = .ok r ∧ OnGrid G₃ d3 w (fun p => f (g p) (h p)) r := by
  obtain ⟨r, e1, e2⟩ := mul_grids order tm f (G₃ := G₃) ha hb hm hu
    (.inl (fun d hd hd' => (h1 d hd).symm.trans (h2 d hd'))) h1 (fun d hd _ => h2 d hd) x2 x1
  have hM := Container.c09_merge_ok d1 d2 d3 ha.nodup hb.nodup hm
  refine ⟨r, e1, e2.eq_inside (fun p hp => ?_)⟩
  have i1 : G₁.Inside d1 p := fun d hd => by rw [← h1 d hd]; exact hp d ((hM.mem d).2 (.inl hd))
  have i2 : G₂.Inside d2 p := fun d hd => by rw [← h2 d hd]; exact hp d ((hM.mem d).2 (.inr hd))
  rw [ha.own i1 (fun d hd => clip_of_lt (i1 d hd)), hb.own i2 (fun d hd => clip_of_lt (i2 d hd))]

/-- An array on a grid is on any grid that has the same sizes and axes for its dimensions. -/
theorem OnGrid.regrid {G H : Grid κ ν} {dims : List κ} {u : List Term} {g : (κ → Nat) → ℝ} {a : Operand κ ν ℝ} (h : OnGrid G dims u g a)
    (hs : ∀ d ∈ dims, H.size d = G.size d) (hx : ∀ d ∈ dims, H.axis d = G.axis d) : OnGrid H dims u g a := by
  obtain ⟨hn, c, rfl, hp, hd, hsh, hax, hcu, hg⟩ := h
  refine ⟨hn, c, rfl, hp, hd, hsh.trans ?_, ?_, hcu, fun pos hpos => hg pos (fun d hdm => by rw [← hs d hdm]; exact hpos d hdm)⟩
  · exact List.map_congr_left (fun d hdm => (hs d hdm).symm)
  · rw [hax]
    unfold Grid.axes
    exact List.map_congr_left (fun d hdm => by rw [hx d hdm])

end Eprem.Observable
