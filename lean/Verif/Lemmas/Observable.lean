import Verif.Spec.Observable
import Verif.Props.PhysicalFunctions

/-! # Arithmetic of arrays on the grid of a dataset -/

namespace Eprem.Observable

open Eprem Eprem.Symbolic Eprem.Metric Eprem.Numeric Eprem.Measured Eprem.Physical

theorem before_asymm {κ : Type} {x : List κ} (hx : x.Nodup) {a b : κ} (h1 : Container.Before a b x)
    (h2 : Container.Before b a x) : False := by
  unfold Container.Before at h1 h2
  induction x with
  | nil => cases h1
  | cons z l ih =>
    obtain ⟨hz, hl⟩ := List.nodup_cons.1 hx
    cases h1 with
    | cons _ h1 => cases h2 with
      | cons _ h2 => exact ih hl h1 h2
      | cons_cons _ h2 => exact hz (h1.subset (by simp))
    | cons_cons _ h1 => cases h2 with
      | cons _ h2 => exact hz (h2.subset (by simp))
      | cons_cons _ h2 => exact hz (h1.subset (by simp))

variable {κ ν : Type} [DecidableEq κ] {G : Grid κ ν}

theorem no_conflict {x y : List κ} (hx : x.Nodup) (h : y.Sublist x) : ¬ Container.OrderConflict x y := by
  rintro ⟨a, b, h1, h2⟩
  exact before_asymm hx h1 (h2.trans h)

theorem merge_sublist {x y : List κ} (hx : x.Nodup) (h : y.Sublist x) : Container.merge x y = .ok x := by
  have hy : y.Nodup := hx.sublist h
  cases hm : Container.merge x y with
  | error e => exact absurd ((Container.c09_merge_fails_iff x y hx hy).1 ⟨e, hm⟩) (no_conflict hx h)
  | ok r =>
    have hM := Container.c09_merge_ok x y r hx hy hm
    have : x.Perm r := (List.perm_ext_iff_of_nodup hx hM.nodup).2 (fun a => by
      rw [hM.mem]; exact ⟨.inl, fun h' => h'.elim id (fun h' => h.subset h')⟩)
    rw [hM.left.eq_of_length this.length_eq]

theorem keys_axes (dims : List κ) : (G.axes dims).keys = dims := by
  unfold Grid.axes Dict.keys
  rw [List.map_map]
  exact List.map_id _

theorem get_axes {dims : List κ} {d : κ} (h : d ∈ dims) : (G.axes dims).get? d = some (G.axis d) := by
  induction dims with
  | nil => cases h
  | cons k l ih =>
    show Dict.get? ((k, G.axis k) :: G.axes l) d = _
    rw [Dict.get?_cons]
    by_cases hk : k = d
    · simp [hk]
    · rw [if_neg hk]
      exact ih ((List.mem_cons.1 h).resolve_left (fun e => hk e.symm))

theorem newArray_grid {dims : List κ} (hn : dims.Nodup) {d : ND ℝ} (hs : d.shape = dims.map G.size) {u : List Term}
    {g : (κ → Nat) → ℝ} (hg : ∀ pos, G.Inside dims pos → d.get (dims.map pos) = g pos) :
    ∃ r, newArray d u (G.axes dims) = .ok r ∧ OnGrid G dims u g r := by
  have hd : dimensions (G.axes dims).keys = dims := by rw [keys_axes, dimensions_nodup hn]
  refine ⟨.array ⟨PArr.new ⟨d, dims, false⟩ u, G.axes dims⟩, ?_, ⟨hn, _, rfl, rfl, rfl, hs, rfl, rfl, ?_⟩⟩
  · unfold newArray arrayFactory
    rw [hd, if_pos (by rw [ND.ndim, hs, List.length_map])]
  · intro pos hp
    rw [← hg pos hp]
    exact one_mul _

theorem grid_valid {dims : List κ} {pos : κ → Nat} : Valid (dims.map pos) (dims.map G.size) ↔ G.Inside dims pos :=
  valid_map

theorem map_grid {dims : List κ} {u w : List Term} {g : (κ → Nat) → ℝ} {a : Operand κ ν ℝ} (h : OnGrid G dims u g a)
    (f : ℝ → ℝ) : ∃ r, withNumber f w a = .ok r ∧ OnGrid G dims w (fun p => f (g p)) r := by
  obtain ⟨hn, c, rfl, hp, hd, hs, ha, hu, hg⟩ := h
  have : ∃ r, newArray (c.arr.data.data.map f) w (G.axes dims) = .ok r ∧ OnGrid G dims w (fun p => f (g p)) r := by
    refine newArray_grid (d := c.arr.data.data.map f) hn hs (fun pos hpos => ?_)
    rw [← hg pos hpos]
    unfold Named.at
    have e : c.arr.data.dims = dims := hd
    rw [e]
    rfl
  rw [← ha] at this
  exact this

theorem trig_grid {dims : List κ} {g : (κ → Nat) → ℝ} {a : Operand κ ν ℝ} (h : OnGrid G dims [⟨1, c! "rad", 1⟩] g a)
    (f : ℝ → ℝ) : ∃ r, trig f a = .ok r ∧ OnGrid G dims unitless (fun p => f (g p)) r := by
  obtain ⟨r, h1, h2⟩ := map_grid (w := unitless) h f
  refine ⟨r, ?_, h2⟩
  obtain ⟨hn, c, rfl, hp, hd, hs, ha, hu, hg⟩ := h
  unfold trig
  rw [if_pos (by left; show showExpr c.arr.unit = _; rw [hu]; exact show_symbol (c! "rad"))]
  exact h1

theorem root_grid {dims : List κ} {u w : List Term} {g : (κ → Nat) → ℝ} {a : Operand κ ν ℝ} (h : OnGrid G dims u g a)
    (hw : powUnits true u (1/2) = .ok w) : ∃ r, root a = .ok r ∧ OnGrid G dims w (fun p => Real.sqrt (g p)) r := by
  obtain ⟨r, h1, h2⟩ := map_grid (w := w) h Real.sqrt
  refine ⟨r, ?_, h2⟩
  obtain ⟨hn, c, rfl, hp, hd, hs, ha, hu, hg⟩ := h
  unfold root Physical.sqrt
  have : (Operand.array c).unit = u := hu
  rw [this, hw]
  exact h1

theorem unitless_eq : exprEq unitless unitless = true := by decide +kernel

theorem raised_grid {dims : List κ} {u w : List Term} {g : (κ → Nat) → ℝ} {a : Operand κ ν ℝ} (h : OnGrid G dims u g a)
    (n : ℕ) (hw : powUnits false u n = .ok w) : ∃ r, raised a n = .ok r ∧ OnGrid G dims w (fun p => g p ^ n) r := by
  obtain ⟨r, h1, h2⟩ := map_grid (w := w) h (fun x => x ^ (((n : ℚ) : ℝ)))
  refine ⟨r, ?_, ?_⟩
  · obtain ⟨hn, c, rfl, hp, hd, hs, ha, hu, hg⟩ := h
    unfold raised exponential
    refine (if_pos unitless_eq).trans ?_
    have : (Operand.array c).unit = u := hu
    simp only [this, hw]
    exact h1
  · simpa [Real.rpow_natCast] using h2

theorem OnGrid.wellNamed {dims : List κ} {c : Arr κ ν ℝ} (hn : dims.Nodup) (hd : c.arr.raw.dims = dims)
    (hs : c.arr.raw.data.shape = dims.map G.size) : WellNamed c.arr.data := by
  refine ⟨?_, ?_⟩
  · show c.arr.raw.dims.Nodup
    rw [hd]; exact hn
  · show c.arr.raw.dims.length = c.arr.raw.data.shape.length
    rw [hd, hs, List.length_map]

theorem sizeAlong_grid {c : Named κ ℝ} {dims : List κ} (hd : c.dims = dims) (hs : c.data.shape = dims.map G.size) {d : κ}
    (h : d ∈ dims) : c.sizeAlong d = some (G.size d) := by
  unfold Named.sizeAlong
  rw [hd, hs, List.getElem?_map]
  have h1 := List.idxOf_lt_length_iff.2 h
  rw [List.getElem?_eq_getElem h1, Option.map_some, List.getElem_idxOf]

theorem axes_eq {same : ν → ν → Bool} (hr : ∀ x, same x x = true) {dims : List κ} :
    Axes.eq same (G.axes dims) (G.axes dims) = true := by
  unfold Axes.eq
  rw [Bool.and_eq_true, List.all_eq_true]
  refine ⟨by simp, ?_⟩
  intro p hp
  obtain ⟨d, hd, rfl⟩ := List.mem_map.1 hp
  simp only [get_axes hd]
  exact hr _

theorem add_grid {same inside : ν → ν → Bool} (hr : ∀ x, same x x = true) (f : ℝ → ℝ → ℝ) {dims : List κ} {u v : List Term}
    {g h : (κ → Nat) → ℝ} {a b : Operand κ ν ℝ} (ha : OnGrid G dims u g a) (hb : OnGrid G dims v h b)
    (hu : exprEq u v = true) :
    ∃ r, Physical.additive same inside f a b = .ok r ∧ OnGrid G dims u (fun p => f (g p) (h p)) r := by
  obtain ⟨hn, c, rfl, hp, hd, hs, hax, hcu, hg⟩ := ha
  obtain ⟨_, c', rfl, hp', hd', hs', hax', hcu', hh⟩ := hb
  obtain ⟨r, h1, h2, h3, h4, h5⟩ := (c31_additive f c.arr.data c'.arr.data (OnGrid.wellNamed hn hd hs)
    (OnGrid.wellNamed hn hd' hs')).2 (by show c.arr.raw.dims = c'.arr.raw.dims; rw [hd, hd'])
    (by show c.arr.raw.data.shape = c'.arr.raw.data.shape; rw [hs, hs'])
  have e3 : r.dims = dims := h3.trans hd
  have e4 : r.data.shape = dims.map G.size := h4.trans hs
  obtain ⟨z, hz1, hz2⟩ := newArray_grid (u := u) hn e4 (g := fun p => f (g p) (h p)) (fun pos hpos => by
    have := h5 pos ((has_iff h2 pos).2 (fun d hdm => by
      rw [shapeGet_eq h2, sizeAlong_grid e3 e4 (e3 ▸ hdm)]
      exact hpos d (e3 ▸ hdm)))
    rw [hg pos hpos, hh pos hpos] at this
    rw [← this, Named.at, e3])
  refine ⟨z, ?_, hz2⟩
  show addArrays same inside f c c' = _
  unfold addArrays
  rw [h1]
  simp only
  rw [hcu, hcu', hu, hax, hax', axes_eq hr]
  exact hz1

theorem get_eq_dict {a b : Dict κ ν} (hk : a.keys = b.keys) (hw : a.WF) (h : ∀ k ∈ a.keys, a.get? k = b.get? k) : a = b := by
  induction a generalizing b with
  | nil => cases b with
    | nil => rfl
    | cons q b => cases hk
  | cons p a ih => cases b with
    | nil => cases hk
    | cons q b =>
      obtain ⟨k, v⟩ := p
      obtain ⟨k', v'⟩ := q
      have hkk : k = k' := (List.cons.inj hk).1
      have hks : Dict.keys a = Dict.keys b := (List.cons.inj hk).2
      subst hkk
      have hv := h k (by show k ∈ k :: Dict.keys a; simp)
      rw [Dict.get?_cons, Dict.get?_cons, if_pos rfl, if_pos rfl] at hv
      cases hv
      have hw' : (k :: Dict.keys a).Nodup := hw
      congr 1
      refine ih hks (List.nodup_cons.1 hw').2 (fun j hj => ?_)
      have hne : k ≠ j := fun e => (List.nodup_cons.1 hw').1 (e ▸ hj)
      have := h j (by show j ∈ k :: Dict.keys a; exact List.mem_cons_of_mem _ hj)
      rwa [Dict.get?_cons, Dict.get?_cons, if_neg hne, if_neg hne] at this

theorem mul_grid (order : List System) (tm : Bool) (f : ℝ → ℝ → ℝ) {d1 d2 d3 : List κ} {u v w : List Term}
    {g h : (κ → Nat) → ℝ} {a b : Operand κ ν ℝ} (ha : OnGrid G d1 u g a) (hb : OnGrid G d2 v h b)
    (hm : Container.merge d1 d2 = .ok d3) (hu : combineUnits order tm u v = .ok w) :
    ∃ r, multiplicative order tm f a b = .ok r ∧ OnGrid G d3 w (fun p => f (g p) (h p)) r := by
  obtain ⟨hn, c, rfl, hp, hd, hs, hax, hcu, hg⟩ := ha
  obtain ⟨hn', c', rfl, hp', hd', hs', hax', hcu', hh⟩ := hb
  have hM := Container.c09_merge_ok d1 d2 d3 hn hn' hm
  have hc : ¬ Container.OrderConflict d1 d2 := fun hc => by
    obtain ⟨e, he⟩ := (Container.c09_merge_fails_iff d1 d2 hn hn').2 hc
    rw [he] at hm; cases hm
  have w1 := OnGrid.wellNamed hn hd hs
  have w2 := OnGrid.wellNamed hn' hd' hs'
  have e1 : c.arr.data.dims = d1 := hd
  have e2 : c'.arr.data.dims = d2 := hd'
  have s1 : c.arr.data.data.shape = d1.map G.size := hs
  have s2 : c'.arr.data.data.shape = d2.map G.size := hs'
  have z1 : ∀ d, c.arr.data.sizeAlong d ≠ some 0 := by
    intro d
    by_cases hdd : d ∈ d1
    · rw [sizeAlong_grid e1 s1 hdd]; intro h0; have := G.pos d; simp at h0; omega
    · rw [sizeAlong_none w1 (by rw [e1]; exact hdd)]; nofun
  have z2 : ∀ d, c'.arr.data.sizeAlong d ≠ some 0 := by
    intro d
    by_cases hdd : d ∈ d2
    · rw [sizeAlong_grid e2 s2 hdd]; intro h0; have := G.pos d; simp at h0; omega
    · rw [sizeAlong_none w2 (by rw [e2]; exact hdd)]; nofun
  obtain ⟨r, hr1⟩ := c31_computed f c.arr.data c'.arr.data w1 w2 (by
      rintro ⟨h1, _⟩
      have : c.arr.raw.plain = true := h1
      rw [hp] at this; cases this) (by rw [e1, e2]; exact hc)
    (fun d h1 h2 => by rw [sizeAlong_grid e1 s1 (e1 ▸ h1), sizeAlong_grid e2 s2 (e2 ▸ h2)])
    (fun d => ⟨z1 d, z2 d⟩)
  have hC := c31_aligned f _ _ _ w1 w2 hr1
  have hrd : r.dims = d3 := by
    have := multiplicative_dims w1 w2 hr1
    rw [e1, e2, hm] at this
    exact (Except.ok.inj this).symm
  have hsz : ∀ d ∈ d3, r.sizeAlong d = some (G.size d) := by
    intro d hdm
    rw [hC.size d (hrd ▸ hdm)]
    congr 1
    have hpd := G.pos d
    by_cases h1 : d ∈ d1
    · rw [sizeAlong_grid e1 s1 h1]
      by_cases h2 : d ∈ d2
      · rw [sizeAlong_grid e2 s2 h2]; simp
      · rw [sizeAlong_none w2 (by rw [e2]; exact h2)]; simp; omega
    · rw [sizeAlong_none w1 (by rw [e1]; exact h1)]
      rw [sizeAlong_grid e2 s2 (((hM.mem d).1 hdm).resolve_left h1)]; simp; omega
  have hrs : r.data.shape = d3.map G.size := by
    rw [shape_eq hC.named, hrd]
    apply List.map_congr_left
    intro d hdm
    rw [shapeGet_eq hC.named, hsz d hdm]; rfl
  obtain ⟨axes, m1, m2, m3, m4⟩ := Axes.union_aux (G.axes d1) (G.axes d2)
    (by unfold Dict.WF; rw [keys_axes]; exact hn) (by unfold Dict.WF; rw [keys_axes]; exact hn')
    (by rw [keys_axes, keys_axes]; exact hc)
  have hk : axes.keys = d3 := by rw [keys_axes, keys_axes, hm] at m2; exact (Except.ok.inj m2).symm
  have haxes : axes = G.axes d3 := by
    refine get_eq_dict (by rw [hk, keys_axes]) (by unfold Dict.WF; rw [hk]; exact hM.nodup) (fun k hkm => ?_)
    rw [hk] at hkm
    rw [get_axes hkm, m4 k]
    by_cases h2 : k ∈ d2
    · rw [get_axes h2]
    · have : (G.axes d2).get? k = none := by rw [Dict.get?_eq_none, keys_axes]; exact h2
      rw [this]
      exact get_axes (((hM.mem k).1 hkm).resolve_right h2)
  obtain ⟨z, hz1, hz2⟩ := newArray_grid (u := w) hM.nodup hrs (g := fun p => f (g p) (h p)) (fun pos hpos => by
    have hh1 : r.Has pos := (has_iff hC.named pos).2 (fun d hdm => by
      rw [shapeGet_eq hC.named, hsz d (hrd ▸ hdm)]
      exact hpos d (hrd ▸ hdm))
    have := hC.element pos hh1
    unfold Named.read at this
    have r1 : c.arr.data.at (fun d => if c.arr.data.sizeAlong d = some 1 then 0 else pos d) = g pos := by
      have hpe : (fun d => if c.arr.data.sizeAlong d = some 1 then 0 else pos d) = pos := by
        funext d
        by_cases hdm : d ∈ d1
        · rw [sizeAlong_grid e1 s1 hdm]
          split
          next h1 => have := hpos d ((hM.mem d).2 (.inl hdm)); have h1 := Option.some.inj h1; omega
          · rfl
        · rw [sizeAlong_none w1 (by rw [e1]; exact hdm)]; rfl
      rw [hpe]
      exact hg pos (fun d hdm => hpos d ((hM.mem d).2 (.inl hdm)))
    have r2 : c'.arr.data.at (fun d => if c'.arr.data.sizeAlong d = some 1 then 0 else pos d) = h pos := by
      have hpe : (fun d => if c'.arr.data.sizeAlong d = some 1 then 0 else pos d) = pos := by
        funext d
        by_cases hdm : d ∈ d2
        · rw [sizeAlong_grid e2 s2 hdm]
          split
          next h1 => have := hpos d ((hM.mem d).2 (.inr hdm)); have h1 := Option.some.inj h1; omega
          · rfl
        · rw [sizeAlong_none w2 (by rw [e2]; exact hdm)]; rfl
      rw [hpe]
      exact hh pos (fun d hdm => hpos d ((hM.mem d).2 (.inr hdm)))
    rw [r1, r2] at this
    rw [← this, Named.at, hrd])
  refine ⟨z, ?_, hz2⟩
  simp only [Physical.multiplicative, Operand.unit, hcu, hcu', hu, multiplyMeasured, hr1, hax, hax', m1, haxes]
  exact hz1

/-! ## Scalars -/

theorem broadcast_ones (s : List Nat) : broadcastShape s (List.replicate s.length 1) = .ok s := by
  induction s with
  | nil => rfl
  | cons n s ih =>
    have : broadcastDim n 1 = .ok n := by
      unfold broadcastDim
      by_cases h : n = 1
      · rw [if_pos h]
      · rw [if_neg h, if_neg h, if_pos rfl]
    simp only [List.length_cons, List.replicate_succ, broadcastShape, this, ih]

theorem zip_scalar (f : ℝ → ℝ → ℝ) (a b : ND ℝ) (hb : b.shape = []) :
    ∃ r, ND.zip f a b = .ok r ∧ r.shape = a.shape ∧ ∀ p, Valid p a.shape → r.get p = f (a.get p) (b.get []) := by
  have h1 : a.atLeast b.ndim = a := by
    unfold ND.atLeast ND.ndim
    simp [hb]
  have h2 : (b.atLeast a.ndim).shape = List.replicate a.shape.length 1 := by
    simp [ND.atLeast, ND.ndim, hb]
  obtain ⟨r, hr⟩ : ∃ r, ND.zip f a b = .ok r := by
    unfold ND.zip
    simp only [h1, h2, broadcast_ones]
    exact ⟨_, rfl⟩
  have hs : r.shape = a.shape := by
    have h := hr
    unfold ND.zip at h
    simp only [h1, h2, broadcast_ones] at h
    cases h
    rfl
  refine ⟨r, hr, hs, fun p hp => ?_⟩
  rw [(zip_spread hr).2 p (hs ▸ hp), spread_self hp]
  congr 1
  unfold ND.spread trail
  rw [hb]
  rfl

theorem data_at {c : Arr κ ν ℝ} {dims : List κ} (hd : c.arr.raw.dims = dims) (pos : κ → Nat) :
    c.arr.data.at pos = c.arr.data.data.get (dims.map pos) := by
  unfold Named.at
  have e : c.arr.data.dims = dims := hd
  rw [e]

theorem mul_scalar (order : List System) (tm : Bool) (f : ℝ → ℝ → ℝ) {dims : List κ} {u v w : List Term}
    {g : (κ → Nat) → ℝ} {x : ℝ} {a b : Operand κ ν ℝ} (ha : OnGrid G dims u g a) (hb : IsScalar v x b)
    (hu : combineUnits order tm u v = .ok w) :
    ∃ r, Physical.multiplicative order tm f a b = .ok r ∧ OnGrid G dims w (fun p => f (g p) x) r := by
  obtain ⟨hn, c, rfl, hp, hd, hs, hax, hcu, hg⟩ := ha
  obtain ⟨o, rfl, ho, hx, hou⟩ := hb
  obtain ⟨r, hr, hrs, hrg⟩ := zip_scalar f c.arr.data.data o.data ho
  have hs' : c.arr.data.data.shape = dims.map G.size := hs
  obtain ⟨z, hz1, hz2⟩ := newArray_grid (u := w) hn (hrs.trans hs') (g := fun p => f (g p) x) (fun pos hpos => by
    rw [hrg _ (by rw [hs']; exact grid_valid.2 hpos), ← hg pos hpos, data_at hd, hx])
  refine ⟨z, ?_, hz2⟩
  have hzd : zipData f c.arr.data.data o.data = .ok r := by unfold zipData; rw [hr]
  simp only [Physical.multiplicative, Operand.unit, hcu, hou, hu, multiplyMeasured, hzd, hax]
  exact hz1

theorem add_scalar {same inside : ν → ν → Bool} (f : ℝ → ℝ → ℝ) {dims : List κ} {u v : List Term}
    {g : (κ → Nat) → ℝ} {x : ℝ} {a b : Operand κ ν ℝ} (ha : OnGrid G dims u g a) (hb : IsScalar v x b)
    (hu : exprEq u v = true) :
    ∃ r, Physical.additive same inside f a b = .ok r ∧ OnGrid G dims u (fun p => f (g p) x) r := by
  obtain ⟨hn, c, rfl, hp, hd, hs, hax, hcu, hg⟩ := ha
  obtain ⟨o, rfl, ho, hx, hou⟩ := hb
  obtain ⟨r, hr, hrs, hrg⟩ := zip_scalar f c.arr.data.data o.data ho
  have hs' : c.arr.data.data.shape = dims.map G.size := hs
  obtain ⟨z, hz1, hz2⟩ := newArray_grid (u := u) hn (hrs.trans hs') (g := fun p => f (g p) x) (fun pos hpos => by
    rw [hrg _ (by rw [hs']; exact grid_valid.2 hpos), ← hg pos hpos, data_at hd, hx])
  refine ⟨z, ?_, hz2⟩
  have hzd : zipData f c.arr.data.data o.data = .ok r := by unfold zipData; rw [hr]
  show additiveMeasured same inside f (.array c) (.object .scalar o) = _
  simp only [additiveMeasured, hcu, hou, hu, hzd, hax, if_true]
  exact hz1

theorem raised_scalar {u w : List Term} {x : ℝ} {a : Operand κ ν ℝ} (h : IsScalar u x a) (n : ℕ)
    (hw : powUnits false u n = .ok w) : ∃ r, raised a n = .ok r ∧ IsScalar w (x ^ n) r := by
  obtain ⟨o, rfl, ho, hx, hou⟩ := h
  refine ⟨.object .scalar ⟨⟨[], fun i => o.data.data i ^ (((n : ℚ) : ℝ))⟩, w⟩, ?_, _, rfl, rfl, ?_, rfl⟩
  · unfold raised exponential
    refine (if_pos unitless_eq).trans ?_
    have : (Operand.object (κ := κ) (ν := ν) .scalar o).unit = u := hou
    simp only [this, hw]
    unfold withNumber create
    simp only
    rw [if_pos (by show Numeric.sizeOf o.data.shape = 1; rw [ho]; rfl)]
    rfl
  · rw [← hx]
    unfold ND.get
    rw [ho]
    show o.data.data _ ^ _ = _
    simp [Real.rpow_natCast]

theorem transposed_grid {d1 d2 : List κ} {u : List Term} {g : (κ → Nat) → ℝ} {a : Operand κ ν ℝ} (h : OnGrid G d1 u g a)
    (hscale : ∀ c, a = .array c → c.arr.scale = 1) (hp : d2.Perm d1) :
    ∃ r, transposed a d2 = .ok r ∧ OnGrid G d2 u g r := by
  obtain ⟨hn, c, rfl, hpl, hd, hs, hax, hcu, hg⟩ := h
  have hsc := hscale c rfl
  have wn : WellNamed c.arr.raw := ⟨by rw [hd]; exact hn, by rw [hd, hs, List.length_map]⟩
  obtain ⟨r, hr⟩ := c32_names_computed c.arr.raw d2 false wn hpl (by rw [hd]; exact hp)
  obtain ⟨h1, h2⟩ := c32_names_partial _ _ _ _ wn hr
  have hn2 : d2.Nodup := hp.nodup_iff.2 hn
  obtain ⟨axes, m1, m2, m3⟩ := Axes.c39_permute_names (G.axes d1) (by unfold Dict.WF; rw [keys_axes]; exact hn) d2
    (by rw [keys_axes]; exact hp)
  have hax2 : axes = G.axes d2 := by
    refine get_eq_dict (by rw [m2, keys_axes]) (by unfold Dict.WF; rw [m2]; exact hn2) (fun k hk => ?_)
    rw [m2] at hk
    rw [m3, get_axes hk, get_axes (hp.mem_iff.1 hk)]
  have hsz : ∀ d ∈ d2, r.sizeAlong d = some (G.size d) := by
    intro d hdm
    rw [h1.size d]
    exact sizeAlong_grid hd hs (hp.mem_iff.1 hdm)
  refine ⟨.array ⟨PArr.new {r with plain := false} c.arr.unit, axes⟩, ?_, hn2, _, rfl, rfl, h2, ?_, hax2, hcu, ?_⟩
  · unfold transposed PArr.transposeNames
    simp only [hr, hax, m1]
  · show r.data.shape = _
    rw [shape_eq h1.named, h2]
    apply List.map_congr_left
    intro d hdm
    rw [shapeGet_eq h1.named, hsz d hdm]; rfl
  · intro pos hpos
    have hin : G.Inside d1 pos := fun d hdm => hpos d (hp.mem_iff.2 hdm)
    rw [← hg pos hin]
    have e1 : (PArr.new {r with plain := false} c.arr.unit).data.at pos = r.at pos := one_mul _
    have e2 : c.arr.data.at pos = c.arr.raw.at pos := by
      unfold Named.at PArr.data ND.map ND.get
      simp only [hsc, one_mul]
    rw [e1, e2]
    refine h1.element pos (fun d n hdn => ?_)
    by_cases hdm : d ∈ d1
    · rw [sizeAlong_grid hd hs hdm] at hdn
      cases hdn
      exact hin d hdm
    · rw [sizeAlong_none wn (by rw [hd]; exact hdm)] at hdn
      cases hdn

end Eprem.Observable
