import Verif.Spec.Acceleration
import Verif.Props.Transport
import Verif.Props.Subscript
import Verif.Model.Observe

/-!
# Property C99: the acceleration rate
-/

namespace Eprem.Observable

open Eprem Eprem.Symbolic Eprem.Metric Eprem.Numeric Eprem.Measured Eprem.Physical

variable {κ ν : Type} [DecidableEq κ] {G : Grid κ ν}

/-- The angle has the axes that it is given, which are those of an array of the whole dataset. -/
theorem angle_regrid (order : List System) (ho : order ∈ orders) (s : System) (same inside : ν → ν → Bool)
    (hsame : ∀ x, same x x = true) (dims : List κ) (B U : Fin 3 → (κ → Nat) → ℝ) (b u : Fin 3 → Operand κ ν ℝ)
    (h : Flow G s dims B U b u) (A : Grid κ ν) (hA : ∀ d ∈ dims, A.size d = G.size d) :
    ∃ an AN, angle order same inside (A.axes dims) (b 0) (b 1) (b 2) (u 0) (u 1) (u 2) = .ok an ∧
      OnGrid A dims [⟨1, c! "rad", 1⟩] AN an ∧
      ∀ p, (∃ i, B i p ≠ 0) → (∃ i, U i p ≠ 0) →
        norm3 U p * norm3 B p * Real.cos (AN p) = B 0 p * U 0 p + B 1 p * U 1 p + B 2 p * U 2 p := by
  obtain ⟨an, AN, e, g, k⟩ := c53_angle order ho s same inside hsame dims B U b u h
  have hn := g.nodup
  obtain ⟨u1, u2, u3, u4, q1, q2, q3⟩ := flow_powers s (mem_bothSystems s)
  obtain ⟨v1, v2, v3⟩ := flow_products order ho s (mem_bothSystems s)
  have hme := merge_sublist (h.field 0).nodup (List.Sublist.refl dims)
  obtain ⟨bm, e1, g1⟩ := magnitude_grid (inside := inside) hsame (h.field 0) (h.field 1) (h.field 2) (pow_units u1) q1
    (pow_units u2)
  obtain ⟨um, e2, g2⟩ := magnitude_grid (inside := inside) hsame (h.flow 0) (h.flow 1) (h.flow 2) (pow_units u3) q2
    (pow_units u4)
  obtain ⟨ub, e3, g3⟩ := udotb_grid (inside := inside) hsame (h.field 0) (h.field 1) (h.field 2) (h.flow 0) (h.flow 1)
    (h.flow 2) (combine_mul v1) q3
  obtain ⟨m, e4, g4⟩ := mul_grid order true (fun x y => x * y) g1 g2 hme (combine_mul v1)
  obtain ⟨r, e5, g5⟩ := mul_grid order false (fun x y => x / y) g3 g4 hme (combine_div v3)
  obtain ⟨hn, c, rfl, hp, hd, hs, hax, hcu, hg⟩ := g5
  simp only [angle, times, over, e3, e1, e2, e4, e5, bind, Except.bind] at e ⊢
  have hk : ∀ H : Grid κ ν, dimensions (H.axes dims).keys = dims := fun H => by rw [keys_axes, dimensions_nodup hn]
  unfold newArray arrayFactory at e ⊢
  rw [hk] at e ⊢
  have hl : dims.length = (c.arr.data.data.map (fun x => Real.arccos (clip x))).ndim := by
    show _ = c.arr.data.data.shape.length
    rw [show c.arr.data.data.shape = dims.map G.size from hs, List.length_map]
  rw [if_pos hl] at e ⊢
  cases e
  exact ⟨_, AN, rfl, g.reaxis hA, fun p => (k p).2.2⟩

set_option maxHeartbeats 100000000 in
theorem unitless_powers : unitPow false unitless 2 = .ok unitless ∧ exprEq unitless unitless = true := by decide +kernel

/-- The unit of the product of length and velocity. -/
def lengthVelocity (s : System) : List Term :=
  match s with
  | .mks => [⟨1, c! "m", 2⟩, ⟨1, c! "s", -1⟩]
  | .cgs => [⟨1, c! "cm", 2⟩, ⟨1, c! "s", -1⟩]

set_option maxHeartbeats 100000000 in
theorem rate_products : ∀ o ∈ orders, ∀ s ∈ bothSystems,
    unitMul o unitless unitless = .ok unitless ∧
    unitMul o (unitOf s (c! "length")) (unitOf s (c! "velocity")) = .ok (lengthVelocity s) ∧
    unitDiv o (lengthVelocity s) (unitOf s (c! "velocity")) = .ok (unitOf s (c! "length")) ∧
    unitMul o (unitOf s (c! "velocity")) (unitOf s (c! "velocity")) = .ok (speedSq s) ∧
    unitDiv o (speedSq s) (speedSq s) = .ok unitless ∧
    unitMul o (unitOf s (c! "velocity")) unitless = .ok (unitOf s (c! "velocity")) ∧
    unitDiv o (unitOf s (c! "velocity")) (unitOf s (c! "length")) = .ok [⟨1, c! "s", -1⟩] ∧
    exprEq (unitOf s (c! "length")) (unitOf s (c! "length")) = true := by decide +kernel

theorem ParticlesOn.regrid {H : Grid κ ν} {s : System} {species energy : κ} {vdims : List κ} {C AU mev L α β ρ : ℝ} {M Q K : Nat → ℝ}
    {V : Nat → Nat → ℝ} {T : Particles κ ν} (h : ParticlesOn G s species energy vdims C AU mev L α β ρ M Q K V T)
    (hv : vdims.Sublist [species, energy])
    (hs : ∀ d ∈ [species, energy], H.size d = G.size d) (hx : ∀ d ∈ [species, energy], H.axis d = G.axis d) :
    ParticlesOn H s species energy vdims C AU mev L α β ρ M Q K V T := by
  have r : ∀ {dims : List κ} {u : List Term} {g : (κ → Nat) → ℝ} {a : Operand κ ν ℝ}, dims.Sublist [species, energy] →
      OnGrid G dims u g a → OnGrid H dims u g a := fun hd ha =>
    ha.regrid (fun d hm => hs d (hd.subset hm)) (fun d hm => hx d (hd.subset hm))
  exact ⟨h.c, h.au, h.mev, h.lambda0, h.radial, h.power, h.kper, r (by simp) h.m, r (by simp) h.q, r (by simp) h.e, r hv h.v⟩

theorem len3_eq (a : Fin 3 → ℝ) : len3 a = Real.sqrt (a 0 ^ 2 + a 1 ^ 2 + a 2 ^ 2) := by
  unfold len3 dot3
  congr 1; ring

theorem len3_pos {a : Fin 3 → ℝ} (h : a ≠ 0) : 0 < len3 a := by
  rw [len3_eq]
  apply Real.sqrt_pos.2
  by_contra hc
  apply h
  funext i
  have h0 := sq_nonneg (a 0)
  have h1 := sq_nonneg (a 1)
  have h2 := sq_nonneg (a 2)
  fin_cases i
  · exact pow_eq_zero_iff (two_ne_zero) |>.1 (by show a 0 ^ 2 = 0; linarith)
  · exact pow_eq_zero_iff (two_ne_zero) |>.1 (by show a 1 ^ 2 = 0; linarith)
  · exact pow_eq_zero_iff (two_ne_zero) |>.1 (by show a 2 ^ 2 = 0; linarith)

theorem magnitude_flow (s : System) {same inside : ν → ν → Bool} (hsame : ∀ x, same x x = true) {time shell : κ}
    {R : Nat → Nat → ℝ} {B U : Nat → Nat → Fin 3 → ℝ} {P : Plasma (Operand κ ν ℝ)} (h : PlasmaOn G s time shell R B U P) :
    ∃ m, magnitude same inside P.ur P.ut P.up = .ok m ∧
      OnGrid G [time, shell] (unitOf s (c! "velocity")) (fun p => len3 (U (p time) (p shell))) m := by
  obtain ⟨_, _, u3, u4, _, q2, _⟩ := flow_powers s (mem_bothSystems s)
  obtain ⟨m, e, g⟩ := magnitude_grid (inside := inside) hsame h.ur h.ut h.up (pow_units u3) q2 (pow_units u4)
  exact ⟨m, e, g.eq_inside (fun p _ => (len3_eq _).symm)⟩

/-- The diffusion length. -/
theorem kxx_grid (order : List System) (ho : order ∈ orders) (s : System) (same inside : ν → ν → Bool)
    (hsame : ∀ x, same x x = true) (time shell species energy : κ) (hnd : [time, shell, species, energy].Nodup)
    (vdims : List κ) (hv : vdims.Sublist [species, energy]) (C AU mev L α β ρ : ℝ) (M Q K : Nat → ℝ)
    (V R : Nat → Nat → ℝ) (B U : Nat → Nat → Fin 3 → ℝ) (T : Particles κ ν) (P : Plasma (Operand κ ν ℝ))
    (hT : ParticlesOn G s species energy vdims C AU mev L α β ρ M Q K V T) (hP : PlasmaOn G s time shell R B U P)
    (A : Grid κ ν) (hA : ∀ d, A.size d = G.size d)
    (hone : G.size species = 1 ∨ G.size energy = 1) (hC : 0 < C) (hM : ∀ i, 0 < M i) (hQ : ∀ i, Q i ≠ 0) (hK : ∀ i, 0 ≤ K i)
    (hmev : 0 ≤ mev) (hB : ∀ i j, B i j ≠ 0) (hU : ∀ i j, U i j ≠ 0) :
    ∃ k, kxxOverU order same inside species energy (A.axes [time, shell]) T P = .ok k ∧
      OnGrid G [time, shell, species, energy] (unitOf s (c! "length")) (fun p =>
        diffusion (freePath C AU mev L α β (M (p species)) (K (p energy)) (R (p time) (p shell))) ρ (V (p species) (p energy))
          (B (p time) (p shell)) (U (p time) (p shell)) / len3 (U (p time) (p shell))) k := by
  obtain ⟨w1, w2⟩ := unitless_powers
  obtain ⟨v1, v2, v3, v4, v5, v6, v7, v8⟩ := rate_products order ho s (mem_bothSystems s)
  obtain ⟨_, _, y3⟩ := transport_products order ho s (mem_bothSystems s)
  obtain ⟨l, l0, e1, g1, k1⟩ := c98_mfp_partial order ho s same inside hsame time shell species energy hnd C AU mev L α β M Q K R
    T.c T.au T.m T.q T.e P.r T.lambda0 T.radial T.power hT.c hT.au hT.lambda0 hT.radial hT.power hT.m hT.q hT.e hP.r hone hC hM
    hQ hK hmev
  have hF : Flow G s [time, shell] (fun i p => B (p time) (p shell) i) (fun i p => U (p time) (p shell) i)
      ![P.br, P.bt, P.bp] ![P.ur, P.ut, P.up] :=
    ⟨fun i => by fin_cases i; exacts [hP.br, hP.bt, hP.bp], fun i => by fin_cases i; exacts [hP.ur, hP.ut, hP.up]⟩
  obtain ⟨th, TH, e2, g2, k2⟩ := angle_regrid order ho s same inside hsame [time, shell] _ _ _ _ hF A (fun d _ => hA d)
  obtain ⟨c, e3, g3⟩ := trig_grid g2 Real.cos
  obtain ⟨c2, e4, g4⟩ := raised_grid g3 2 (pow_units w1)
  obtain ⟨sn, e5, g5⟩ := trig_grid g2 Real.sin
  obtain ⟨s2, e6, g6⟩ := raised_grid g5 2 (pow_units w1)
  obtain ⟨ks, e7, g7⟩ := single_mul order hT.kper g6 (by simp) v1
  obtain ⟨ra, e8, g8⟩ := add_grid (inside := inside) hsame (fun x y => x + y) g4 g7 w2
  have hsub : [time, shell].Sublist [time, shell, species, energy] := by simp
  have hsub2 : vdims.Sublist [time, shell, species, energy] := hv.trans (by simp)
  obtain ⟨a, e9, g9⟩ := mul_regrid order true (fun x y => x * y)
    ⟨G.size, fun d => if d ∈ [time, shell] then A.axis d else G.axis d, G.pos⟩ g1 g8 (merge_sublist hnd hsub) (combine_mul y3)
    (fun _ _ => rfl) (fun d _ => (hA d).symm) (fun d hd => by simp only [hd, if_true]) (fun d _ hd => by simp only [hd, if_false])
  obtain ⟨b, e10, g10⟩ := mul_regrid order true (fun x y => x * y)
    ⟨G.size, fun d => if d ∈ vdims then G.axis d else if d ∈ [time, shell] then A.axis d else G.axis d, G.pos⟩ g9 hT.v
    (merge_sublist hnd hsub2) (combine_mul v2) (fun _ _ => rfl) (fun _ _ => rfl) (fun d hd => by simp only [hd, if_true])
    (fun d _ hd => by simp only [hd, if_false])
  obtain ⟨kx, e11, g11⟩ := map_grid (w := lengthVelocity s) g10 (fun x => x / 3)
  obtain ⟨ux, e12, g12⟩ := magnitude_flow s (inside := inside) hsame hP
  obtain ⟨z, e13, g13⟩ := mul_regrid order false (fun x y => x / y) G g11 g12 (merge_sublist hnd hsub) (combine_div v3)
    (fun _ _ => rfl) (fun _ _ => rfl) (fun _ _ => rfl) (fun d hd hn => by
      dsimp only
      rw [if_neg hn]; split <;> rfl)
  refine ⟨z, ?_, g13.eq_inside (fun p hp => ?_)⟩
  · have e2' : angle order same inside (A.axes [time, shell]) P.br P.bt P.bp P.ur P.ut P.up = .ok th := e2
    have e11' : Physical.multiplicative order false (fun x y => x / y) b (.number 3) = .ok kx := by
      obtain ⟨hn, c, rfl, hp, hd, hs, hax, hcu, hg⟩ := g10
      simp only [Physical.multiplicative, Operand.unit, hcu]
      exact e11
    simp only [times] at e7
    simp only [kxxOverU, hT.mev, times, over, plus, e1, e2', e3, e4, e5, e6, e7, e8, e9, e10, e11', e12, e13, bind, Except.bind]
  · have hb := len3_pos (hB (p time) (p shell))
    have hu := len3_pos (hU (p time) (p shell))
    have hc := k2 p (by by_contra h; push Not at h; exact hB (p time) (p shell) (funext h))
      (by by_contra h; push Not at h; exact hU (p time) (p shell) (funext h))
    have hcos : Real.cos (TH p) = dot3 (B (p time) (p shell)) (U (p time) (p shell)) /
        (len3 (B (p time) (p shell)) * len3 (U (p time) (p shell))) := by
      rw [eq_div_iff (by positivity), len3_eq, len3_eq]
      unfold norm3 at hc
      rw [dot3, ← hc]
      ring
    have hsin : Real.sin (TH p) ^ 2 = 1 - Real.cos (TH p) ^ 2 := by rw [← Real.sin_sq_add_cos_sq (TH p)]; ring
    show l0 p * (Real.cos (TH p) ^ 2 + ρ * Real.sin (TH p) ^ 2) * V (p species) (p energy) / 3 / _ = _
    rw [k1 p hp, hsin, hcos]
    rfl

/-- The difference of a number and an array. -/
theorem scalar_add {same inside : ν → ν → Bool} (f : ℝ → ℝ → ℝ) {dims : List κ} {u v : List Term}
    {g : (κ → Nat) → ℝ} {x : ℝ} {a b : Operand κ ν ℝ} (ha : IsScalar v x a) (hb : OnGrid G dims u g b)
    (hu : exprEq v u = true) :
    ∃ r, Physical.additive same inside f a b = .ok r ∧ OnGrid G dims v (fun p => f x (g p)) r := by
  obtain ⟨hn, c, rfl, hp, hd, hs, hax, hcu, hg⟩ := hb
  obtain ⟨o, rfl, ho, hx, hou⟩ := ha
  obtain ⟨r, hr, hrs, hrg⟩ := scalar_zip f c.arr.data.data o.data ho
  have hs' : c.arr.data.data.shape = dims.map G.size := hs
  obtain ⟨z, hz1, hz2⟩ := newArray_grid (u := v) hn (hrs.trans hs') (g := fun p => f x (g p)) (fun pos hpos => by
    rw [hrg _ (by rw [hs']; exact grid_valid.2 hpos), ← hg pos hpos, data_at hd, hx])
  refine ⟨z, ?_, hz2⟩
  have hzd : zipData f o.data c.arr.data.data = .ok r := by unfold zipData; rw [hr]
  show additiveMeasured same inside f (.object .scalar o) (.array c) = _
  simp only [additiveMeasured, hcu, hou, hu, hzd, hax, if_true]
  exact hz1

/-- The grid at `n` shells, with these axes. -/
def Grid.atShells (G : Grid κ ν) (time shell : κ) (n : Nat) (hn : 0 < n) (X Y : ν) : Grid κ ν :=
  ⟨fun d => if d = shell then n else G.size d, fun d => if d = shell then Y else if d = time then X else G.axis d, fun d => by
    by_cases h : d = shell <;> simp [h, hn, G.pos d]⟩

theorem sum_grid {G : Grid κ (AnyAxis ℝ)} {same : AnyAxis ℝ → AnyAxis ℝ → Bool} (hsame : ∀ x, same x x = true) {time shell : κ}
    {dims : List κ} {n : Nat} (hn : 0 < n) {X Y Y' : AnyAxis ℝ} {u : List Term} {g h : (κ → Nat) → ℝ}
    {a b : Operand κ (AnyAxis ℝ) ℝ} (s : List Nat) (ha : OnGrid (G.atShells time shell n hn X Y) dims u g a)
    (hb : OnGrid (G.atShells time shell n hn X Y') dims u h b) (hu : exprEq u u = true) :
    ∃ r, sumOverShells same shell (s.map (fun i : Nat => (i : ℤ))) a b = .ok r ∧
      OnGrid (G.atShells time shell n hn X (.points ⟨s.map (fun i : Nat => (i : ℤ)), none⟩)) dims u (fun p => g p + h p) r := by
  obtain ⟨hnd, c, rfl, hp, hd, hs, hax, hcu, hg⟩ := ha
  obtain ⟨_, c', rfl, hp', hd', hs', hax', hcu', hh⟩ := hb
  have s1 : c.arr.data.data.shape = dims.map (fun d => if d = shell then n else G.size d) := hs
  have s2 : c'.arr.data.data.shape = dims.map (fun d => if d = shell then n else G.size d) := hs'
  obtain ⟨r, hr⟩ := zip_mesh_ok (f := fun a b : ℝ => a + b) s1 s2 (fun _ _ => .inl rfl)
  have hshape : r.shape = dims.map (fun d => if d = shell then n else G.size d) ∧ ∀ p, Valid p r.shape →
      r.get p = c.arr.data.data.get p + c'.arr.data.data.get p := by
    have hm := (zip_mesh s1 s2 hr).1
    have e : r.shape = dims.map (fun d => if d = shell then n else G.size d) := by
      rw [hm]
      apply List.map_congr_left
      intro d _
      exact ite_self _
    refine ⟨e, fun p hp => ?_⟩
    rw [(zip_spread hr).2 p hp, spread_self (by rw [s1, ← e]; exact hp), spread_self (by rw [s2, ← e]; exact hp)]
  obtain ⟨z, hz1, hz2⟩ := newArray_grid (G := G.atShells time shell n hn X (.points ⟨s.map (fun i : Nat => (i : ℤ)), none⟩))
    (u := u) hnd hshape.1 (g := fun p => g p + h p) (fun pos hpos => by
      have hv : Valid (dims.map pos) r.shape := by rw [hshape.1]; exact grid_valid.2 hpos
      rw [hshape.2 _ hv, ← hg pos hpos, ← hh pos hpos, data_at hd, data_at hd'])
  refine ⟨z, ?_, hz2⟩
  have hzd : zipData (fun a b => a + b) c.arr.data.data c'.arr.data.data = .ok r := by unfold zipData; rw [hr]
  have hpf : Axis.pointsFactory (s.map (fun i : Nat => (i : ℤ))) = .ok ⟨s.map (fun i : Nat => (i : ℤ)), none⟩ := by
    unfold Axis.pointsFactory
    rw [if_neg]
    simp
  simp only [sumOverShells, hzd, hcu, hcu', hu]
  rw [if_neg (by simp), if_neg (by rw [hax, hax', keys_axes, keys_axes]; simp), if_neg, hpf]
  · rw [← hz1]
    dsimp only
    congr 1
    rw [hax]
    unfold Grid.axes
    rw [List.map_map]
    apply List.map_congr_left
    intro d _
    simp only [Function.comp, Grid.atShells]
    split <;> rfl
  · rw [hax, hax', keys_axes, List.any_eq_true]
    rintro ⟨k, hk, hc⟩
    rw [get_axes hk, get_axes hk] at hc
    by_cases hks : k = shell
    · simp [hks] at hc
    · simp [Grid.atShells, hks, hsame] at hc

theorem seq_observed {n : Nat} {ls : List Nat} (hne : ls ≠ []) (hlt : ∀ j ∈ ls, j < n) :
    ObservedPositions n (some (.seq .other (ls.map (fun i : Nat => (i : ℤ))))) ls := by
  cases ls with
  | nil => exact absurd rfl hne
  | cons j ls =>
    show List.Forall₂ _ ((j :: ls).map (fun i : Nat => (i : ℤ))) _
    rw [List.forall₂_map_left_iff, List.forall₂_same]
    exact fun k hk => ⟨hlt k hk, .inl rfl⟩

/-- The arrays of the plasma at some shells. -/
theorem atShells_grid {G : Grid κ (AnyAxis ℝ)} {s : System} {time shell : κ} (hts : time ≠ shell) (hf : G.Fits [time, shell])
    {R : Nat → Nat → ℝ} {B U : Nat → Nat → Fin 3 → ℝ} {P : Plasma (Arr κ (AnyAxis ℝ) ℝ)}
    (h : PlasmaOn G s time shell R B U P.arrays) (ls : List Nat) (hne : 0 < ls.length) (hlt : ∀ j ∈ ls, j < G.size shell) :
    ∃ X Y P', P.atShells shell (ls.map (fun i : Nat => (i : ℤ))) = .ok P' ∧
      (G.axis time).getItem (usedArg false none) = .ok X ∧
      PlasmaOn (G.atShells time shell ls.length hne X Y) s time shell (fun i j => R i (ls.getD j 0)) (fun i j => B i (ls.getD j 0))
        (fun i j => U i (ls.getD j 0)) P' := by
  have hne' : ls ≠ [] := List.length_pos_iff.1 hne
  let indices : κ → Option Arg := fun k => if k = shell then some (.seq .other (ls.map (fun i : Nat => (i : ℤ)))) else none
  let lss : κ → List Nat := fun d => if d = shell then ls else List.range (G.size d)
  have ho : ∀ d ∈ [time, shell], ObservedPositions (G.size d) (indices d) (lss d) := by
    intro d _
    by_cases hd : d = shell
    · subst hd
      simp only [indices, lss, if_true]
      exact seq_observed hne' hlt
    · simp only [indices, lss, if_neg hd]
      rfl
  have hall : ([time, shell].map (fun d => indexOrFull (indices d))).all isValue = false := by
    simp [indices, hts, indexOrFull, isValue, Arg.full]
  obtain ⟨hp, hsup⟩ := observed_supported indices lss ho
  obtain ⟨H, hH, hax⟩ := exists_part hf _ lss hp (fun d hd => observed_ne (G.pos d) (ho d hd))
  have hX : (G.axis time).getItem (usedArg false none) = .ok (H.axis time) := by
    have := hax time (by simp)
    rw [hall] at this
    simpa only [indices, if_neg hts] using this
  have get : ∀ {u : List Term} {f : Nat → Nat → ℝ} {a : Arr κ (AnyAxis ℝ) ℝ},
      OnGrid G [time, shell] u (fun p => f (p time) (p shell)) (.array a) →
      ∃ r, subscriptObserved AnyAxis.getItem a indices = .ok r ∧
        OnGrid (G.atShells time shell ls.length hne (H.axis time) (H.axis shell)) [time, shell] u
          (fun p => f (p time) (ls.getD (p shell) 0)) r := by
    intro u f a ha
    obtain ⟨r, e, _, g⟩ := observed_grid ha (by simp) indices lss ho hH hax
    have hsz : ∀ d ∈ [time, shell], (G.atShells time shell ls.length hne (H.axis time) (H.axis shell)).size d = H.size d := by
      intro d hd
      rw [hH.size d hd]
      by_cases hds : d = shell
      · simp [Grid.atShells, lss, hds]
      · simp [Grid.atShells, lss, hds]
    refine ⟨r, e, (g.regrid hsz ?_).eq_inside (fun p hp => ?_)⟩
    · intro d hd
      simp only [List.mem_cons, List.not_mem_nil, or_false] at hd
      rcases hd with rfl | rfl
      · simp [Grid.atShells, hts]
      · simp [Grid.atShells]
    · have ht : p time < G.size time := by
        have := hp time (by simp)
        simpa [Grid.atShells, hts] using this
      simp only [whole, lss, if_true, if_neg hts]
      rw [List.getD_eq_getElem _ _ (by simpa using ht), List.getElem_range]
  obtain ⟨r, e1, g1⟩ := get (f := fun i j => R i j) h.r
  obtain ⟨br, e2, g2⟩ := get (f := fun i j => B i j 0) h.br
  obtain ⟨bt, e3, g3⟩ := get (f := fun i j => B i j 1) h.bt
  obtain ⟨bp, e4, g4⟩ := get (f := fun i j => B i j 2) h.bp
  obtain ⟨ur, e5, g5⟩ := get (f := fun i j => U i j 0) h.ur
  obtain ⟨ut, e6, g6⟩ := get (f := fun i j => U i j 1) h.ut
  obtain ⟨up, e7, g7⟩ := get (f := fun i j => U i j 2) h.up
  refine ⟨H.axis time, H.axis shell, ⟨r, br, bt, bp, ur, ut, up⟩, ?_, hX, ⟨g1, g2, g3, g4, g5, g6, g7⟩⟩
  simp only [indices] at e1 e2 e3 e4 e5 e6 e7
  simp only [Plasma.atShells, e1, e2, e3, e4, e5, e6, e7, bind, Except.bind]
  rfl

theorem shift_up {n : Nat} {ls : List Nat} (hlt : ∀ j ∈ ls, j < n) :
    shiftIndex 1 none (some ((n : ℤ) - 1)) (ls.map (fun i : Nat => (i : ℤ))) =
      (ls.map (shellAfter n)).map (fun i : Nat => (i : ℤ)) := by
  unfold shiftIndex
  rw [List.map_map, List.map_map]
  apply List.map_congr_left
  intro i hi
  have := hlt i hi
  simp only [Function.comp, shellAfter]
  split <;> omega

theorem shift_down {ls : List Nat} :
    shiftIndex (-1) (some 0) none (ls.map (fun i : Nat => (i : ℤ))) =
      (ls.map (fun i => i - 1)).map (fun i : Nat => (i : ℤ)) := by
  unfold shiftIndex
  rw [List.map_map, List.map_map]
  apply List.map_congr_left
  intro i hi
  simp only [Function.comp]
  split <;> omega

theorem getD_map {f : Nat → Nat} {ls : List Nat} {i : Nat} (h : i < ls.length) : (ls.map f).getD i 0 = f (ls.getD i 0) := by
  rw [List.getD_eq_getElem _ _ (by simpa using h), List.getD_eq_getElem _ _ h, List.getElem_map]

/-- The acceleration rate at some shells. -/
theorem rate_grid (order : List System) (ho : order ∈ orders) (s : System) (same inside : AnyAxis ℝ → AnyAxis ℝ → Bool)
    (hsame : ∀ x, same x x = true) (G : Grid κ (AnyAxis ℝ)) (time shell species energy : κ)
    (hnd : [time, shell, species, energy].Nodup) (hf : G.Fits [time, shell])
    (vdims : List κ) (hv : vdims.Sublist [species, energy]) (C AU mev L α β ρ : ℝ) (M Q K : Nat → ℝ)
    (V R : Nat → Nat → ℝ) (B U : Nat → Nat → Fin 3 → ℝ) (T : Particles κ (AnyAxis ℝ)) (P : Plasma (Arr κ (AnyAxis ℝ) ℝ))
    (hT : ParticlesOn G s species energy vdims C AU mev L α β ρ M Q K V T) (hP : PlasmaOn G s time shell R B U P.arrays)
    (hone : G.size species = 1 ∨ G.size energy = 1) (hC : 0 < C) (hM : ∀ i, 0 < M i) (hQ : ∀ i, Q i ≠ 0) (hK : ∀ i, 0 ≤ K i)
    (hmev : 0 ≤ mev) (hB : ∀ i j, B i j ≠ 0) (hU : ∀ i j, U i j ≠ 0) (ls : List Nat) (hne : 0 < ls.length)
    (hlt : ∀ j ∈ ls, j < G.size shell) :
    ∃ X a, rateAtShells order same inside shell species energy T P (G.size shell) (ls.map (fun i : Nat => (i : ℤ))) = .ok a ∧
      (G.axis time).getItem (usedArg false none) = .ok X ∧
      OnGrid (G.atShells time shell ls.length hne X (.points ⟨ls.map (fun i : Nat => (i : ℤ)), none⟩))
        [time, shell, species, energy] [⟨1, c! "s", -1⟩] (fun p =>
          rateBetween (U (p time) (shellAfter (G.size shell) (ls.getD (p shell) 0))) (U (p time) (ls.getD (p shell) 0 - 1))
            (diffusion (freePath C AU mev L α β (M (p species)) (K (p energy)) (R (p time) (shellAfter (G.size shell) (ls.getD (p shell) 0))))
              ρ (V (p species) (p energy)) (B (p time) (shellAfter (G.size shell) (ls.getD (p shell) 0)))
              (U (p time) (shellAfter (G.size shell) (ls.getD (p shell) 0))))
            (diffusion (freePath C AU mev L α β (M (p species)) (K (p energy)) (R (p time) (ls.getD (p shell) 0 - 1)))
              ρ (V (p species) (p energy)) (B (p time) (ls.getD (p shell) 0 - 1)) (U (p time) (ls.getD (p shell) 0 - 1)))) a := by
  have hnd' := hnd
  simp only [List.nodup_cons, List.mem_cons, List.not_mem_nil, or_false, not_or, not_false_eq_true, List.nodup_nil, and_true] at hnd'
  obtain ⟨⟨hts, htp, hte⟩, ⟨hsp, hse⟩, hpe⟩ := hnd'
  have hts2 : [time, shell].Nodup := by simp [hts]
  obtain ⟨v1, v2, v3, v4, v5, v6, v7, v8⟩ := rate_products order ho s (mem_bothSystems s)
  obtain ⟨_, _, u3, u4, _, q2, _⟩ := flow_powers s (mem_bothSystems s)
  have l1 : (ls.map (shellAfter (G.size shell))).length = ls.length := List.length_map _
  have l2 : (ls.map (fun i => i - 1)).length = ls.length := List.length_map _
  obtain ⟨X, Y1, P1, e1, x1, p1⟩ := atShells_grid hts hf hP (ls.map (shellAfter (G.size shell))) (by rw [l1]; exact hne) (by
    intro j hj
    obtain ⟨i, hi, rfl⟩ := List.mem_map.1 hj
    have := hlt i hi
    unfold shellAfter; omega)
  obtain ⟨X', Y2, P2, e2, x2, p2⟩ := atShells_grid hts hf hP (ls.map (fun i => i - 1)) (by rw [l2]; exact hne) (by
    intro j hj
    obtain ⟨i, hi, rfl⟩ := List.mem_map.1 hj
    have := hlt i hi
    omega)
  rw [x1] at x2
  cases x2
  simp only [l1] at p1
  simp only [l2] at p2
  have hmer := merge_sublist hts2 (List.Sublist.refl [time, shell])
  have sz : ∀ (Y Z : AnyAxis ℝ) d, (G.atShells time shell ls.length hne X Y).size d = (G.atShells time shell ls.length hne X Z).size d :=
    fun _ _ _ => rfl
  obtain ⟨ux, e3, g3⟩ := magnitude_flow s (inside := inside) hsame p1
  obtain ⟨a, e4, g4⟩ := mul_regrid order true (fun x y => x * y) (G.atShells time shell ls.length hne X Y2) p1.ur p2.ur hmer
    (combine_mul v4) (fun _ _ => rfl) (fun _ _ => rfl) (fun _ _ => rfl) (fun d h1 h2 => absurd h1 h2)
  obtain ⟨b, e5, g5⟩ := mul_regrid order true (fun x y => x * y) (G.atShells time shell ls.length hne X Y2) p1.ut p2.ut hmer
    (combine_mul v4) (fun _ _ => rfl) (fun _ _ => rfl) (fun _ _ => rfl) (fun d h1 h2 => absurd h1 h2)
  obtain ⟨ab, e6, g6⟩ := add_grid (inside := inside) hsame (fun x y => x + y) g4 g5 q2
  obtain ⟨c, e7, g7⟩ := mul_regrid order true (fun x y => x * y) (G.atShells time shell ls.length hne X Y2) p1.up p2.up hmer
    (combine_mul v4) (fun _ _ => rfl) (fun _ _ => rfl) (fun _ _ => rfl) (fun d h1 h2 => absurd h1 h2)
  obtain ⟨dt, e8, g8⟩ := add_grid (inside := inside) hsame (fun x y => x + y) g6 g7 q2
  obtain ⟨uu, e9, g9⟩ := mul_grid order true (fun x y => x * y) g3 g3 hmer (combine_mul v4)
  obtain ⟨ra, e10, g10⟩ := mul_regrid order false (fun x y => x / y) (G.atShells time shell ls.length hne X Y1) g8 g9 hmer
    (combine_div v5) (fun _ _ => rfl) (fun _ _ => rfl) (fun _ _ => rfl) (fun d h1 h2 => absurd h1 h2)
  obtain ⟨df, e11, g11⟩ := scalar_add (same := same) (inside := inside) (fun x y => x - y) (x := 1) (v := unitless)
    (a := .object .scalar ⟨⟨[], fun _ => 1⟩, unitless⟩) ⟨_, rfl, rfl, rfl, rfl⟩ g10 unitless_powers.2
  obtain ⟨ad, e12, g12⟩ := map_grid (w := unitless) g11 (fun x => |x|)
  obtain ⟨du, e13, g13⟩ := mul_grid order true (fun x y => x * y) g3 g12 hmer (combine_mul v6)
  have hax : P.ur.axes = (⟨(G.atShells time shell ls.length hne X Y1).size, G.axis, (G.atShells time shell ls.length hne X Y1).pos⟩ : Grid κ (AnyAxis ℝ)).axes [time, shell] := by
    obtain ⟨hn, c, hc, hp, hd, hs, hax, hcu, hg⟩ := hP.ur
    cases hc
    exact hax
  have reg : ∀ Y, ParticlesOn (G.atShells time shell ls.length hne X Y) s species energy vdims C AU mev L α β ρ M Q K V T := fun Y =>
    hT.regrid hv (fun d hd => by
      simp only [List.mem_cons, List.not_mem_nil, or_false] at hd
      rcases hd with rfl | rfl
      · simp [Grid.atShells, Ne.symm hsp]
      · simp [Grid.atShells, Ne.symm hse]) (fun d hd => by
      simp only [List.mem_cons, List.not_mem_nil, or_false] at hd
      rcases hd with rfl | rfl
      · simp [Grid.atShells, Ne.symm hsp, Ne.symm htp]
      · simp [Grid.atShells, Ne.symm hse, Ne.symm hte])
  have hone' : ∀ Y, (G.atShells time shell ls.length hne X Y).size species = 1 ∨ (G.atShells time shell ls.length hne X Y).size energy = 1 := by
    intro Y
    simpa [Grid.atShells, Ne.symm hsp, Ne.symm hse] using hone
  obtain ⟨k1, e14, g14⟩ := kxx_grid order ho s same inside hsame time shell species energy hnd vdims hv C AU mev L α β ρ M Q K V _ _ _
    T P1 (reg Y1) p1 ⟨(G.atShells time shell ls.length hne X Y1).size, G.axis, (G.atShells time shell ls.length hne X Y1).pos⟩
    (fun _ => rfl) (hone' Y1) hC hM hQ hK hmev (fun _ _ => hB _ _) (fun _ _ => hU _ _)
  obtain ⟨k2, e15, g15⟩ := kxx_grid order ho s same inside hsame time shell species energy hnd vdims hv C AU mev L α β ρ M Q K V _ _ _
    T P2 (reg Y2) p2 ⟨(G.atShells time shell ls.length hne X Y1).size, G.axis, (G.atShells time shell ls.length hne X Y1).pos⟩
    (fun _ => rfl) (hone' Y2) hC hM hQ hK hmev (fun _ _ => hB _ _) (fun _ _ => hU _ _)
  obtain ⟨dx, e16, g16⟩ := sum_grid hsame hne ls g14 g15 v8
  obtain ⟨z, e17, g17⟩ := mul_regrid order false (fun x y => x / y)
    (G.atShells time shell ls.length hne X (.points ⟨ls.map (fun i : Nat => (i : ℤ)), none⟩)) g13 g16
    (merge_sublist' hnd (by simp)) (combine_div v7) (fun _ _ => rfl) (fun _ _ => rfl) (fun _ _ => rfl)
    (fun d h1 h2 => absurd (by simp only [List.mem_cons, List.not_mem_nil, or_false] at h1 ⊢; tauto) h2)
  refine ⟨X, z, ?_, x1, g17.eq_inside (fun p hp => ?_)⟩
  · have e12' : unary (fun x => |x|) df = .ok ad := by
      obtain ⟨hn, c, rfl, hp, hd, hs, hax, hcu, hg⟩ := g11
      simp only [Physical.unary, Operand.unit, hcu]
      exact e12
    rw [← hax] at e14 e15
    simp only [rateAtShells, times, over, plus, minus, shift_up hlt, shift_down, e1, e2, e3, e4, e5, e6, e7, e8, e9, e10, e11, e12',
      e13, e14, e15, e16, e17, bind, Except.bind]
  · have hps : p shell < ls.length := by
      have := hp shell (by simp)
      simpa [Grid.atShells] using this
    simp only [getD_map hps, rateBetween, dot3, pow_two]

theorem selects_trans {α : Type} {x y z : List α} {l1 l2 : List Nat} (h1 : List.Forall₂ (fun j v => x[j]? = some v) l1 y)
    (h2 : List.Forall₂ (fun j v => y[j]? = some v) l2 z) :
    List.Forall₂ (fun j v => x[j]? = some v) (l2.map (fun j => l1.getD j 0)) z := by
  rw [List.forall₂_map_left_iff]
  refine h2.imp (fun j v hj => ?_)
  obtain ⟨hlt, rfl⟩ := List.getElem?_eq_some_iff.1 hj
  have hl : j < l1.length := by rw [h1.length_eq]; exact hlt
  rw [List.getD_eq_getElem _ _ hl]
  exact List.Forall₂.get h1 hl hlt

theorem anySelects_trans {x y z : AnyAxis ℝ} {l1 l2 : List Nat} (h1 : x.Selects l1 y) (h2 : y.Selects l2 z) :
    x.Selects (l2.map (fun j => l1.getD j 0)) z := by
  cases x <;> cases y <;> first | exact h1.elim | skip
  all_goals cases z <;> first | exact h2.elim | skip
  · exact selects_trans h1 h2
  · exact selects_trans h1 h2
  · exact ⟨h2.1.trans h1.1, selects_trans h1.2 h2.2⟩

theorem map_range_getD (l : List Nat) : (List.range l.length).map (fun j => l.getD j 0) = l := by
  apply List.ext_getElem
  · simp
  · intro i h1 h2
    rw [List.getElem_map, List.getElem_range, List.getD_eq_getElem _ _ h2]

theorem map_getD_range {n : Nat} {l : List Nat} (h : ∀ j ∈ l, j < n) : l.map (fun j => (List.range n).getD j 0) = l := by
  conv_rhs => rw [← List.map_id l]
  apply List.map_congr_left
  intro j hj
  rw [List.getD_eq_getElem _ _ (by simpa using h j hj), List.getElem_range]
  rfl

theorem observed_lt {n : Nat} {i : Option Arg} {l : List Nat} (h : ObservedPositions n i l) : ∀ j ∈ l, j < n := by
  cases i with
  | none => rw [show l = List.range n from h]; simp
  | some i => cases i with
    | int j => exact Positions.lt (a := .int j) h
    | slice a b s => exact h.elim
    | ellipsis => exact h.elim
    | seq k is => cases is with
      | nil => rw [show l = List.range n from h]; simp
      | cons j is =>
        cases k with
        | list => exact h.elim
        | array => exact h.elim
        | other => exact Positions.lt (a := .seq .other (j :: is)) h

/-- **C99.**  With one species or one energy, and for all shells or a sequence of shells, the acceleration rate is computed at
the times, shells and energies that were requested, in units of 1/s.  It is the rate between the next shell and the previous
one, each of which is replaced with the shell itself at the ends.  What is missing: more than one species (C98), and a single
shell (`c99_not_single`). -/
theorem c99_rate_partial (order : List System) (ho : order ∈ orders) (s : System) (same inside : AnyAxis ℝ → AnyAxis ℝ → Bool)
    (hsame : ∀ x, same x x = true) (G : Grid κ (AnyAxis ℝ)) (time shell species energy : κ)
    (hnd : [time, shell, species, energy].Nodup) (hf : G.Fits [time, shell, species, energy]) (stored : Option (List ℤ))
    (hshell : G.axis shell = .points ⟨(List.range (G.size shell)).map (fun i : Nat => (i : ℤ)), stored⟩)
    (vdims : List κ) (hv : vdims.Sublist [species, energy]) (C AU mev L α β ρ : ℝ) (M Q K : Nat → ℝ)
    (V R : Nat → Nat → ℝ) (B U : Nat → Nat → Fin 3 → ℝ) (T : Particles κ (AnyAxis ℝ)) (P : Plasma (Arr κ (AnyAxis ℝ) ℝ))
    (hT : ParticlesOn G s species energy vdims C AU mev L α β ρ M Q K V T) (hP : PlasmaOn G s time shell R B U P.arrays)
    (hone : G.size species = 1 ∨ G.size energy = 1) (hC : 0 < C) (hM : ∀ i, 0 < M i) (hQ : ∀ i, Q i ≠ 0) (hK : ∀ i, 0 ≤ K i)
    (hmev : 0 ≤ mev) (hB : ∀ i j, B i j ≠ 0) (hU : ∀ i j, U i j ≠ 0) (indices : κ → Option Arg) (ls : κ → List Nat)
    (ht : ObservedPositions (G.size time) (indices time) (ls time))
    (he : ObservedPositions (G.size energy) (indices energy) (ls energy))
    (hsh : ObservedPositions (G.size shell) (indices shell) (ls shell))
    (hseq : indices shell = none ∨ ∃ l, l ≠ [] ∧ indices shell = some (.seq .other (l.map (fun i : Nat => (i : ℤ)))))
    (hls : ls species = List.range (G.size species)) :
    ∃ (a : Operand κ (AnyAxis ℝ) ℝ) (H : Grid κ (AnyAxis ℝ)),
      accelerationRate order same inside time shell species energy T P (G.size shell) indices = .ok a ∧
      G.Part [time, shell, species, energy] ls H ∧
      OnGrid H [time, shell, species, energy] [⟨1, c! "s", -1⟩] (fun pos =>
        let p := whole ls pos
        let next := shellAfter (G.size shell) (p shell)
        let k := fun i => diffusion (freePath C AU mev L α β (M (p species)) (K (p energy)) (R (p time) i)) ρ
          (V (p species) (p energy)) (B (p time) i) (U (p time) i)
        rateBetween (U (p time) next) (U (p time) (p shell - 1)) (k next) (k (p shell - 1))) a := by
  have hnd' := hnd
  simp only [List.nodup_cons, List.mem_cons, List.not_mem_nil, or_false, not_or, not_false_eq_true, List.nodup_nil, and_true] at hnd'
  obtain ⟨⟨hts, htp, hte⟩, ⟨hsp, hse⟩, hpe⟩ := hnd'
  have hne : 0 < (ls shell).length := List.length_pos_iff.2 (observed_ne (G.pos shell) hsh)
  have hlt := observed_lt hsh
  have hrs : rateShells (G.size shell) (indices shell) = (ls shell).map (fun i : Nat => (i : ℤ)) := by
    rcases hseq with h | ⟨l, hl, h⟩
    · rw [h] at hsh ⊢
      rw [show ls shell = List.range (G.size shell) from hsh]
      rfl
    · rw [h] at hsh ⊢
      have : ls shell = l := by
        cases l with
        | nil => exact absurd rfl hl
        | cons i l =>
          have hsh : List.Forall₂ (fun i j => (j : Nat) < G.size shell ∧ ((j : ℤ) = i ∨ (j : ℤ) = i + G.size shell))
            ((i :: l).map (fun i : Nat => (i : ℤ))) (ls shell) := hsh
          rw [List.forall₂_map_left_iff] at hsh
          have : List.Forall₂ (fun a b => a = b) (i :: l) (ls shell) := hsh.imp (fun a b hab => by omega)
          exact (List.forall₂_eq_eq_eq ▸ this : (i :: l) = ls shell).symm
      rw [this]
      rfl
  obtain ⟨X, a, e1, hX, g1⟩ := rate_grid order ho s same inside hsame G time shell species energy hnd
    (fun d hd => hf d (by simp only [List.mem_cons, List.not_mem_nil, or_false] at hd ⊢; tauto)) vdims hv C AU mev L α β ρ M Q K V R
    B U T P hT hP hone hC hM hQ hK hmev hB hU (ls shell) hne hlt
  obtain ⟨Z, hZ1, hZ2⟩ := anyAxis_selects (x := G.axis time) (a := usedArg false none) (l := List.range (G.size time)) (by
    rw [hf time (by simp)]
    exact (used_cases (i := none) (all := false) (n := G.size time) (l := List.range (G.size time)) rfl (by simp)).1)
  rw [hX] at hZ1
  cases hZ1
  have hXl : X.length = G.size time := by rw [AnyAxis.Selects.length_eq hZ2, List.length_range]
  obtain ⟨b, hb⟩ : ∃ b, a = .array b := ⟨_, g1.array.choose_spec.1⟩
  subst hb
  let I : κ → Option Arg := fun k => if k = time ∨ k = energy then indices k else none
  let ms : κ → List Nat := fun k => if k = time ∨ k = energy then ls k else if k = shell then List.range (ls shell).length
    else List.range (G.size k)
  have hst : ¬ (shell = time ∨ shell = energy) := by rintro (h | h); exacts [hts h.symm, hse h]
  have hpt : ¬ (species = time ∨ species = energy) := by rintro (h | h); exacts [htp h.symm, hpe h]
  obtain ⟨r, H, e2, hpart, _, g2⟩ := c87_observed g1 (by
      intro d hd
      simp only [List.mem_cons, List.not_mem_nil, or_false] at hd
      rcases hd with rfl | rfl | rfl | rfl
      · simp [Grid.atShells, hts, hXl]
      · simp [Grid.atShells, AnyAxis.length]
      · simp [Grid.atShells, Ne.symm hsp, Ne.symm htp, hf d (by simp)]
      · simp [Grid.atShells, Ne.symm hse, Ne.symm hte, hf d (by simp)]) (by simp) I ms (by
      intro d hd
      simp only [List.mem_cons, List.not_mem_nil, or_false] at hd
      rcases hd with rfl | rfl | rfl | rfl
      · simpa [Grid.atShells, hts, I, ms] using ht
      · simp only [I, ms, if_neg hst, if_true]
        simp only [Grid.atShells, if_true]
        rfl
      · simp only [I, ms, if_neg hpt, if_neg (Ne.symm hsp)]
        simp only [Grid.atShells, if_neg (Ne.symm hsp)]
        rfl
      · simpa [Grid.atShells, Ne.symm hse, I, ms] using he)
  refine ⟨r, H, ?_, ⟨?_, ?_⟩, g2.eq_inside (fun p hp => ?_)⟩
  · simp only [accelerationRate, hrs, e1, bind, Except.bind]
    exact e2
  · intro d hd
    rw [hpart.size d hd]
    simp only [List.mem_cons, List.not_mem_nil, or_false] at hd
    rcases hd with rfl | rfl | rfl | rfl
    · simp [ms]
    · simp [ms, hst]
    · simp only [ms, if_neg hpt, if_neg (Ne.symm hsp), hls]
    · simp [ms]
  · intro d hd
    have := hpart.axis d hd
    simp only [List.mem_cons, List.not_mem_nil, or_false] at hd
    rcases hd with rfl | rfl | rfl | rfl
    · simp only [ms, Grid.atShells, if_neg hts, true_or, if_true] at this
      have := anySelects_trans hZ2 this
      rwa [map_getD_range (observed_lt ht)] at this
    · simp only [ms, if_neg hst, Grid.atShells, if_true] at this
      have hsel : (G.axis d).Selects (ls d) (.points ⟨(ls d).map (fun i : Nat => (i : ℤ)), none⟩) := by
        rw [hshell]
        show List.Forall₂ _ (ls d) ((ls d).map (fun i : Nat => (i : ℤ)))
        rw [List.forall₂_map_right_iff, List.forall₂_same]
        intro j hj
        simp [hlt j hj]
      have := anySelects_trans hsel this
      rwa [map_range_getD] at this
    · simp only [ms, if_neg hpt, if_neg (Ne.symm hsp), Grid.atShells, if_neg (Ne.symm htp)] at this
      rwa [hls]
    · simp only [ms, or_true, if_true, Grid.atShells, if_neg (Ne.symm hse), if_neg (Ne.symm hte)] at this
      exact this
  · have w1 : whole ms p time = whole ls p time := by simp [whole, ms]
    have w2 : whole ms p energy = whole ls p energy := by simp [whole, ms]
    have w3 : whole ms p species = whole ls p species := by simp only [whole, ms, if_neg hpt, if_neg (Ne.symm hsp), hls]
    have w4 : (ls shell).getD (whole ms p shell) 0 = whole ls p shell := by
      have hps : p shell < (ls shell).length := by
        have := hp shell (by simp)
        rw [hpart.size shell (by simp)] at this
        simpa [ms, hst] using this
      simp only [whole, ms, if_neg hst, if_true]
      rw [List.getD_eq_getElem (List.range _) _ (by simpa using hps), List.getElem_range]
    simp only [w1, w2, w3, w4]

/-- The rate between two shells with the same flow is zero. -/
theorem c99_uniform (u : Fin 3 → ℝ) (hu : u ≠ 0) (k1 k2 : ℝ) : rateBetween u u k1 k2 = 0 := by
  have h := len3_pos hu
  have h2 : dot3 u u = len3 u ^ 2 := by
    unfold len3 at h ⊢
    rw [Real.sq_sqrt]
    unfold dot3
    nlinarith [mul_self_nonneg (u 0), mul_self_nonneg (u 1), mul_self_nonneg (u 2)]
  unfold rateBetween
  rw [h2, div_self (by positivity)]
  simp

/-- The rate is not negative. -/
theorem c99_nonneg (u1 u2 : Fin 3 → ℝ) (k1 k2 : ℝ) (h1 : 0 ≤ k1) (h2 : 0 ≤ k2) : 0 ≤ rateBetween u1 u2 k1 k2 := by
  have a1 : 0 ≤ len3 u1 := Real.sqrt_nonneg _
  have a2 : 0 ≤ len3 u2 := Real.sqrt_nonneg _
  unfold rateBetween
  positivity

/-- The index of a single shell is not a sequence. -/
theorem single_shell_request (n i : Nat) (hi : i < n) (shell radius : κ) (r : Request κ) :
    implementShell (.points ⟨(List.range n).map (fun i : Nat => (i : ℤ)), none⟩) shell radius r (.points [(i : ℤ)]) =
      .ok (r.setIndex shell (.int i)) := by
  have hm : (i : ℤ) ∈ (List.range n).map (fun i : Nat => (i : ℤ)) := List.mem_map.2 ⟨i, List.mem_range.2 hi, rfl⟩
  have hx : ((List.range n).map (fun i : Nat => (i : ℤ))).idxOf (i : ℤ) = i := by
    have hnd : ((List.range n).map (fun i : Nat => (i : ℤ))).Nodup :=
      List.Nodup.map (fun a b h => by simpa using h) List.nodup_range
    have := hnd.idxOf_getElem i (by simpa using hi)
    simpa using this
  simp [implementShell, Axis.Axis.indexPoints, Axis.normalizeTargets, Axis.collect, Axis.pointIndex, hm, hx, Axis.Index.ofList, indexArg]

/-- The request of a single shell gives the rate at all shells. -/
theorem c99_not_single (order : List System) (ho : order ∈ orders) (s : System) (same inside : AnyAxis ℝ → AnyAxis ℝ → Bool)
    (hsame : ∀ x, same x x = true) (G : Grid κ (AnyAxis ℝ)) (time shell species energy : κ)
    (hnd : [time, shell, species, energy].Nodup) (hf : G.Fits [time, shell, species, energy]) (stored : Option (List ℤ))
    (hshell : G.axis shell = .points ⟨(List.range (G.size shell)).map (fun i : Nat => (i : ℤ)), stored⟩)
    (vdims : List κ) (hv : vdims.Sublist [species, energy]) (C AU mev L α β ρ : ℝ) (M Q K : Nat → ℝ)
    (V R : Nat → Nat → ℝ) (B U : Nat → Nat → Fin 3 → ℝ) (T : Particles κ (AnyAxis ℝ)) (P : Plasma (Arr κ (AnyAxis ℝ) ℝ))
    (hT : ParticlesOn G s species energy vdims C AU mev L α β ρ M Q K V T) (hP : PlasmaOn G s time shell R B U P.arrays)
    (hone : G.size species = 1 ∨ G.size energy = 1) (hC : 0 < C) (hM : ∀ i, 0 < M i) (hQ : ∀ i, Q i ≠ 0) (hK : ∀ i, 0 ≤ K i)
    (hmev : 0 ≤ mev) (hB : ∀ i j, B i j ≠ 0) (hU : ∀ i j, U i j ≠ 0) (i : Nat) :
    ∃ (a : Operand κ (AnyAxis ℝ) ℝ) (H : Grid κ (AnyAxis ℝ)) (A : (κ → Nat) → ℝ),
      accelerationRate order same inside time shell species energy T P (G.size shell)
        (fun k => if k = shell then some (.int i) else none) = .ok a ∧
      OnGrid H [time, shell, species, energy] [⟨1, c! "s", -1⟩] A a ∧ H.size shell = G.size shell := by
  have hnd' := hnd
  simp only [List.nodup_cons, List.mem_cons, List.not_mem_nil, or_false, not_or, not_false_eq_true, List.nodup_nil, and_true] at hnd'
  obtain ⟨⟨hts, htp, hte⟩, ⟨hsp, hse⟩, hpe⟩ := hnd'
  obtain ⟨a, H, e, hp, g⟩ := c99_rate_partial order ho s same inside hsame G time shell species energy hnd hf stored hshell vdims hv
    C AU mev L α β ρ M Q K V R B U T P hT hP hone hC hM hQ hK hmev hB hU (fun _ => none) (fun k => List.range (G.size k)) rfl rfl
    rfl (.inl rfl) rfl
  refine ⟨a, H, _, ?_, g, ?_⟩
  · rw [← e]
    have : (fun k => if k = time ∨ k = energy then (if k = shell then some (Arg.int i) else none) else none) =
        (fun k : κ => if k = time ∨ k = energy then (none : Option Arg) else none) := by
      funext k
      by_cases hk : k = time ∨ k = energy
      · have : k ≠ shell := by rintro rfl; rcases hk with h | h; exacts [hts h.symm, hse h]
        simp [this]
      · simp [hk]
    simp only [accelerationRate, this]
    simp only [if_true, rateShells]
  · rw [hp.size shell (by simp), List.length_range]

/-- a grid of two times, three shells, one species and four energies -/
noncomputable def windGrid : Grid String (AnyAxis ℝ) :=
  ⟨fun d => if d = "time" then 2 else if d = "shell" then 3 else if d = "species" then 1 else 4,
   fun d => if d = "time" then .coordinates ⟨[0, 1], none⟩ [⟨1, c! "s", 1⟩] else if d = "shell" then .points ⟨[0, 1, 2], none⟩
     else if d = "species" then .symbols ⟨[c! "H+"], none⟩ else .coordinates ⟨[1, 2, 3, 4], none⟩ [⟨1, c! "J", 1⟩],
   fun d => by split_ifs <;> norm_num⟩

theorem wind_fits : windGrid.Fits ["time", "shell", "species", "energy"] := by
  intro d hd
  simp only [List.mem_cons, List.not_mem_nil, or_false] at hd
  rcases hd with rfl | rfl | rfl | rfl <;> simp [windGrid, AnyAxis.length]

theorem onGrid_arr (G : Grid String (AnyAxis ℝ)) (u : List Term) (g : Nat → Nat → ℝ) :
    ∃ a : Arr String (AnyAxis ℝ) ℝ, OnGrid G ["time", "shell"] u (fun p => g (p "time") (p "shell")) (.array a) := by
  obtain ⟨a, ha⟩ := onGrid_ofFn G ["time", "shell"] (by decide) u (fun l => g (l.getD 0 0) (l.getD 1 0))
  obtain ⟨c, rfl, _⟩ := ha.array
  exact ⟨c, ha⟩

theorem plasma_exists (G : Grid String (AnyAxis ℝ)) (s : System) (R : Nat → Nat → ℝ) (B U : Nat → Nat → Fin 3 → ℝ) :
    ∃ P : Plasma (Arr String (AnyAxis ℝ) ℝ), PlasmaOn G s "time" "shell" R B U P.arrays := by
  obtain ⟨r, h1⟩ := onGrid_arr G (unitOf s (c! "length")) R
  obtain ⟨br, h2⟩ := onGrid_arr G (unitOf s (c! "magnetic field")) (fun i j => B i j 0)
  obtain ⟨bt, h3⟩ := onGrid_arr G (unitOf s (c! "magnetic field")) (fun i j => B i j 1)
  obtain ⟨bp, h4⟩ := onGrid_arr G (unitOf s (c! "magnetic field")) (fun i j => B i j 2)
  obtain ⟨ur, h5⟩ := onGrid_arr G (unitOf s (c! "velocity")) (fun i j => U i j 0)
  obtain ⟨ut, h6⟩ := onGrid_arr G (unitOf s (c! "velocity")) (fun i j => U i j 1)
  obtain ⟨up, h7⟩ := onGrid_arr G (unitOf s (c! "velocity")) (fun i j => U i j 2)
  exact ⟨⟨r, br, bt, bp, ur, ut, up⟩, ⟨h1, h2, h3, h4, h5, h6, h7⟩⟩

theorem particles_exist (G : Grid String (AnyAxis ℝ)) (s : System) (C AU mev L α β ρ : ℝ) (M Q K : Nat → ℝ) (V : Nat → Nat → ℝ) :
    ∃ T : Particles String (AnyAxis ℝ), ParticlesOn G s "species" "energy" ["species", "energy"] C AU mev L α β ρ M Q K V T := by
  obtain ⟨m, hm⟩ := onGrid_ofFn G ["species"] (by decide) (unitOf s (c! "mass")) (fun l => M (l.getD 0 0))
  obtain ⟨q, hq⟩ := onGrid_ofFn G ["species"] (by decide) (unitOf s (c! "charge")) (fun l => Q (l.getD 0 0))
  obtain ⟨e, he⟩ := onGrid_ofFn G ["energy"] (by decide) (unitOf s (c! "energy")) (fun l => K (l.getD 0 0))
  obtain ⟨v, hv⟩ := onGrid_ofFn G ["species", "energy"] (by decide) (unitOf s (c! "velocity"))
    (fun l => V (l.getD 0 0) (l.getD 1 0))
  exact ⟨⟨.object .scalar ⟨⟨[], fun _ => C⟩, unitOf s (c! "velocity")⟩, .object .scalar ⟨⟨[], fun _ => AU⟩, unitOf s (c! "length")⟩,
    mev, ⟨⟨[1], fun _ => L⟩, unitOf s (c! "length")⟩, ⟨⟨[1], fun _ => α⟩, unitless⟩, ⟨⟨[1], fun _ => β⟩, unitless⟩,
    ⟨⟨[1], fun _ => ρ⟩, unitless⟩, m, q, e, v⟩, ⟨_, rfl, rfl, rfl, rfl⟩, ⟨_, rfl, rfl, rfl, rfl⟩, rfl, ⟨rfl, rfl, rfl⟩,
    ⟨rfl, rfl, rfl⟩, ⟨rfl, rfl, rfl⟩, ⟨rfl, rfl, rfl⟩, hm, hq, he, hv⟩

/-- The hypotheses of `c99_rate_partial` and `c99_not_single` are met by a flow that slows down on a grid with three shells:
two shells are requested, and then a single shell, which gives all three. -/
example : ∃ T P a H b I, accelerationRate [.mks, .cgs] (fun _ _ => true) (fun _ _ => true) "time" "shell" "species"
      "energy" T P 3 (fun k => if k = "shell" then some (.seq .other [2, 0]) else none) = .ok a ∧
    windGrid.Part ["time", "shell", "species", "energy"] (fun d => if d = "shell" then [2, 0] else List.range (windGrid.size d)) H ∧
    accelerationRate [.mks, .cgs] (fun _ _ => true) (fun _ _ => true) "time" "shell" "species"
      "energy" T P 3 (fun k => if k = "shell" then some (.int 1) else none) = .ok b ∧
    ∃ A, OnGrid I ["time", "shell", "species", "energy"] [⟨1, c! "s", -1⟩] A b ∧ I.size "shell" = 3 := by
  obtain ⟨T, hT⟩ := particles_exist windGrid .mks 3 1 1 1 1 1 (1/2) (fun _ => 1) (fun _ => 1) (fun i => (i : ℝ)) (fun _ i => (i : ℝ))
  obtain ⟨P, hP⟩ := plasma_exists windGrid .mks (fun _ j => (j : ℝ) + 1) (fun _ _ => ![1, 1, 0]) (fun _ j => ![1 / ((j : ℝ) + 1), 0, 0])
  have hU : ∀ i j : Nat, (![1 / ((j : ℝ) + 1), 0, 0] : Fin 3 → ℝ) ≠ 0 := fun _ j h => by
    have := congrFun h 0
    have hp : (0:ℝ) < 1 / ((j : ℝ) + 1) := by positivity
    simp at this
    simp [this] at hp
  have hB : ∀ i j : Nat, (![1, 1, 0] : Fin 3 → ℝ) ≠ 0 := fun _ _ h => by
    have := congrFun h 0
    simp at this
  obtain ⟨a, H, e, hp, _⟩ := c99_rate_partial [.mks, .cgs] (by decide) .mks (fun _ _ => true) (fun _ _ => true)
    (fun _ => rfl) windGrid "time" "shell" "species" "energy" (by decide) wind_fits none rfl ["species", "energy"]
    (List.Sublist.refl _) 3 1 1 1 1 1 (1/2) _ _ _ _ _ _ _ T P hT hP (.inl rfl) (by norm_num) (fun _ => by norm_num)
    (fun _ => by norm_num) (fun i => by positivity) (by norm_num) hB hU
    (fun k => if k = "shell" then some (.seq .other [2, 0]) else none)
    (fun d => if d = "shell" then [2, 0] else List.range (windGrid.size d)) rfl rfl
    (seq_observed (ls := [2, 0]) (by simp) (by decide)) (.inr ⟨[2, 0], by simp, rfl⟩) rfl
  obtain ⟨b, I, A, e', g', hs'⟩ := c99_not_single [.mks, .cgs] (by decide) .mks (fun _ _ => true) (fun _ _ => true)
    (fun _ => rfl) windGrid "time" "shell" "species" "energy" (by decide) wind_fits none rfl ["species", "energy"]
    (List.Sublist.refl _) 3 1 1 1 1 1 (1/2) _ _ _ _ _ _ _ T P hT hP (.inl rfl) (by norm_num) (fun _ => by norm_num)
    (fun _ => by norm_num) (fun i => by positivity) (by norm_num) hB hU 1
  exact ⟨T, P, a, H, b, I, e, hp, e', A, g', hs'⟩

end Eprem.Observable
