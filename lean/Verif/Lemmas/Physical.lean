import Verif.Spec.Physical
import Verif.Lemmas.NamedArray
import Verif.Props.UnitProducts
import Verif.Lemmas.MetricDimension
import Mathlib.Data.List.GetD

/-!
# Lemmas about broadcasting, and about physical objects
-/

namespace Eprem.Numeric

variable {α β γ : Type}

theorem broadcastDim_ok {m n k : Nat} (h : broadcastDim m n = .ok k) :
    (m = n ∧ k = m) ∨ (m = 1 ∧ k = n) ∨ (n = 1 ∧ k = m) := by
  unfold broadcastDim at h
  split at h
  · cases h; exact .inl ⟨by assumption, rfl⟩
  · split at h
    · cases h; exact .inr (.inl ⟨by assumption, rfl⟩)
    · split at h
      · cases h; exact .inr (.inr ⟨by assumption, rfl⟩)
      · cases h

theorem broadcast_inv : ∀ {s t r : List Nat}, broadcastShape s t = .ok r →
    r.length = s.length ∧ r.length = t.length ∧ ∀ i, i < r.length →
      (s.getD i 1 = t.getD i 1 ∧ r.getD i 1 = s.getD i 1) ∨ (s.getD i 1 = 1 ∧ r.getD i 1 = t.getD i 1) ∨
        (t.getD i 1 = 1 ∧ r.getD i 1 = s.getD i 1)
  | [], [], r, h => by cases h; simp
  | m :: s, n :: t, r, h => by
    simp only [broadcastShape] at h
    split at h
    · cases h
    next k hk =>
      split at h
      · cases h
      next r' hr =>
        cases h
        obtain ⟨h1, h2, h3⟩ := broadcast_inv hr
        refine ⟨by simp [h1], by simp [h2], fun i hi => ?_⟩
        cases i with
        | zero => simpa using broadcastDim_ok hk
        | succ i => simpa using h3 i (by simpa using hi)
  | [], _ :: _, _, h => by cases h
  | _ :: _, [], _, h => by cases h

theorem fromEnd_lt {s : List Nat} {k : Nat} (h : k < s.length) : fromEnd s k = s.getD (s.length - 1 - k) 1 := by
  unfold fromEnd
  rw [List.getD_eq_getElem _ _ (by simpa using h), List.getElem_reverse, List.getD_eq_getElem]

theorem fromEnd_ge {s : List Nat} {k : Nat} (h : s.length ≤ k) : fromEnd s k = 1 := by
  unfold fromEnd
  rw [List.getD_eq_default _ _ (by simpa using h)]

theorem fromEnd_pad (m : Nat) (s : List Nat) (k : Nat) : fromEnd (List.replicate m 1 ++ s) k = fromEnd s k := by
  unfold fromEnd
  rw [List.reverse_append, List.reverse_replicate]
  by_cases h : k < s.length
  · rw [List.getD_append _ _ _ _ (by simpa using h)]
  · rw [List.getD_append_right _ _ _ _ (by simpa using Nat.le_of_not_lt h),
      List.getD_eq_default s.reverse _ (by simpa using Nat.le_of_not_lt h)]
    by_cases h2 : k - s.reverse.length < m
    · rw [List.getD_eq_getElem _ _ (by simpa using h2)]; simp
    · rw [List.getD_eq_default _ _ (by simpa using Nat.le_of_not_lt h2)]

theorem commonShape_of_eq_length {s t r : List Nat} (h : broadcastShape s t = .ok r) : CommonShape s t r := by
  obtain ⟨h1, h2, h3⟩ := broadcast_inv h
  refine ⟨by omega, fun k => ?_⟩
  by_cases hk : k < r.length
  · rw [fromEnd_lt (s := s) (by omega), fromEnd_lt (s := t) (by omega), fromEnd_lt hk, ← h1, ← h2]
    exact h3 _ (by omega)
  · rw [fromEnd_ge (s := s) (by omega), fromEnd_ge (s := t) (by omega), fromEnd_ge (s := r) (by omega)]
    simp

theorem clipTo_eq (s p : List Nat) : clipTo s p = List.zipWith (fun n i => if n = 1 then 0 else i) s p := by
  induction s generalizing p with
  | nil => simp [clipTo]
  | cons n s ih => cases p with
    | nil => simp [clipTo]
    | cons i p => simp [clipTo, ih]

theorem ravel_pad (m : Nat) (s q : List Nat) :
    ravel (List.replicate m 1 ++ s) (List.replicate m 0 ++ q) = ravel s q := by
  induction m with
  | zero => simp
  | succ m ih => simp [List.replicate_succ, ravel, ih]

theorem clip_pad (m : Nat) (s p : List Nat) (h : m ≤ p.length) :
    clipTo (List.replicate m 1 ++ s) p = List.replicate m 0 ++ clipTo s (p.drop m) := by
  induction m generalizing p with
  | zero => simp
  | succ m ih => cases p with
    | nil => simp at h
    | cons i p => simp [List.replicate_succ, clipTo, ih p (by simpa using h)]

/-- The padded array shows what the array shows. -/
theorem clip_atLeast (a : ND α) (n : Nat) (p : List Nat) (hp : p.length = max a.ndim n) :
    (a.atLeast n).get (clipTo (a.atLeast n).shape p) = a.spread p := by
  unfold ND.spread ND.get ND.atLeast trail
  simp only
  have hm : n - a.ndim ≤ p.length := by omega
  rw [clip_pad _ _ _ hm, ravel_pad, clipTo_eq]
  congr 4
  unfold ND.ndim at *
  omega

theorem zip_spread {f : α → β → γ} {a : ND α} {b : ND β} {r : ND γ} (h : ND.zip f a b = .ok r) :
    CommonShape a.shape b.shape r.shape ∧ ∀ p, Valid p r.shape → r.get p = f (a.spread p) (b.spread p) := by
  unfold ND.zip at h
  simp only at h
  split at h
  · cases h
  next s hs =>
    cases h
    have hc := commonShape_of_eq_length hs
    have hl := (broadcast_inv hs).1
    have hl2 := (broadcast_inv hs).2.1
    have la : (a.atLeast b.ndim).shape.length = max a.shape.length b.shape.length := by
      simp [ND.atLeast, ND.ndim]; omega
    refine ⟨⟨?_, ?_⟩, ?_⟩
    · rw [ND.ofFn, hl, la]
    · intro k
      have := hc.axis k
      simpa only [ND.atLeast, fromEnd_pad, ND.ofFn] using this
    · intro p hp
      have hpl : p.length = s.length := hp.length_eq
      rw [get_ofFn (s := s) hp]
      congr 1
      · exact clip_atLeast a _ p (by rw [hpl, hl, la]; rfl)
      · refine clip_atLeast b _ p ?_
        rw [hpl, hl2]
        simp only [ND.atLeast, ND.ndim, List.length_append, List.length_replicate]
        omega

theorem trail_self {s p : List Nat} (hp : Valid p s) : trail s p = p := by
  unfold trail
  rw [hp.length_eq, Nat.sub_self, List.drop_zero]
  induction hp with
  | nil => rfl
  | cons h _ ih =>
    simp only [List.zipWith_cons_cons, ih]
    congr 1
    split <;> omega

theorem spread_self {a : ND α} {p : List Nat} (hp : Valid p a.shape) : a.spread p = a.get p := by
  rw [ND.spread, trail_self hp]

theorem spread_map (f : α → β) (a : ND α) (p : List Nat) : (a.map f).spread p = f (a.spread p) := rfl

end Eprem.Numeric

namespace Eprem.Physical

open Eprem Eprem.Symbolic Eprem.Metric Eprem.Numeric Eprem.Measured

variable {κ ν K : Type} [DecidableEq κ] [Field K] [DecidableEq K]

/-- The number that an operand shows at a position of the result. -/
def Operand.num : Operand κ ν K → List Nat → K
  | .number x, _ => x
  | .object _ o, p => o.data.spread p
  | .array a, p => a.arr.data.data.spread p

theorem shown_eq (ρ : Name → ℝ) (a : Operand κ ν ℝ) (p : List Nat) : a.shown ρ p = a.num p * value ρ a.unit := by
  cases a with
  | number x => simp [Operand.shown, Operand.num, Operand.unit, unitless, value_unit]
  | object k o => rfl
  | array a => rfl

/-- Two positions at which every operand shows the same element. -/
def SameSpot (p q : List Nat) : Prop := ∀ x : ND K, x.spread p = x.spread q

theorem num_spot {p q : List Nat} (h : SameSpot (K := K) p q) (a : Operand κ ν K) : a.num p = a.num q := by
  cases a with
  | number x => rfl
  | object k o => exact h _
  | array a => exact h _

theorem newArray_inv {d : ND K} {u : List Term} {axes : Dict κ ν} {r : Operand κ ν K} (h : newArray d u axes = .ok r) :
    (dimensions axes.keys).length = d.ndim ∧ r = .array ⟨PArr.new ⟨d, dimensions axes.keys, false⟩ u, axes⟩ := by
  unfold newArray arrayFactory at h
  split at h
  · cases h
  next hx =>
    split at hx
    · cases hx; cases h; exact ⟨by assumption, rfl⟩
    · cases hx

theorem newArray_num {d : ND K} {u : List Term} {axes : Dict κ ν} {r : Operand κ ν K} (h : newArray d u axes = .ok r) :
    r.unit = u ∧ r.shape = d.shape ∧ ∀ p, Valid p r.shape → r.num p = d.get p := by
  obtain ⟨_, rfl⟩ := newArray_inv h
  refine ⟨rfl, rfl, fun p hp => ?_⟩
  have : Valid p d.shape := hp
  show (1 : K) * d.get (trail d.shape p) = _
  rw [one_mul, trail_self this]

theorem sizeOf_one {s : List Nat} (h : Numeric.sizeOf s = 1) : Valid (List.replicate s.length 0) s := by
  induction s with
  | nil => exact .nil
  | cons n s ih =>
    have h' : n * Numeric.sizeOf s = 1 := h
    have h1 := Nat.eq_one_of_mul_eq_one_right h'
    have h2 := Nat.eq_one_of_mul_eq_one_left h'
    exact .cons (by omega) (ih h2)

theorem trail_zero (s : List Nat) (n : Nat) : ravel s (trail s (List.replicate n 0)) = 0 := by
  have hz : ∀ (s q : List Nat), (∀ i ∈ q, i = 0) → ravel s q = 0 := by
    intro s
    induction s with
    | nil => intro q _; rfl
    | cons m s ih =>
      intro q hq
      cases q with
      | nil => rfl
      | cons i q =>
        rw [ravel, hq i (by simp), ih q (fun j hj => hq j (by simp [hj])), Nat.zero_mul]
  apply hz
  intro i hi
  unfold trail at hi
  obtain ⟨j, hj, rfl⟩ := List.mem_iff_getElem.1 hi
  simp

theorem spot_zero (n m : Nat) : SameSpot (K := K) (List.replicate n 0) (List.replicate m 0) := by
  intro x
  unfold ND.spread ND.get
  rw [trail_zero, trail_zero]

theorem create_num {k : Kind} {d : ND K} {u : List Term} {r : Operand κ ν K} (h : create k d u = .ok r) :
    r.unit = u ∧ ∀ p, Valid p r.shape → ∃ q, Valid q d.shape ∧ SameSpot (K := K) p q ∧ r.num p = d.get q := by
  unfold create at h
  cases k with
  | scalar =>
    simp only at h
    split at h
    next hs =>
      cases h
      refine ⟨rfl, fun p hp => ?_⟩
      have hp' : p = [] := by
        have : Valid p [] := hp
        cases this; rfl
      subst hp'
      refine ⟨_, sizeOf_one hs, spot_zero 0 _, ?_⟩
      show d.data (ravel [] _) = d.data (ravel d.shape (List.replicate d.shape.length 0))
      have h0 := trail_zero d.shape d.shape.length
      rw [trail_self (sizeOf_one hs)] at h0
      rw [h0]; rfl
    · cases h
  | vector =>
    simp only at h
    split at h
    · cases h
      exact ⟨rfl, fun p hp => ⟨p, hp, fun _ => rfl, spread_self hp⟩⟩
    · cases h
  | tensor =>
    simp only at h
    split at h
    · cases h
    · cases h
      exact ⟨rfl, fun p hp => ⟨p, hp, fun _ => rfl, spread_self hp⟩⟩
  | measurement => cases h

theorem zipData_inv {f : K → K → K} {x y d : ND K} (h : zipData f x y = .ok d) : ND.zip f x y = .ok d := by
  unfold zipData at h
  split at h
  · cases h
  · cases h; assumption

/-- What all sums and products show. -/
def Shows (f : K → K → K) (a b r : Operand κ ν K) : Prop := ∀ p, Valid p r.shape → r.num p = f (a.num p) (b.num p)

theorem shows_create {f : K → K → K} {k l m : Kind} {x y : Obj K} {d : ND K} {u : List Term} {r : Operand κ ν K}
    (hz : zipData f x.data y.data = .ok d) (hc : create m d u = .ok r) :
    r.unit = u ∧ Shows f (.object k x) (.object l y) r := by
  obtain ⟨hu, hn⟩ := create_num hc
  refine ⟨hu, fun p hp => ?_⟩
  obtain ⟨q, hq, hs, hrn⟩ := hn p hp
  rw [hrn, num_spot hs (.object k x), num_spot hs (.object l y), (zip_spread (zipData_inv hz)).2 q hq]
  rfl

theorem shows_array {f : K → K → K} {a b r : Operand κ ν K} {x y d : ND K} {u : List Term} {axes : Dict κ ν}
    (hx : ∀ p, a.num p = x.spread p) (hy : ∀ p, b.num p = y.spread p)
    (hz : ND.zip f x y = .ok d) (hc : newArray d u axes = .ok r) : r.unit = u ∧ Shows f a b r := by
  obtain ⟨hu, hsh, hn⟩ := newArray_num hc
  refine ⟨hu, fun p hp => ?_⟩
  rw [hn p hp, (zip_spread hz).2 p (by rwa [← hsh]), hx, hy]

theorem additive_zip {f : K → K → K} {x y r : Named κ K} (h : Numeric.additive f x y = .ok r) :
    x.dims = y.dims ∧ ND.zip f x.data y.data = .ok r.data := by
  unfold Numeric.additive at h
  split at h
  · cases h
  next hd =>
    split at h
    · cases h
    next d hz =>
      unfold arrayFactory at h
      split at h
      · cases h; exact ⟨not_not.1 hd, hz⟩
      · cases h

theorem addMeasured_shows {same inside : ν → ν → Bool} {f : K → K → K} {a b r : Operand κ ν K}
    (h : additiveMeasured same inside f a b = .ok r) :
    exprEq a.unit b.unit = true ∧ r.unit = a.unit ∧ Shows f a b r := by
  unfold additiveMeasured at h
  split at h
  next x y =>
    unfold addArrays at h
    split at h
    · cases h
    next d hd =>
      obtain ⟨_, hz⟩ := additive_zip hd
      split at h
      next he =>
        split at h
        · obtain ⟨h1, h2⟩ := shows_array (a := .array x) (b := .array y) (fun _ => rfl) (fun _ => rfl) hz h
          exact ⟨he, h1, h2⟩
        · split at h
          · cases h
          · cases h
          next axes _ =>
            split at h
            · cases h
            · obtain ⟨h1, h2⟩ := shows_array (a := .array x) (b := .array y) (fun _ => rfl) (fun _ => rfl) hz h
              exact ⟨he, h1, h2⟩
      · cases h
  next x k y =>
    split at h
    · cases h
    · split at h
      · cases h
      next d hd =>
        split at h
        next he =>
          obtain ⟨h1, h2⟩ := shows_array (a := .array x) (b := .object k y) (fun _ => rfl) (fun _ => rfl) (zipData_inv hd) h
          exact ⟨he, h1, h2⟩
        · cases h
  next k x y =>
    split at h
    · cases h
    · split at h
      · cases h
      next d hd =>
        split at h
        next he =>
          obtain ⟨h1, h2⟩ := shows_array (a := .object k x) (b := .array y) (fun _ => rfl) (fun _ => rfl) (zipData_inv hd) h
          exact ⟨he, h1, h2⟩
        · cases h
  next k x l y =>
    split at h
    · cases h
    next d hd =>
      split at h
      next he =>
        obtain ⟨h1, h2⟩ := shows_create (k := k) (l := l) hd h
        exact ⟨he, h1, h2⟩
      · cases h
  · cases h

theorem measureNumber_num (x : K) (k : Kind) (p : List Nat) :
    (Operand.object k (measureNumber x) : Operand κ ν K).num p = (Operand.number x : Operand κ ν K).num p := rfl

theorem additive_shows {same inside : ν → ν → Bool} {f : K → K → K} {a b r : Operand κ ν K}
    (h : additive same inside f a b = .ok r) : exprEq a.unit b.unit = true ∧ r.unit = a.unit ∧ Shows f a b r := by
  unfold additive at h
  split at h
  · cases h
  next x b _ =>
    split at h
    · obtain ⟨h1, h2, h3⟩ := addMeasured_shows h
      exact ⟨h1, h2, h3⟩
    · cases h
  next a y _ =>
    split at h
    · obtain ⟨h1, h2, h3⟩ := addMeasured_shows h
      exact ⟨h1, h2, h3⟩
    · cases h
  · exact addMeasured_shows h

theorem withNumber_shows {f : K → K} {u : List Term} {a r : Operand κ ν K} (h : withNumber f u a = .ok r) :
    r.unit = u ∧ ∀ p, Valid p r.shape → r.num p = f (a.num p) := by
  unfold withNumber at h
  split at h
  next a =>
    obtain ⟨h1, h2, h3⟩ := newArray_num h
    refine ⟨h1, fun p hp => ?_⟩
    rw [h3 p hp, ← spread_self (a := a.arr.data.data.map f) (by rw [h2] at hp; exact hp)]
    rfl
  next k o =>
    obtain ⟨h1, h2⟩ := create_num h
    refine ⟨h1, fun p hp => ?_⟩
    obtain ⟨q, hq, hs, hn⟩ := h2 p hp
    rw [hn, num_spot hs, ← spread_self hq]
    rfl
  · cases h

theorem multiplyMeasured_shows {f : K → K → K} {u : List Term} {a b r : Operand κ ν K}
    (h : multiplyMeasured f u a b = .ok r) (hn : ¬ (a.isArray = true ∧ b.isArray = true)) : r.unit = u ∧ Shows f a b r := by
  unfold multiplyMeasured at h
  split at h
  · exact absurd ⟨rfl, rfl⟩ hn
  next x k y =>
    split at h
    · cases h
    next d hd => exact shows_array (fun _ => rfl) (fun _ => rfl) (zipData_inv hd) h
  next k x y =>
    split at h
    · cases h
    next d hd => exact shows_array (fun _ => rfl) (fun _ => rfl) (zipData_inv hd) h
  next k x l y =>
    split at h
    · cases h
    next d hd => exact shows_create hd h
  · cases h

theorem value_equal {d : ℕ} (hd : d ∣ 4) {a b : List Term} (ha : GoodUnit d a) (hb : GoodUnit d b) (h : exprEq a b = true)
    (ρ : Name → ℝ) : value ρ a = value ρ b := value_perm (unit_eq_perm hd ha.1 hb.1 ha.2 hb.2 h)

end Eprem.Physical
