import Verif.Model.MetricConvert
import Verif.Lemmas.MetricSize
import Verif.Lemmas.Algebra

/-! # Lemmas for the conversion of compound units -/

namespace Eprem.Metric

open Eprem Eprem.Symbolic

/-- The conversions of the package with real factors. -/
noncomputable def realConv (nodes : List Name) (systems : List System) : Conv ℝ :=
  ⟨realEnv nodes, fun f e => (f : ℝ) ^ (e : ℝ), systems⟩

/-- the power of a unit -/
noncomputable def P (φ : Name → ℚ) (t : Term) : ℝ := ((φ t.base : ℚ) : ℝ) ^ (t.exp : ℝ)

theorem termEq_refl (t : Term) : termEq t t = true := by simp [termEq]

theorem removeT_ok {T : List Term} (hT : ∀ x ∈ T, ∀ y ∈ T, termEq x y = true → x = y) {t : Term} (ht : t ∈ T) :
    ∀ {l l' : List Term}, l ⊆ T → removeT t l = .ok l' → t ∈ l ∧ l' = l.erase t
  | [], l', _, h => by cases h
  | x :: l, l', hl, h => by
    unfold removeT at h
    split at h
    next he =>
      have : x = t := hT x (hl (by simp)) t ht he
      subst this
      cases h
      simp
    next he =>
      have hne : x ≠ t := by rintro rfl; exact he (termEq_refl _)
      cases hr : removeT t l with
      | error e => rw [hr] at h; cases h
      | ok l'' =>
        rw [hr] at h
        cases h
        obtain ⟨h1, h2⟩ := removeT_ok hT ht (fun y hy => hl (by simp [hy])) hr
        refine ⟨by simp [h1], ?_⟩
        rw [h2, List.erase_cons_tail (by simpa using hne)]

theorem removeT_mem {T : List Term} (hT : ∀ x ∈ T, ∀ y ∈ T, termEq x y = true → x = y) {t : Term} (ht : t ∈ T) :
    ∀ {l : List Term}, l ⊆ T → t ∈ l → removeT t l = .ok (l.erase t)
  | [], _, h => by cases h
  | x :: l, hl, h => by
    unfold removeT
    split
    next he =>
      have : x = t := hT x (hl (by simp)) t ht he
      subst this
      simp
    next he =>
      have hne : x ≠ t := by rintro rfl; exact he (termEq_refl _)
      have hmem : t ∈ l := by
        rcases List.mem_cons.1 h with h | h
        · exact absurd h.symm hne
        · exact h
      rw [removeT_mem hT ht (fun y hy => hl (by simp [hy])) hmem, List.erase_cons_tail (by simpa using hne)]
      rfl

theorem prod_erase (φ : Name → ℚ) {t : Term} {l : List Term} (h : t ∈ l) :
    (l.map (P φ)).prod = P φ t * ((l.erase t).map (P φ)).prod := by
  rw [← List.prod_cons, ← List.map_cons]
  exact ((List.perm_cons_erase h).map _).prod_eq

section sound
variable {c : Conv ℝ} {φ : Name → ℚ} (hpw : ∀ f e, c.pw f e = (f : ℝ) ^ (e : ℝ)) (hpos : ∀ u, 0 < φ u)
  (hs : ∀ a b f, convertAsStrings c.env a b = some f → f = φ a / φ b)
include hpw hpos hs

theorem matchInverse_sound {target t : Term} {terms : List Term} {v : ℝ}
    (h : matchInverse c target terms = some (v, t)) :
    t ∈ terms ∧ termEq t target = false ∧ v = P φ target * P φ t := by
  unfold matchInverse at h
  obtain ⟨x, hx, hf⟩ := List.exists_of_findSome?_eq_some h
  simp only [List.mem_filter, Bool.and_eq_true, Bool.not_eq_true', decide_eq_true_eq] at hx
  cases hc : convertAsStrings c.env target.base x.base with
  | none => rw [hc] at hf; cases hf
  | some f =>
    rw [hc] at hf
    simp only [Option.map_some, Option.some.injEq, Prod.mk.injEq] at hf
    obtain ⟨rfl, rfl⟩ := hf
    refine ⟨hx.1, hx.2.1, ?_⟩
    have h1 : (0 : ℝ) < (φ target.base : ℝ) := by exact_mod_cast hpos _
    have h2 : (0 : ℝ) < (φ x.base : ℝ) := by exact_mod_cast hpos _
    rw [hpw, hs _ _ _ hc, P, P, hx.2.2]
    push_cast
    rw [Real.div_rpow h1.le h2.le, Real.rpow_neg h2.le]
    rfl

theorem resolveLoop_sound {T : List Term} (hT : ∀ x ∈ T, ∀ y ∈ T, termEq x y = true → x = y)
    (hd : ∀ t ∈ T, dimensionless t.base = .ok true → φ t.base = 1) :
    ∀ (rest matched unm : List Term) (factor g : ℝ), rest ⊆ T → unm ⊆ T →
      resolveLoop c rest matched unm factor = .ok (some g) → g = factor * (unm.map (P φ)).prod
  | [], matched, unm, factor, g, _, _, h => by
    unfold resolveLoop at h
    split at h
    next he => cases h; simp [he]
    next => cases h
  | target :: rest, matched, unm, factor, g, hr, hu, h => by
    have htT : target ∈ T := hr (by simp)
    have hrest : rest ⊆ T := fun x hx => hr (by simp [hx])
    have hsub : ∀ t, unm.erase t ⊆ T := fun t x hx => hu (List.mem_of_mem_erase hx)
    unfold resolveLoop at h
    split at h
    · exact resolveLoop_sound hT hd rest _ _ _ _ hrest hu h
    · split at h
      next => cases h
      next => exact resolveLoop_sound hT hd rest _ _ _ _ hrest hu h
      next value term hm =>
        unfold matchExponents at hm
        split at hm
        next => cases hm
        next hdim =>
          simp only [Except.ok.injEq, Option.some.injEq, Prod.mk.injEq] at hm
          obtain ⟨rfl, rfl⟩ := hm
          rw [if_pos (termEq_refl _)] at h
          split at h
          · cases h
          next l' hl =>
            obtain ⟨h1, rfl⟩ := removeT_ok hT htT hu hl
            have := resolveLoop_sound hT hd rest _ _ _ _ hrest (hsub target) h
            rw [this, prod_erase φ h1, P, hd _ htT hdim]
            simp
        next hdim =>
          simp only [Except.ok.injEq] at hm
          obtain ⟨h1, h2, h3⟩ := matchInverse_sound hpw hpos hs hm
          rw [if_neg (by simp [h2])] at h
          split at h
          · cases h
          next l' hl =>
            obtain ⟨h4, rfl⟩ := removeT_ok hT htT hu hl
            split at h
            · cases h
            next l'' hl' =>
              obtain ⟨h5, rfl⟩ := removeT_ok hT (hu h1) (hsub target) hl'
              have := resolveLoop_sound hT hd rest _ _ _ _ hrest
                (fun x hx => hsub target (List.mem_of_mem_erase hx)) h
              rw [this, prod_erase φ h4, prod_erase φ h5, h3]
              ring

theorem resolveTerms_sound {T : List Term} (hT : ∀ x ∈ T, ∀ y ∈ T, termEq x y = true → x = y)
    (hd : ∀ t ∈ T, dimensionless t.base = .ok true → φ t.base = 1) {g : ℝ}
    (h : resolveTerms c T = .ok (some g)) : g = (T.map (P φ)).prod := by
  unfold resolveTerms at h
  split at h
  · cases h
  · rw [resolveLoop_sound hpw hpos hs hT hd _ _ _ _ _ (fun _ h => h) (fun _ h => h) h, one_mul]

end sound

/-! ### completeness: uniquely paired terms -/

section complete
variable {c : Conv ℝ}

/-- `y` is a candidate to be paired with `x` -/
def Candidate (c : Conv ℝ) (x y : Term) : Prop :=
  y ≠ x ∧ y.exp = -x.exp ∧ ∃ f, convertAsStrings c.env x.base y.base = some f

theorem matchInverse_unique {T : List Term} (hT : ∀ x ∈ T, ∀ y ∈ T, termEq x y = true → x = y) {x y : Term}
    {unm : List Term} (hu : unm ⊆ T) (hx : x ∈ T) (hy : y ∈ unm) (hc : Candidate c x y)
    (huniq : ∀ z ∈ T, Candidate c x z → z = y) : ∃ v, matchInverse c x unm = some (v, y) := by
  have hmem : y ∈ unm.filter (fun t => !termEq t x && decide (t.exp = -x.exp)) := by
    refine List.mem_filter.2 ⟨hy, ?_⟩
    have : termEq y x = false := by
      cases h : termEq y x
      · rfl
      · exact absurd (hT y (hu hy) x hx h) hc.1
    simp [this, hc.2.1]
  obtain ⟨f, hf⟩ := hc.2.2
  cases hm : matchInverse c x unm with
  | none =>
    unfold matchInverse at hm
    rw [List.findSome?_eq_none_iff] at hm
    have := hm y hmem
    rw [hf] at this; cases this
  | some p =>
    obtain ⟨v, z⟩ := p
    unfold matchInverse at hm
    obtain ⟨w, hw, hf'⟩ := List.exists_of_findSome?_eq_some hm
    simp only [List.mem_filter, Bool.and_eq_true, Bool.not_eq_true', decide_eq_true_eq] at hw
    cases hcw : convertAsStrings c.env x.base w.base with
    | none => rw [hcw] at hf'; cases hf'
    | some g =>
      rw [hcw] at hf'
      simp only [Option.map_some, Option.some.injEq, Prod.mk.injEq] at hf'
      obtain ⟨_, rfl⟩ := hf'
      have hne : w ≠ x := by rintro rfl; simp [termEq_refl] at hw
      have := huniq w (hu hw.1) ⟨hne, hw.2.2, g, hcw⟩
      exact ⟨v, by rw [this]⟩

theorem memT_iff {T : List Term} (hT : ∀ x ∈ T, ∀ y ∈ T, termEq x y = true → x = y) {t : Term} (ht : t ∈ T)
    {l : List Term} (hl : l ⊆ T) : memT t l = true ↔ t ∈ l := by
  unfold memT
  rw [List.any_eq_true]
  constructor
  · rintro ⟨x, hx, he⟩
    rw [← hT x (hl hx) t ht he]; exact hx
  · intro h; exact ⟨t, h, termEq_refl _⟩

theorem resolveLoop_complete {T : List Term} (hT : ∀ x ∈ T, ∀ y ∈ T, termEq x y = true → x = y) (hnd : T.Nodup)
    (hd : ∀ t ∈ T, dimensionless t.base = .ok false) {π : Term → Term} (hπ : ∀ t ∈ T, π t ∈ T)
    (hinv : ∀ t ∈ T, π (π t) = t) (hc : ∀ t ∈ T, Candidate c t (π t)) (huniq : ∀ t ∈ T, ∀ z ∈ T, Candidate c t z → z = π t) :
    ∀ (rest matched unm : List Term) (factor : ℝ), rest ⊆ T → unm ⊆ T → unm.Nodup →
      (∀ t ∈ T, t ∈ matched ↔ t ∉ unm) → (∀ t ∈ unm, π t ∈ unm) → matched ⊆ T → (∀ t ∈ unm, t ∈ rest ∨ π t ∈ rest) →
      ∃ g, resolveLoop c rest matched unm factor = .ok (some g)
  | [], matched, unm, factor, _, _, _, _, _, _, hcov => by
    have : unm = [] := by
      rw [List.eq_nil_iff_forall_not_mem]
      intro t ht
      simpa using hcov t ht
    exact ⟨factor, by simp [resolveLoop, this]⟩
  | target :: rest, matched, unm, factor, hr, hu, hn, hm, hcl, hms, hcov => by
    have htT : target ∈ T := hr (by simp)
    have hrest : rest ⊆ T := fun x hx => hr (by simp [hx])
    unfold resolveLoop
    by_cases hmem : target ∈ matched
    · rw [if_pos ((memT_iff hT htT hms).2 hmem)]
      refine resolveLoop_complete hT hnd hd hπ hinv hc huniq rest _ _ _ hrest hu hn hm hcl hms ?_
      have hnu : target ∉ unm := (hm target htT).1 hmem
      intro t ht
      rcases hcov t ht with h | h
      · rcases List.mem_cons.1 h with h | h
        · subst h; exact absurd ht hnu
        · exact Or.inl h
      · rcases List.mem_cons.1 h with h | h
        · exact absurd (h ▸ hcl t ht) hnu
        · exact Or.inr h
    · rw [if_neg (by rw [memT_iff hT htT hms]; exact hmem)]
      have hun : target ∈ unm := by
        by_contra h
        exact hmem ((hm target htT).2 h)
      have hpu : π target ∈ unm := hcl _ hun
      have hpne : π target ≠ target := (hc target htT).1
      obtain ⟨v, hv⟩ := matchInverse_unique hT hu htT hpu (hc target htT) (huniq target htT)
      have hme : matchExponents c target unm = .ok (some (v, π target)) := by
        unfold matchExponents; rw [hd target htT, hv]
      have hte : termEq (π target) target = false := by
        cases h : termEq (π target) target
        · rfl
        · exact absurd (hT _ (hπ _ htT) _ htT h) hpne
      rw [hme]
      simp only [hte]
      rw [removeT_mem hT htT hu hun]
      have hpe : π target ∈ unm.erase target := (List.mem_erase_of_ne hpne).2 hpu
      simp only [Bool.false_eq_true, if_false]
      rw [removeT_mem hT (hπ _ htT) (fun x hx => hu (List.mem_of_mem_erase hx)) hpe]
      simp only
      have hn1 : (unm.erase target).Nodup := hn.erase _
      have hmem2 : ∀ t, t ∈ (unm.erase target).erase (π target) ↔ t ≠ π target ∧ t ≠ target ∧ t ∈ unm := by
        intro t
        rw [hn1.mem_erase_iff, hn.mem_erase_iff]
      refine resolveLoop_complete hT hnd hd hπ hinv hc huniq rest _ _ _ hrest ?_ (hn1.erase _) ?_ ?_ ?_ ?_
      · intro x hx; exact hu ((hmem2 x).1 hx).2.2
      · intro t ht
        rw [hmem2, List.mem_append, hm t ht]
        simp only [List.mem_cons, List.not_mem_nil, or_false]
        tauto
      · intro t ht
        rw [hmem2] at ht ⊢
        obtain ⟨h1, h2, h3⟩ := ht
        refine ⟨?_, ?_, hcl t h3⟩
        · intro h
          apply h2
          rw [← hinv t (hu h3), h, hinv target htT]
        · intro h
          apply h1
          rw [← h, hinv t (hu h3)]
      · intro x hx
        rcases List.mem_append.1 hx with hx | hx
        · exact hms hx
        · simp only [List.mem_cons, List.not_mem_nil, or_false] at hx
          rcases hx with rfl | rfl
          · exact htT
          · exact hπ _ htT
      · intro t ht
        obtain ⟨h1, h2, h3⟩ := (hmem2 t).1 ht
        rcases hcov t h3 with h | h
        · rcases List.mem_cons.1 h with h | h
          · exact absurd h h2
          · exact Or.inl h
        · rcases List.mem_cons.1 h with h | h
          · exfalso; apply h1; rw [← h, hinv t (hu h3)]
          · exact Or.inr h

end complete

/-! ### evaluation with rational numbers -/

theorem matchInverse_cast {nodes systems} {target : Term} (h1 : target.exp.den = 1) (terms : List Term) :
    matchInverse (realConv nodes systems) target terms =
      (matchInverse (⟨realEnv nodes, ratPow, systems⟩ : Conv ℚ) target terms).map (fun p => ((p.1 : ℝ), p.2)) := by
  unfold matchInverse
  induction terms.filter (fun t => !termEq t target && decide (t.exp = -target.exp)) with
  | nil => rfl
  | cons t l ih =>
    simp only [List.findSome?_cons, realConv]
    cases hc : convertAsStrings (realEnv nodes) target.base t.base with
    | none =>
      simp only [Option.map_none]
      exact ih
    | some f =>
      simp only [Option.map_some, ratPow, h1, if_true]
      have : (target.exp : ℝ) = ((target.exp.num : ℤ) : ℝ) := by
        conv_lhs => rw [← Rat.num_div_den target.exp, h1]
        push_cast; simp
      rw [this, Real.rpow_intCast]
      push_cast
      rfl

theorem resolveLoop_cast {nodes systems} : ∀ (rest matched unm : List Term) (factor : ℚ),
    (∀ t ∈ rest, t.exp.den = 1) →
    resolveLoop (realConv nodes systems) rest matched unm (factor : ℝ) =
      (resolveLoop (⟨realEnv nodes, ratPow, systems⟩ : Conv ℚ) rest matched unm factor).map (Option.map (fun x : ℚ => (x : ℝ)))
  | [], _, unm, factor, _ => by
    unfold resolveLoop
    split <;> simp [Except.map]
  | target :: rest, matched, unm, factor, h => by
    have ih := fun m u f => resolveLoop_cast (nodes := nodes) (systems := systems) rest m u f (fun t ht => h t (by simp [ht]))
    unfold resolveLoop
    by_cases hm : memT target matched
    · rw [if_pos hm, if_pos hm, ih]
    · rw [if_neg hm, if_neg hm]
      unfold matchExponents
      cases hd : dimensionless target.base with
      | error e => rfl
      | ok d =>
        cases d with
        | true =>
          simp only [termEq_refl, if_true]
          cases removeT target unm with
          | error e => rfl
          | ok u =>
            have := ih (matched ++ [target]) u (factor * 1)
            push_cast at this
            exact this
        | false =>
          simp only [matchInverse_cast (h target (by simp))]
          cases matchInverse (⟨realEnv nodes, ratPow, systems⟩ : Conv ℚ) target unm with
          | none => exact ih _ _ _
          | some p =>
            obtain ⟨v, term⟩ := p
            simp only [Option.map_some]
            split
            · cases removeT target unm with
              | error e => rfl
              | ok u =>
                have := ih (matched ++ [target]) u (factor * v)
                push_cast at this
                exact this
            · cases removeT target unm with
              | error e => rfl
              | ok u =>
                simp only
                cases removeT term u with
                | error e => rfl
                | ok u' =>
                  have := ih (matched ++ [target, term]) u' (factor * v)
                  push_cast at this
                  exact this

theorem resolveTerms_cast {systems} {ts : List Term} {f : ℚ} (h : ∀ t ∈ ts, t.exp.den = 1)
    (hr : resolveTerms ratConv ts = .ok (some f)) : resolveTerms (realConv tableNodes systems) ts = .ok (some (f : ℝ)) := by
  have hsys : ∀ rest matched unm (factor : ℚ), resolveLoop (⟨realEnv tableNodes, ratPow, systems⟩ : Conv ℚ) rest matched unm factor =
      resolveLoop ratConv rest matched unm factor := by
    intro rest
    induction rest with
    | nil => intros; rfl
    | cons t l ih => intro m u g; unfold resolveLoop; simp only [ih]; rfl
  unfold resolveTerms at hr ⊢
  split at hr
  · cases hr
  next hl =>
    rw [if_neg hl]
    have := resolveLoop_cast (nodes := tableNodes) (systems := systems) ts [] ts 1 h
    rw [hsys, hr] at this
    rw [show (1 : ℝ) = ((1 : ℚ) : ℝ) by norm_num, this]
    rfl

end Eprem.Metric
