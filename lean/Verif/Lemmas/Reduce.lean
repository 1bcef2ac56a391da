import Verif.Spec.Symbolic
import Mathlib.Data.List.Nodup
import Mathlib.Algebra.BigOperators.Group.List.Basic
import Mathlib.Tactic.Ring
import Mathlib.Tactic.Linarith

namespace Eprem.Symbolic

/-- product of all coefficients -/
def coefOf (ts : List Term) : Rat := (ts.map Term.coeff).prod

/-- total exponent of a base -/
def expOf (b : Str) : List Term → Rat
  | [] => 0
  | t :: ts => (if t.base = b then t.exp else 0) + expOf b ts

@[simp] theorem coefOf_nil : coefOf [] = 1 := rfl
@[simp] theorem coefOf_cons (t ts) : coefOf (t :: ts) = t.coeff * coefOf ts := by simp [coefOf]
@[simp] theorem expOf_nil (b) : expOf b [] = 0 := rfl
theorem expOf_cons (b t ts) : expOf b (t :: ts) = (if t.base = b then t.exp else 0) + expOf b ts := rfl

@[simp] theorem coefOf_append (a b) : coefOf (a ++ b) = coefOf a * coefOf b := by simp [coefOf]
@[simp] theorem expOf_append (x a b) : expOf x (a ++ b) = expOf x a + expOf x b := by
  induction a with
  | nil => simp
  | cons t a ih => simp [expOf_cons, ih]; ring

theorem coefOf_perm {a b : List Term} (h : a.Perm b) : coefOf a = coefOf b :=
  (h.map _).prod_eq

theorem expOf_perm {a b : List Term} (x) (h : a.Perm b) : expOf x a = expOf x b := by
  induction h with
  | nil => rfl
  | cons _ _ ih => simp [expOf_cons, ih]
  | swap => simp [expOf_cons]; ring
  | trans _ _ h1 h2 => rw [h1, h2]

/-! ### the dictionary -/

theorem coefOf_accum (d t) : coefOf (accum d t) = coefOf d * t.coeff := by
  induction d with
  | nil => simp [accum]
  | cons x xs ih =>
    simp only [accum]; split
    · simp; ring
    · simp [ih]; ring

theorem expOf_accum (b d t) : expOf b (accum d t) = expOf b d + (if t.base = b then t.exp else 0) := by
  induction d with
  | nil => simp [accum, expOf_cons]
  | cons x xs ih =>
    simp only [accum]; split
    · rename_i h
      simp only [expOf_cons, h]
      split <;> ring
    · simp only [expOf_cons, ih]; ring

theorem bases_accum (d t) : ∀ b, b ∈ (accum d t).map Term.base ↔ b ∈ d.map Term.base ∨ b = t.base := by
  induction d with
  | nil => simp [accum]
  | cons x xs ih =>
    intro b
    simp only [accum]; split
    · rename_i h; simp; rw [h]; tauto
    · simp only [List.map_cons, List.mem_cons, ih]; tauto

theorem nodup_accum (d t) (h : (d.map Term.base).Nodup) : ((accum d t).map Term.base).Nodup := by
  induction d with
  | nil => simp [accum]
  | cons x xs ih =>
    simp only [accum]
    simp only [List.map_cons, List.nodup_cons] at h
    split
    · simpa using h
    · rename_i hne
      simp only [List.map_cons, List.nodup_cons, bases_accum]
      exact ⟨by rintro (hh | hh) ; exacts [h.1 hh, hne hh], ih h.2⟩

theorem foldl_accum (ts : List Term) : ∀ d : List Term, (d.map Term.base).Nodup →
    coefOf (ts.foldl accum d) = coefOf d * coefOf ts ∧
    (∀ b, expOf b (ts.foldl accum d) = expOf b d + expOf b ts) ∧
    ((ts.foldl accum d).map Term.base).Nodup ∧
    (∀ b, b ∈ (ts.foldl accum d).map Term.base ↔ b ∈ d.map Term.base ∨ b ∈ ts.map Term.base) := by
  induction ts with
  | nil => intro d h; simpa using h
  | cons t ts ih =>
    intro d h
    obtain ⟨h1, h2, h3, h4⟩ := ih (accum d t) (nodup_accum d t h)
    refine ⟨?_, ?_, h3, ?_⟩
    · simp only [List.foldl_cons, h1, coefOf_accum, coefOf_cons]; ring
    · intro b; simp only [List.foldl_cons, h2, expOf_accum, expOf_cons]; ring
    · intro b; simp only [List.foldl_cons, h4, bases_accum, List.map_cons, List.mem_cons]; tauto

theorem expOf_of_nodup (ts : List Term) (h : (ts.map Term.base).Nodup) :
    ∀ t ∈ ts, expOf t.base ts = t.exp := by
  induction ts with
  | nil => simp
  | cons x xs ih =>
    simp only [List.map_cons, List.nodup_cons] at h
    have hz : ∀ b, b ∉ xs.map Term.base → expOf b xs = 0 := by
      intro b hb
      clear ih h
      induction xs with
      | nil => rfl
      | cons y ys ih =>
        simp only [List.map_cons, List.mem_cons, not_or] at hb
        simp [expOf_cons, ih hb.2, Ne.symm hb.1]
    intro t ht
    rcases List.mem_cons.1 ht with rfl | ht
    · simp [expOf_cons, hz _ h.1]
    · have : x.base ≠ t.base := fun e => h.1 (e ▸ List.mem_map_of_mem ht)
      simp [expOf_cons, this, ih h.2 t ht]

theorem expOf_of_not_mem (ts : List Term) (b) (hb : b ∉ ts.map Term.base) : expOf b ts = 0 := by
  induction ts with
  | nil => rfl
  | cons y ys ih =>
    simp only [List.map_cons, List.mem_cons, not_or] at hb
    simp [expOf_cons, ih hb.2, Ne.symm hb.1]

/-! ### string order -/

theorem strLe_refl (a : Str) : strLe a a = true := by
  induction a with
  | nil => rfl
  | cons x xs ih => simp [strLe, ih]

theorem strLe_total (a b : Str) : strLe a b = true ∨ strLe b a = true := by
  induction a generalizing b with
  | nil => simp [strLe]
  | cons x xs ih =>
    cases b with
    | nil => simp [strLe]
    | cons y ys =>
      simp only [strLe]
      rcases Nat.lt_trichotomy x.toNat y.toNat with h | h | h
      · simp [h]
      · simp [h]; exact ih ys
      · simp [h]

theorem strLe_trans {a b c : Str} : strLe a b = true → strLe b c = true → strLe a c = true := by
  induction a generalizing b c with
  | nil => simp [strLe]
  | cons x xs ih =>
    cases b with
    | nil => simp [strLe]
    | cons y ys =>
      cases c with
      | nil => simp [strLe]
      | cons z zs =>
        simp only [strLe]
        intro h1 h2
        split at h1
        · split at h2
          · rw [if_pos (by omega)]
          · split at h2
            · simp at h2
            · rw [if_pos (by omega)]
        · split at h1
          · simp at h1
          · split at h2
            · rw [if_pos (by omega)]
            · split at h2
              · simp at h2
              · rw [if_neg (by omega), if_neg (by omega)]; exact ih h1 h2

theorem char_toNat_inj {a b : Char} (h : a.toNat = b.toNat) : a = b := by
  apply Char.ext; exact UInt32.toNat_inj.1 h

theorem strLe_antisymm {a b : Str} : strLe a b = true → strLe b a = true → a = b := by
  induction a generalizing b with
  | nil => cases b <;> simp [strLe]
  | cons x xs ih =>
    cases b with
    | nil => simp [strLe]
    | cons y ys =>
      simp only [strLe]
      intro h1 h2
      rcases Nat.lt_trichotomy x.toNat y.toNat with h | h | h
      · simp [h, Nat.lt_asymm h] at h2
      · simp [h] at h1 h2
        rw [char_toNat_inj h, ih h1 h2]
      · simp [h, Nat.lt_asymm h] at h1

theorem strLt_of_strLe_ne {a b : Str} : strLe a b = true → a ≠ b → StrLt a b := by
  induction a generalizing b with
  | nil => cases b <;> simp [strLe, StrLt]
  | cons x xs ih =>
    cases b with
    | nil => simp [strLe]
    | cons y ys =>
      simp only [strLe]
      intro h1 h2
      rcases Nat.lt_trichotomy x.toNat y.toNat with h | h | h
      · exact List.Lex.rel h
      · simp [h] at h1
        have hxy := char_toNat_inj h
        subst hxy
        exact List.Lex.cons (ih h1 (by simpa using h2))
      · simp [h, Nat.lt_asymm h] at h1

theorem StrLt.le {a b : Str} (h : StrLt a b) : strLe a b = true := by
  induction h with
  | nil => rfl
  | cons _ ih => simpa [strLe] using ih
  | rel h => simp [strLe, h]

theorem StrLt.ne {a b : Str} (h : StrLt a b) : a ≠ b := by
  induction h with
  | nil => simp
  | cons _ ih => simpa using ih
  | rel h => intro e; simp at e; rw [e.1] at h; omega

/-! ### stable sorting -/

theorem insertBy_perm (le a l) : (insertBy le a l).Perm (a :: l) := by
  induction l with
  | nil => exact List.Perm.refl _
  | cons b l ih =>
    simp only [insertBy]; split
    · exact List.Perm.refl _
    · exact (ih.cons b).trans (List.Perm.swap a b l)

theorem sortBy_perm (le l) : (sortBy le l).Perm l := by
  induction l with
  | nil => exact List.Perm.refl _
  | cons a l ih => exact (insertBy_perm le a _).trans (ih.cons a)

/-- Stable insertion: an element that is `R`-before all members lands `R`-before
those that tie with it. -/
theorem insertBy_pairwise {le : Term → Term → Bool} {S : Term → Term → Prop} {a : Term}
    {l : List Term}
    (hS : l.Pairwise S)
    (hle : ∀ b ∈ l, le a b = true → S a b)
    (hgt : ∀ b ∈ l, le a b = false → S b a)
    (htr : ∀ b ∈ l, ∀ c ∈ l, le a b = true → S b c → S a c) :
    (insertBy le a l).Pairwise S := by
  induction l with
  | nil => simp [insertBy]
  | cons b l ih =>
    simp only [insertBy]
    rw [List.pairwise_cons] at hS
    split
    · rename_i h
      rw [List.pairwise_cons, List.pairwise_cons]
      refine ⟨?_, hS⟩
      intro x hx
      rcases List.mem_cons.1 hx with rfl | hx
      · exact hle _ (by simp) h
      · exact htr b (by simp) x (by simp [hx]) h (hS.1 x hx)
    · rename_i h
      rw [List.pairwise_cons]
      constructor
      · intro x hx
        rcases List.mem_cons.1 ((insertBy_perm le a l).mem_iff.1 hx) with rfl | hx
        · exact hgt b (by simp) (by simpa using h)
        · exact hS.1 x hx
      · exact ih hS.2 (fun b hb => hle b (by simp [hb])) (fun b hb => hgt b (by simp [hb]))
          (fun b hb c hc => htr b (by simp [hb]) c (by simp [hc]))

theorem sortBase_pairwise (l : List Term) :
    (sortBy (fun a b => strLe a.base b.base) l).Pairwise (fun a b => strLe a.base b.base = true) := by
  induction l with
  | nil => simp [sortBy]
  | cons a l ih =>
    refine insertBy_pairwise ih (fun b _ h => h) ?_ (fun b _ c _ h1 h2 => strLe_trans h1 h2)
    intro b _ h
    rcases strLe_total a.base b.base with h' | h'
    · rw [h'] at h; simp at h
    · exact h'

/-- the order of variable terms in a reduced expression -/
def VarLe (a b : Term) : Prop := b.exp < a.exp ∨ (a.exp = b.exp ∧ strLe a.base b.base = true)

theorem sortExp_pairwise (l : List Term) (h : l.Pairwise (fun a b => strLe a.base b.base = true)) :
    (sortBy (fun a b => decide (b.exp ≤ a.exp)) l).Pairwise VarLe := by
  induction l with
  | nil => simp [sortBy]
  | cons a l ih =>
    rw [List.pairwise_cons] at h
    have hmem : ∀ b ∈ sortBy (fun a b => decide (b.exp ≤ a.exp)) l, strLe a.base b.base = true :=
      fun b hb => h.1 b ((sortBy_perm _ l).mem_iff.1 hb)
    refine insertBy_pairwise (ih h.2) ?_ ?_ ?_
    · intro b hb hle
      have hle : b.exp ≤ a.exp := by simpa using hle
      rcases lt_or_eq_of_le hle with h1 | h1
      · exact Or.inl h1
      · exact Or.inr ⟨h1.symm, hmem b hb⟩
    · intro b hb hgt
      have hgt : a.exp < b.exp := by simpa using hgt
      exact Or.inl hgt
    · intro b hb c hc hle hbc
      have hle : b.exp ≤ a.exp := by simpa using hle
      rcases hbc with h1 | ⟨h1, _⟩
      · exact Or.inl (lt_of_lt_of_le h1 hle)
      · rcases lt_or_eq_of_le (h1 ▸ hle) with h2 | h2
        · exact Or.inl h2
        · exact Or.inr ⟨h2.symm, hmem c hc⟩

theorem sortedVars_perm (l : List Term) : (sortedVars l).Perm l :=
  (sortBy_perm _ _).trans (sortBy_perm _ _)

theorem sortedVars_pairwise (l : List Term) : (sortedVars l).Pairwise VarLe :=
  sortExp_pairwise _ (sortBase_pairwise l)

/-! ### the shape of `reduce` -/

theorem foldl_mul (l : List Rat) : ∀ x, l.foldl (· * ·) x = x * l.prod := by
  induction l with
  | nil => simp
  | cons a l ih => intro x; simp [ih, mul_assoc]

/-- the number and the symbols of a term list -/
structure Parts (ts : List Term) (c : Rat) (vs : List Term) : Prop where
  coef : c = coefOf ts
  mem : ∀ v, v ∈ vs ↔ v.coeff = 1 ∧ v.base ≠ one ∧ v.exp ≠ 0 ∧ v.exp = expOf v.base ts
  nodup : (vs.map Term.base).Nodup
  sorted : vs.Pairwise VarLe

def assemble (c : Rat) (vs : List Term) : List Term :=
  if vs = [] then [mkTerm c one 1] else if c = 1 then vs else mkTerm c one 1 :: vs

theorem reduce_eq (ts : List Term) (hne : ts ≠ []) (hb : ∀ t ∈ ts, t.base ≠ []) :
    ∃ vs, Parts ts (coefOf ts) vs ∧ reduce ts = .ok (assemble (coefOf ts) vs) := by
  obtain ⟨h1, h2, h3, h4⟩ := foldl_accum ts [] (by simp)
  simp only [coefOf_nil, one_mul, expOf_nil, zero_add, List.map_nil, List.not_mem_nil, false_or] at h1 h2 h3 h4
  set d := ts.foldl accum [] with hd
  set tmp := (d.filter (fun t => decide (t.base ≠ one ∧ t.exp ≠ 0))).map
      (fun t => mkTerm 1 t.base t.exp) with htmp
  have hmk : ∀ t ∈ d, t.base ≠ one ∧ t.exp ≠ 0 → mkTerm 1 t.base t.exp = ⟨1, t.base, t.exp⟩ := by
    intro t ht h
    have : t.base ≠ [] := by
      have := (h4 t.base).1 (List.mem_map_of_mem ht)
      obtain ⟨s, hs, e⟩ := List.mem_map.1 this
      rw [← e]; exact hb s hs
    simp [mkTerm, orOne, orOneStr, this, h.2]
  have hmem : ∀ v, v ∈ tmp ↔ v.coeff = 1 ∧ v.base ≠ one ∧ v.exp ≠ 0 ∧ v.exp = expOf v.base ts := by
    intro v
    rw [htmp, List.mem_map]
    constructor
    · rintro ⟨t, ht, rfl⟩
      rw [List.mem_filter] at ht
      have hp : t.base ≠ one ∧ t.exp ≠ 0 := by simpa using ht.2
      rw [hmk t ht.1 hp]
      exact ⟨rfl, hp.1, hp.2, by rw [← h2]; exact (expOf_of_nodup d h3 t ht.1).symm⟩
    · rintro ⟨hc, hb1, he, hv⟩
      have : v.base ∈ d.map Term.base := by
        by_contra hcon
        have := expOf_of_not_mem d v.base hcon
        rw [h2] at this
        exact he (hv.trans this)
      obtain ⟨t, ht, hte⟩ := List.mem_map.1 this
      have hexp : t.exp = v.exp := by
        rw [← expOf_of_nodup d h3 t ht, hte, h2, ← hv]
      refine ⟨t, List.mem_filter.2 ⟨ht, by simp [hte, hb1, hexp, he]⟩, ?_⟩
      rw [hmk t ht ⟨hte ▸ hb1, hexp ▸ he⟩, hte, hexp, ← hc]
  have hnd : (tmp.map Term.base).Nodup := by
    have : tmp.map Term.base = (d.filter (fun t => decide (t.base ≠ one ∧ t.exp ≠ 0))).map Term.base := by
      rw [htmp, List.map_map]
      apply List.map_congr_left
      intro t ht
      rw [List.mem_filter] at ht
      have hp : t.base ≠ one ∧ t.exp ≠ 0 := by simpa using ht.2
      simp [Function.comp, hmk t ht.1 hp]
    rw [this]
    exact List.Nodup.sublist (List.Sublist.map _ List.filter_sublist) h3
  refine ⟨sortedVars tmp, ⟨rfl, ?_, ?_, sortedVars_pairwise tmp⟩, ?_⟩
  · intro v; rw [(sortedVars_perm tmp).mem_iff]; exact hmem v
  · exact (((sortedVars_perm tmp).map _).nodup_iff).2 hnd
  · have hc : (d.map Term.coeff).foldl (· * ·) 1 = coefOf ts := by
      rw [foldl_mul, one_mul]; exact h1
    simp only [reduce, if_neg hne, ← hd, ← htmp, hc, assemble]
    split
    · rfl
    · split <;> rfl

theorem Parts.unique {ts ts' c c' vs vs'} (h : Parts ts c vs) (h' : Parts ts' c' vs')
    (hc : coefOf ts = coefOf ts') (he : ∀ b, b ≠ one → expOf b ts = expOf b ts') :
    c = c' ∧ vs = vs' := by
  refine ⟨by rw [h.coef, h'.coef, hc], ?_⟩
  have hmem : ∀ v, v ∈ vs ↔ v ∈ vs' := by
    intro v; rw [h.mem, h'.mem]
    constructor
    · rintro ⟨a, b, c, d⟩; exact ⟨a, b, c, by rw [← he _ b]; exact d⟩
    · rintro ⟨a, b, c, d⟩; exact ⟨a, b, c, by rw [he _ b]; exact d⟩
  have hp : vs.Perm vs' :=
    (List.perm_ext_iff_of_nodup (List.Nodup.of_map _ h.nodup) (List.Nodup.of_map _ h'.nodup)).2 hmem
  refine hp.eq_of_pairwise ?_ h.sorted h'.sorted
  intro a b ha hb hab hba
  have hb' := (hmem b).2 hb
  obtain ⟨a1, a2, a3, a4⟩ := (h.mem a).1 ha
  obtain ⟨b1, b2, b3, b4⟩ := (h.mem b).1 hb'
  have hexp : a.exp = b.exp := by
    rcases hab with h1 | ⟨h1, _⟩
    · rcases hba with h2 | ⟨h2, _⟩
      · exact absurd h1 (lt_asymm h2)
      · exact h2.symm
    · exact h1
  have hbase : a.base = b.base := by
    rcases hab with h1 | ⟨_, h1⟩
    · exact absurd h1 (by rw [hexp]; exact lt_irrefl _)
    · rcases hba with h2 | ⟨_, h2⟩
      · exact absurd h2 (by rw [hexp]; exact lt_irrefl _)
      · exact strLe_antisymm h1 h2
  cases a; cases b; simp_all

end Eprem.Symbolic
