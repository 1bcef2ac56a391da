import Verif.Model.MetricCache
import Verif.Lemmas.MetricNames
import Verif.Lemmas.MetricSwap
import Verif.Lemmas.PrintRow
import Verif.Lemmas.Aliased

/-! # Lemmas for the cache of units -/

namespace Eprem.Metric

open Eprem Eprem.Symbolic Eprem.Aliased

/-! ### facts about the table of named units -/

set_option maxHeartbeats 100000000 in
theorem spellings_plain : ∀ p ∈ namedTable, ∀ n ∈ p.1, '^' ∉ n ∧ (' ' ∈ n → named (n.takeWhile (· ≠ ' ')) = none) := by
  decide +kernel

set_option maxHeartbeats 100000000 in
theorem fresh_names : ∀ p ∈ namedTable, baseIsValid p.2.symbol = true →
    freshUnit p.2.name = .ok [⟨1, p.2.symbol, 1⟩] ∨ (freshUnit p.2.name).toOption = none := by decide +kernel

theorem spelling_symbol : ∀ p ∈ namedTable, ∀ n ∈ p.1, (named n).map Entry.symbol = some p.2.symbol := by
  intro p hp n hn
  by_cases h : n = c! "cd"
  · subst h
    have hn' : (named c! "cd").map Entry.symbol = some c! "cd" := by decide +kernel
    rw [hn']
    rcases cd_entries p hp hn with h | h <;> rw [h] <;> decide +kernel
  · rw [named_table p hp n hn h]; rfl

/-! ### fresh units -/

theorem mapE_cons {α β ε : Type} {f : α → Except ε β} {a : α} {l : List α} {r : List β}
    (h : mapE f (a :: l) = .ok r) : ∃ b bs, f a = .ok b ∧ mapE f l = .ok bs ∧ r = b :: bs := by
  unfold mapE at h
  cases ha : f a with
  | error e => rw [ha] at h; cases h
  | ok b =>
    rw [ha] at h
    simp only at h
    cases hl : mapE f l with
    | error e => rw [hl] at h; cases h
    | ok bs =>
      rw [hl] at h
      cases h
      exact ⟨b, bs, rfl, rfl, rfl⟩

theorem mapE_mem {α β ε : Type} {f : α → Except ε β} : ∀ {l : List α} {r : List β}, mapE f l = .ok r →
    ∀ b ∈ r, ∃ a ∈ l, f a = .ok b
  | [], r, h, b, hb => by cases h; cases hb
  | a :: l, r, h, b, hb => by
    obtain ⟨b', bs, h1, h2, rfl⟩ := mapE_cons h
    rcases List.mem_cons.1 hb with rfl | hb
    · exact ⟨a, by simp, h1⟩
    · obtain ⟨x, hx, hf⟩ := mapE_mem h2 b hb
      exact ⟨x, by simp [hx], hf⟩

theorem mapE_fixed {α ε : Type} {f : α → Except ε α} : ∀ {l : List α}, (∀ a ∈ l, f a = .ok a) → mapE f l = .ok l
  | [], _ => rfl
  | a :: l, h => by
    unfold mapE
    rw [h a (by simp)]
    simp only
    rw [mapE_fixed (fun x hx => h x (by simp [hx]))]

/-- the symbols of units stand for themselves -/
theorem asSymbol_fixed {t t' : Term} (h : asSymbol t = .ok t') : asSymbol t' = .ok t' := by
  unfold asSymbol at h
  split at h
  · cases h
  next e he =>
    split at h
    next hv =>
      cases h
      obtain ⟨p, hp, hn, rfl⟩ := named_mem he
      have hs := spelling_symbol p hp p.2.symbol (symbol_name_mem p hp).1
      cases hne : named p.2.symbol with
      | none => rw [hne] at hs; cases hs
      | some e' =>
        rw [hne] at hs
        have hs' : e'.symbol = p.2.symbol := by simpa using hs
        have hb : p.2.symbol ≠ [] := by
          intro h0; rw [h0] at hv; simp [baseIsValid, one] at hv
        have hbase : (mkTerm 1 p.2.symbol t.exp).base = p.2.symbol := by simp [mkTerm, orOneStr, hb]
        unfold asSymbol
        rw [hbase, hne]
        simp only [hs', hv, if_true]
        congr 1
        by_cases h0 : t.exp = 0 <;> simp [mkTerm, orOne, orOneStr, hb, h0]
    · cases h

theorem freshUnit_fixed {s : Name} {u : List Term} (h : freshUnit s = .ok u) : ∀ t ∈ u, asSymbol t = .ok t := by
  intro t ht
  unfold freshUnit at h
  cases he : exprOfString false s with
  | error e => simp [he, ofSym, bind, Except.bind] at h
  | ok e =>
    simp only [he, ofSym, bind, Except.bind] at h
    obtain ⟨x, _, hx⟩ := mapE_mem h t ht
    exact asSymbol_fixed hx

theorem Plain.row {u : List Term} (h : Plain u) : ∀ t ∈ u, Row t := fun t ht =>
  ⟨h.names.exact t ht, fun _ => h.names.coeff t ht⟩

theorem Plain.reduce {u : List Term} (h : Plain u) : ∃ r, reduce u = .ok r ∧ r.Perm u := by
  by_cases ho : one ∈ u.map Term.base
  · rw [h.number ho]
    exact ⟨_, by decide +kernel, List.Perm.refl _⟩
  · obtain ⟨r, vs, hp, hrv, hr, _, _⟩ := reduce_ok h.names.nonempty h.names.wf
    have hc : coefOf u = 1 := by
      unfold coefOf; exact List.prod_eq_one (by simpa using fun t ht => h.names.coeff t ht)
    have hmem : ∀ v, v ∈ vs ↔ v ∈ u := by
      intro v
      rw [hp.mem]
      constructor
      · rintro ⟨h1, h2, h3, h4⟩
        by_cases hm : v.base ∈ u.map Term.base
        · obtain ⟨t, ht, he⟩ := List.mem_map.1 hm
          rw [← he, expOf_of_nodup u h.nodup t ht] at h4
          have hct := h.names.coeff t ht
          have : t = v := by
            cases t; cases v; simp_all
          exact this ▸ ht
        · rw [expOf_of_not_mem u _ hm] at h4; exact absurd h4 h3
      · intro hv
        refine ⟨h.names.coeff v hv, ?_, (h.names.exp v hv).2, (expOf_of_nodup u h.nodup v hv).symm⟩
        intro hb
        exact ho (hb ▸ List.mem_map_of_mem hv)
    have hvs : vs ≠ [] := by
      obtain ⟨t, ht⟩ := List.exists_mem_of_ne_nil _ h.names.nonempty
      intro h0
      have := (hmem t).2 ht
      rw [h0] at this; cases this
    refine ⟨r, hr, ?_⟩
    rw [hrv, hc]
    unfold assemble
    rw [if_neg hvs, if_pos rfl]
    exact (List.perm_ext_iff_of_nodup (List.Nodup.of_map _ hp.nodup) (List.Nodup.of_map _ h.nodup)).2 hmem

/-- the printed name of a unit creates the same unit, up to the order of its terms -/
theorem fresh_of_name {u : List Term} (h : Plain u) (hf : ∀ t ∈ u, asSymbol t = .ok t) :
    ∃ r, freshUnit (showExpr u) = .ok r ∧ r.Perm u := by
  obtain ⟨r, hr, hp⟩ := h.reduce
  refine ⟨r, ?_, hp⟩
  unfold freshUnit
  rw [showExpr_round_trip u h.names.nonempty h.row, hr]
  simp only [ofSym, bind, Except.bind]
  exact mapE_fixed (fun t ht => hf t (hp.mem_iff.1 ht))

theorem named_of_fixed {t : Term} (h : asSymbol t = .ok t) : ∃ e, named t.base = some e := by
  unfold asSymbol at h
  cases hn : named t.base with
  | none => rw [hn] at h; cases h
  | some e => exact ⟨e, rfl⟩

theorem not_blank_of_valid {b : Name} (h : ValidName b) : ∀ x ∈ b, x ≠ ' ' := by
  obtain ⟨ls, ds, rfl, _, h2, h3, _⟩ := h
  rintro x hx rfl
  rcases List.mem_append.1 hx with hx | hx
  · have := h2 _ hx; revert this; decide
  · have := h3 _ hx; revert this; decide

theorem formatTerm_names {u : List Term} (h : Plain u) {t : Term} (ht : t ∈ u) (hf : '^' ∉ formatTerm t) :
    formatTerm t = t.base ∧ t = ⟨1, t.base, 1⟩ := by
  have hc := h.names.coeff t ht
  rcases h.names.base t ht with hv | ⟨hb, he⟩
  · have hb : t.base ≠ one := by
      intro hb
      obtain ⟨ls, ds, h2, h3, h4, _, _⟩ := hv
      rw [hb] at h2
      cases ls with
      | nil => exact absurd rfl h3
      | cons x ls =>
        have : x = '1' := by simp [one] at h2; exact h2.1.symm
        have := h4 x (by simp)
        simp_all [isLetter]
    have he : t.exp = 1 := by
      by_contra hne
      apply hf
      unfold formatTerm
      rw [if_neg hb]
      simp [hne]
    refine ⟨?_, by cases t; simp_all⟩
    unfold formatTerm formatCoefficient
    simp [hb, hc, he]
  · have : t = ⟨1, one, 1⟩ := by cases t; simp_all
    subst this
    exact ⟨by decide +kernel, rfl⟩

theorem showExpr_first {t : Term} {us : List Term} (hne : us ≠ []) (hb : ∀ x ∈ formatTerm t, x ≠ ' ') :
    (showExpr (t :: us)).takeWhile (· ≠ ' ') = formatTerm t ∧ ' ' ∈ showExpr (t :: us) := by
  cases us with
  | nil => exact absurd rfl hne
  | cons u us =>
    simp only [showExpr]
    refine ⟨?_, by simp⟩
    rw [List.takeWhile_append_of_pos (by simpa using hb)]
    simp

/-- if the printed name of a unit is the name of a named unit, it is a single symbol -/
theorem single_of_named {u : List Term} (h : Plain u) (hf : ∀ t ∈ u, asSymbol t = .ok t)
    {p : List Name × Entry} (hp : p ∈ namedTable) (hn : showExpr u ∈ p.1) :
    u = [⟨1, showExpr u, 1⟩] ∧ p.2.symbol = showExpr u := by
  obtain ⟨h1, h2⟩ := spellings_plain p hp _ hn
  have hsingle : ∃ t, u = [t] := by
    cases u with
    | nil => exact absurd rfl h.names.nonempty
    | cons t us =>
      cases us with
      | nil => exact ⟨t, rfl⟩
      | cons v us =>
        exfalso
        have hsub : ∀ x ∈ formatTerm t, x ∈ showExpr (t :: v :: us) := by
          intro x hx; simp [showExpr, hx]
        obtain ⟨hft, ht⟩ := formatTerm_names h (t := t) (by simp) (fun hc => h1 (hsub _ hc))
        have hbl : ∀ x ∈ formatTerm t, x ≠ ' ' := by
          rw [hft]
          rcases h.names.base t (by simp) with hv | ⟨hb, _⟩
          · exact not_blank_of_valid hv
          · rw [hb]; decide
        obtain ⟨h3, h4⟩ := showExpr_first (t := t) (us := v :: us) (by simp) hbl
        have := h2 h4
        rw [h3, hft] at this
        obtain ⟨e, he⟩ := named_of_fixed (hf t (by simp))
        rw [this] at he; cases he
  obtain ⟨t, rfl⟩ := hsingle
  obtain ⟨hft, ht⟩ := formatTerm_names h (t := t) (by simp) h1
  have hs : showExpr [t] = t.base := hft
  refine ⟨by rw [hs]; congr 1, ?_⟩
  have hsym := spelling_symbol p hp _ hn
  have hfix := hf t (by simp)
  unfold asSymbol at hfix
  rw [hs] at hsym ⊢
  cases hne : named t.base with
  | none => rw [hne] at hsym; cases hsym
  | some e =>
    rw [hne] at hsym hfix
    simp only at hfix
    split at hfix
    next hv =>
      have hb : e.symbol ≠ [] := by
        intro h0; rw [h0] at hv; simp [baseIsValid, one] at hv
      have : (mkTerm 1 e.symbol t.exp).base = t.base := by rw [Except.ok.injEq] at hfix; rw [hfix]
      have hes : e.symbol = t.base := by simpa [mkTerm, orOneStr, hb] using this
      simp only [Option.map_some, Option.some.injEq] at hsym
      rw [← hsym, hes]
    · cases hfix

/-! ### assigning through a tuple of new names -/

theorem setTuple_spec {ν : Type} {m : AMap Name ν} (hm : Good m) (ks : List Name) (hne : ks ≠ [])
    (hf : ∀ k ∈ ks, m.resolve k = none) (v : ν) :
    Good (m.setTuple ks v) ∧ ∀ a, (m.setTuple ks v).getItem a = if a ∈ ks then .ok v else m.getItem a := by
  have hdis : ∀ g' ∈ m.dict.keys, Disjoint g' ks.toFinset := by
    intro g' hg'
    rw [Finset.disjoint_left]
    intro a ha ha'
    exact (resolve_none hm).1 (hf a (by simpa using ha')) g' hg' ha
  have hne' : ks.toFinset.Nonempty := by
    cases ks with
    | nil => exact absurd rfl hne
    | cons k _ => exact ⟨k, by simp⟩
  have hG : Good (m.setTuple ks v) := good_ofDict (inv_set hm.inv hne' v (Or.inr hdis))
  have hd : (m.setTuple ks v).dict = m.dict.set ks.toFinset v := rfl
  refine ⟨hG, fun a => ?_⟩
  split
  next hk =>
    rw [getItem_ok hG, hd]
    exact ⟨_, (mem_set hm.inv.wf).2 (Or.inl ⟨rfl, rfl⟩), by simpa using hk⟩
  next ha =>
    refine getItem_congr hG hm (fun w => ?_)
    rw [hd]
    constructor
    · rintro ⟨g, hg, hag⟩
      rcases (mem_set hm.inv.wf).1 hg with ⟨rfl, _⟩ | ⟨_, h⟩
      · exact absurd (by simpa using hag) ha
      · exact ⟨g, h, hag⟩
    · rintro ⟨g, hg, hag⟩
      exact ⟨g, (mem_set hm.inv.wf).2 (Or.inr ⟨fun h => ha (by rw [h] at hag; simpa using hag), hg⟩), hag⟩

/-! ### the invariant -/

/-- what `NamedUnit` may make of a string: some unit in the table with that spelling -/
def SoundNames (nu : Name → Option Entry) : Prop := ∀ n e, nu n = some e → ∃ p ∈ namedTable, n ∈ p.1 ∧ p.2 = e

structure Known (m : AMap Name (List Term)) : Prop where
  good : Good m
  plain : ∀ k u, m.getItem k = .ok u → Plain u ∧ (∀ t ∈ u, asSymbol t = .ok t) ∧ m.getItem (showExpr u) = .ok u
  fresh : ∀ k u, m.getItem k = .ok u → (∃ v, freshUnit k = .ok v ∧ v.Perm u) ∨
    ((freshUnit k).toOption = none ∧ ∃ p ∈ namedTable, k = p.2.name ∧ u = [⟨1, p.2.symbol, 1⟩])

theorem known_empty : Known noUnits := by
  have hg : Good (noUnits : AMap Name (List Term)) := good_ofDict ⟨by simp [Dict.keys], by simp [Dict.keys]⟩
  have : ∀ k u, (noUnits : AMap Name (List Term)).getItem k ≠ .ok u := by
    intro k u h
    obtain ⟨g, hg', _⟩ := (getItem_ok hg).1 h
    cases hg'
  exact ⟨hg, fun k u h => absurd h (this k u), fun k u h => absurd h (this k u)⟩

set_option maxHeartbeats 100000000 in
theorem name_symbol : ∀ p ∈ namedTable, ∀ q ∈ namedTable, p.2.name = q.2.name → p.2.symbol = q.2.symbol := by
  intro p hp q hq h
  have h1 := spelling_symbol p hp _ (symbol_name_mem p hp).2
  have h2 := spelling_symbol q hq _ (symbol_name_mem q hq).2
  rw [h, h2, Option.some.injEq] at h1
  exact h1.symm

theorem contains_iff {m : AMap Name (List Term)} (hm : Good m) {k : Name} :
    m.contains k = true ↔ ∃ u, m.getItem k = .ok u := by
  unfold AMap.contains
  rcases getItem_cases hm k with ⟨v, hv⟩ | h
  · constructor
    · intro _; exact ⟨v, hv⟩
    · intro _
      cases hr : m.resolve k with
      | some g => rfl
      | none => rw [← getItem_error hm, hv] at hr; cases hr
  · rw [(getItem_error hm).1 h]
    simp [h]

/-- one request, with a unit in which every symbol occurs once -/
theorem unitFactory_known {nu : Name → Option Entry} (hnu : SoundNames nu) {m : AMap Name (List Term)} (hm : Known m)
    {s : Name} (hs : ∀ v, freshUnit s = .ok v → Plain v) :
    Known (unitFactory nu m s).1 ∧ ∀ v, freshUnit s = .ok v → ∃ u, (unitFactory nu m s).2 = .ok u ∧ u.Perm v := by
  have hG := hm.good
  unfold unitFactory
  rcases getItem_cases hG s with ⟨u, hu⟩ | hno
  · rw [hu]
    refine ⟨hm, fun v hv => ⟨u, rfl, ?_⟩⟩
    rcases hm.fresh s u hu with ⟨w, hw, hp⟩ | ⟨h0, _⟩
    · rw [hv, Except.ok.injEq] at hw
      subst hw; exact hp.symm
    · rw [hv] at h0; cases h0
  · rw [hno]
    simp only
    have hsres : m.resolve s = none := (getItem_error hG).1 hno
    cases hfr : freshUnit s with
    | error e => exact ⟨hm, fun v hv => by cases hv⟩
    | ok u =>
      simp only
      have hpl := hs u hfr
      have hfix := freshUnit_fixed hfr
      obtain ⟨r, hr, hrp⟩ := fresh_of_name hpl hfix
      split
      next hc =>
        obtain ⟨x, hx⟩ := (contains_iff hG).1 hc
        rw [hx]
        simp only
        have hxp : u.Perm x := by
          rcases hm.fresh _ _ hx with ⟨w, hw, hp⟩ | ⟨h0, _⟩
          · rw [hr, Except.ok.injEq] at hw
            subst hw; exact hrp.symm.trans hp
          · rw [hr] at h0; cases h0
        have hns : s ≠ showExpr u := by
          rintro rfl; rw [hno] at hx; cases hx
        have hres : ∃ g, m.resolve (showExpr u) = some g := by
          cases h : m.resolve (showExpr u) with
          | some g => exact ⟨g, rfl⟩
          | none => rw [← getItem_error hG, hx] at h; cases h
        obtain ⟨g, hg⟩ := hres
        obtain ⟨m', h1, h2, h3, _⟩ := aliasLoop_ok hG (showExpr u) [s] g hg (by simp [hns]) (by
          intro a ha _
          rw [List.mem_singleton] at ha; rw [ha]; exact hsres)
        have ha : m.alias (showExpr u) [s] = (m', none) := by
          unfold AMap.alias; rw [if_neg (by simp)]; exact h1
        rw [ha]
        have hget : ∀ k, m'.getItem k = if k = s then .ok x else m.getItem k := by
          intro k; rw [h3, hx]; simp
        obtain ⟨p1, p2, p3⟩ := hm.plain _ _ hx
        have hkeep : ∀ k u, m.getItem k = .ok u → m'.getItem k = .ok u := by
          intro k u hk
          rw [hget, if_neg]
          · exact hk
          · rintro rfl; rw [hno] at hk; cases hk
        refine ⟨⟨h2, ?_, ?_⟩, fun v hv => ?_⟩
        · intro k w hk
          rw [hget] at hk
          split at hk
          · cases hk; exact ⟨p1, p2, hkeep _ _ p3⟩
          · obtain ⟨q1, q2, q3⟩ := hm.plain k w hk
            exact ⟨q1, q2, hkeep _ _ q3⟩
        · intro k w hk
          rw [hget] at hk
          split at hk
          next hks => cases hk; subst hks; exact Or.inl ⟨u, hfr, hxp⟩
          next => exact hm.fresh k w hk
        · cases hv
          exact ⟨x, rfl, hxp.symm⟩
      next hc =>
        have hnres : m.resolve (showExpr u) = none := by
          unfold AMap.contains at hc
          cases h : m.resolve (showExpr u) with
          | none => rfl
          | some g => rw [h] at hc; exact absurd rfl hc
        have hstep : ∀ ks : List Name, ks ≠ [] → (∀ k ∈ ks, m.resolve k = none) → showExpr u ∈ ks →
            (∀ k ∈ ks, (∃ v, freshUnit k = .ok v ∧ v.Perm u) ∨
              ((freshUnit k).toOption = none ∧ ∃ p ∈ namedTable, k = p.2.name ∧ u = [⟨1, p.2.symbol, 1⟩])) →
            Known (m.setTuple ks u) := by
          intro ks hne hk hin hfresh
          obtain ⟨h1, h2⟩ := setTuple_spec hG ks hne hk u
          have hkeep : ∀ k w, m.getItem k = .ok w → (m.setTuple ks u).getItem k = .ok w := by
            intro k w hw
            rw [h2, if_neg]
            · exact hw
            · intro hmem
              rw [(getItem_error hG).2 (hk k hmem)] at hw; cases hw
          refine ⟨h1, ?_, ?_⟩
          · intro k w hw
            rw [h2] at hw
            split at hw
            · cases hw
              exact ⟨hpl, hfix, by rw [h2, if_pos hin]⟩
            · obtain ⟨q1, q2, q3⟩ := hm.plain k w hw
              exact ⟨q1, q2, hkeep _ _ q3⟩
          · intro k w hw
            rw [h2] at hw
            split at hw
            next hmem => cases hw; exact hfresh k hmem
            next => exact hm.fresh k w hw
        split
        next e he =>
          obtain ⟨p, hp, hpn, rfl⟩ := hnu _ _ he
          obtain ⟨hu1, hsym⟩ := single_of_named hpl hfix hp hpn
          have hvalid : baseIsValid p.2.symbol = true := by
            have hfx := hfix ⟨1, showExpr u, 1⟩ (by
              have hx := List.mem_singleton_self (⟨1, showExpr u, 1⟩ : Term)
              rwa [← hu1] at hx)
            unfold asSymbol at hfx
            have hsp := spelling_symbol p hp _ hpn
            simp only at hfx
            cases hne : named (showExpr u) with
            | none => rw [hne] at hsp; cases hsp
            | some e =>
              rw [hne] at hsp hfx
              simp only [Option.map_some, Option.some.injEq] at hsp
              simp only at hfx
              split at hfx
              next hv => rw [← hsp]; exact hv
              · cases hfx
          have hu2 : u = [⟨1, p.2.symbol, 1⟩] := by rw [hsym]; exact hu1
          have hnameres : m.resolve p.2.name = none := by
            rw [← getItem_error hG]
            rcases getItem_cases hG p.2.name with ⟨w, hw⟩ | h
            · exfalso
              have hwu : w = u := by
                rcases hm.fresh _ _ hw with ⟨v, hv, hpv⟩ | ⟨_, q, hq, hqn, hqw⟩
                · rcases fresh_names p hp hvalid with h | h
                  · rw [h, Except.ok.injEq] at hv
                    subst hv
                    rw [hu2]
                    exact List.perm_singleton.1 hpv.symm
                  · rw [hv] at h; cases h
                · rw [hqw, hu2, name_symbol p hp q hq hqn]
              obtain ⟨_, _, h3⟩ := hm.plain _ _ hw
              rw [hwu, (getItem_error hG).2 hnres] at h3
              cases h3
            · exact h
          refine ⟨hstep _ (by simp) ?_ (by simp [hsym]) ?_, fun v hv => ?_⟩
          · intro k hk
            simp only [List.mem_cons, List.not_mem_nil, or_false] at hk
            rcases hk with rfl | rfl
            · exact hnameres
            · rw [hsym]; exact hnres
          · intro k hk
            simp only [List.mem_cons, List.not_mem_nil, or_false] at hk
            rcases hk with rfl | rfl
            · rcases fresh_names p hp hvalid with h | h
              · exact Or.inl ⟨_, h, by rw [hu2]⟩
              · exact Or.inr ⟨h, p, hp, rfl, hu2⟩
            · rw [hsym]; exact Or.inl ⟨r, hr, hrp⟩
          · cases hv; exact ⟨u, rfl, List.Perm.refl _⟩
        next he =>
          refine ⟨hstep _ (by simp) ?_ (by simp) ?_, fun v hv => ?_⟩
          · intro k hk
            simp only [List.mem_cons, List.not_mem_nil, or_false] at hk
            rcases hk with rfl | rfl
            · exact hnres
            · exact hsres
          · intro k hk
            simp only [List.mem_cons, List.not_mem_nil, or_false] at hk
            rcases hk with rfl | rfl
            · exact Or.inl ⟨r, hr, hrp⟩
            · exact Or.inl ⟨u, hfr, List.Perm.refl _⟩
          · cases hv; exact ⟨u, rfl, List.Perm.refl _⟩

theorem unitsAfter_known : ∀ (rs : List ((Name → Option Entry) × Name)) {m : AMap Name (List Term)}, Known m →
    (∀ r ∈ rs, SoundNames r.1 ∧ ∀ v, freshUnit r.2 = .ok v → Plain v) → Known (unitsAfter m rs)
  | [], m, hm, _ => hm
  | (nu, s) :: rs, m, hm, h =>
    unitsAfter_known rs (unitFactory_known (h (nu, s) (by simp)).1 hm (h (nu, s) (by simp)).2).1
      (fun r hr => h r (by simp [hr]))

end Eprem.Metric
