import Verif.Spec.Cli
import Verif.Props.PackageTables
import Mathlib.Data.List.Basic

/-!
# C111: generating and comparing configuration files
-/

namespace Eprem.Config

open Eprem Eprem.Symbolic
open scoped Eprem.Metric

variable {R : Type} [Field R] [DecidableEq R]

/-! ## Order -/

theorem strLe_total (a b : Str) : (strLe a b || strLe b a) = true := by
  induction a generalizing b with
  | nil => simp [strLe]
  | cons c s ih =>
    cases b with
    | nil => simp [strLe]
    | cons d t =>
      have := ih t
      simp only [strLe, Bool.or_eq_true, Bool.and_eq_true, decide_eq_true_eq] at this ⊢
      rcases lt_trichotomy c.toNat d.toNat with h | h | h
      · exact Or.inl (Or.inl h)
      · have hcd : c = d := Char.toNat_inj.1 h
        subst hcd
        exact this.imp (fun h => Or.inr ⟨rfl, h⟩) (fun h => Or.inr ⟨rfl, h⟩)
      · exact Or.inr (Or.inl h)

theorem strLe_trans (a b c : Str) (h1 : strLe a b = true) (h2 : strLe b c = true) : strLe a c = true := by
  induction a generalizing b c with
  | nil => rfl
  | cons x s ih =>
    cases b with
    | nil => cases h1
    | cons y t =>
      cases c with
      | nil => cases h2
      | cons z u =>
        simp only [strLe, Bool.or_eq_true, Bool.and_eq_true, decide_eq_true_eq] at h1 h2 ⊢
        rcases h1 with h1 | ⟨rfl, h1⟩
        · rcases h2 with h2 | ⟨rfl, h2⟩
          · exact Or.inl (h1.trans h2)
          · exact Or.inl h1
        · rcases h2 with h2 | ⟨rfl, h2⟩
          · exact Or.inl h2
          · exact Or.inr ⟨rfl, ih t u h1 h2⟩

theorem strLe_before {a b : Str} (h : strLe a b = true) (hne : a ≠ b) : Before a b := by
  induction a generalizing b with
  | nil =>
    cases b with
    | nil => exact absurd rfl hne
    | cons d t => exact List.Lex.nil
  | cons c s ih =>
    cases b with
    | nil => cases h
    | cons d t =>
      simp only [strLe, Bool.or_eq_true, Bool.and_eq_true, decide_eq_true_eq] at h
      rcases h with h | ⟨rfl, h⟩
      · exact List.Lex.rel h
      · exact List.Lex.cons (ih h (fun e => hne (by rw [e])))

theorem sorted_perm (l : List Str) : (sorted l).Perm l := List.mergeSort_perm l strLe

theorem sorted_pairwise (l : List Str) : (sorted l).Pairwise (fun a b => strLe a b = true) :=
  List.pairwise_mergeSort (fun a b c => strLe_trans a b c) strLe_total l

theorem sorted_before {l : List Str} (h : l.Nodup) : (sorted l).Pairwise Before := by
  have hn : (sorted l).Nodup := (sorted_perm l).nodup_iff.2 h
  exact (List.Pairwise.and hn (sorted_pairwise l)).imp (fun hab => strLe_before hab.2 hab.1)

/-! ## Looking parameters up -/

theorem interface_eq {S : Session R} {cfg : Option (Dict Str Str)} {m} (h : S.interface cfg = .ok m) :
    ∃ d, initValues S.env S.fuel S.locals cfg = .ok d ∧ m = Config.interface d S.units S.aliases := by
  unfold Session.interface at h
  cases hi : initValues S.env S.fuel S.locals cfg with
  | error e => simp only [hi] at h; cases h
  | ok d => simp only [hi] at h; exact ⟨d, rfl, (Except.ok.inj h).symm⟩

/-- The keys of the values. -/
theorem initValues_keys {S : Session R} (hS : S.Sensible) {cfg : Option (Dict Str Str)} {d : Dict Str (Val R)}
    (h : initValues S.env S.fuel S.locals cfg = .ok d) :
    (∀ k ∈ d.keys, k ∈ S.env.reference.keys ++ S.locals.map Prod.fst) ∧ ∀ k ∈ S.env.reference.keys, ∃ v, d.get? k = some v := by
  obtain ⟨h1, h2, h3⟩ := c43_values hS.once hS.locals_once h
  constructor
  · intro k hk
    rw [List.mem_append]
    by_contra hcon
    rw [not_or] at hcon
    have h4 := h3 k (Dict.get?_eq_none.2 hcon.1)
    rw [show Dict.get? S.locals k = none from Dict.get?_eq_none.2 hcon.2] at h4
    exact Dict.get?_eq_none.1 h4 hk
  · intro k hk
    obtain ⟨⟨t, x⟩, hr⟩ := Dict.get?_isSome.2 hk
    cases cfg with
    | none =>
      obtain ⟨v, -, hv⟩ := h2 _ _ _ hr (by simp)
      exact ⟨v, hv⟩
    | some c =>
      cases hc : c.get? k with
      | some s => exact ⟨_, h1 _ _ _ _ _ hr rfl hc⟩
      | none =>
        obtain ⟨v, -, hv⟩ := h2 _ _ _ hr (by rintro c' h'; cases h'; exact hc)
        exact ⟨v, hv⟩

/-- A parameter is found with its value, and it has a unit if the unit is listed. -/
theorem getParameter_value {S : Session R} (hS : S.Sensible) {cfg : Option (Dict Str Str)} {d : Dict Str (Val R)}
    (h : initValues S.env S.fuel S.locals cfg = .ok d) {k : Str} {v : Val R} (hk : d.get? k = some v) :
    ∃ u, getParameter (Config.interface d S.units S.aliases) k = .ok (u, v) ∧
      (u = S.units k ∨ S.units k = some rad ∧ u = some deg) := by
  obtain ⟨hkeys, hall⟩ := initValues_keys hS h
  obtain ⟨w, hw⟩ := hall _ hS.degrees
  refine ⟨_, c43_lookup (initValues_wf h) S.units S.aliases hS.disjoint
    (fun a ha b hb => hS.separate a (hkeys a ha) b (hkeys b hb)) hw hk k (Or.inl rfl), ?_⟩
  split
  · next hc => exact Or.inr ⟨hc.1, rfl⟩
  · exact Or.inl rfl

theorem sees_value {S : Session R} (hS : S.Sensible) {cfg : Option (Dict Str Str)} {k : Str} {a : Option Str × Val R}
    (hk : k ∈ S.env.reference.keys) (h : S.Sees cfg k a) : S.Has cfg k a.2 ∧
      (a.1 = S.units k ∨ S.units k = some rad ∧ a.1 = some deg) := by
  obtain ⟨m, hm, ha⟩ := h
  obtain ⟨d, hd, rfl⟩ := interface_eq hm
  obtain ⟨v, hv⟩ := (initValues_keys hS hd).2 k hk
  obtain ⟨u, hu, hu'⟩ := getParameter_value hS hd hv
  rw [hu] at ha
  cases ha
  exact ⟨⟨d, hd, hv⟩, hu'⟩

theorem sees_unique {S : Session R} {cfg : Option (Dict Str Str)} {k : Str} {a b : Option Str × Val R}
    (h : S.Sees cfg k a) (h' : S.Sees cfg k b) : a = b := by
  obtain ⟨m, hm, ha⟩ := h
  obtain ⟨m', hm', hb⟩ := h'
  rw [hm] at hm'; cases hm'
  rw [ha] at hb
  exact Except.ok.inj hb

/-! ## The generated file -/

theorem valueLines_eq (P : Printer R) (m : Aliased.AMap Str (Option Str × Val R)) :
    ∀ (ks ls : List Str), valueLines P m ks = .ok ls →
    ∃ f : Str → Option Str × Val R, (∀ k ∈ ks, getParameter m k = .ok (f k)) ∧ ls = ks.map (fun k => k ++ '=' :: argText P (f k))
  | [], ls, h => ⟨fun _ => (none, .none), by simp, by cases h; rfl⟩
  | k :: ks, ls, h => by
    unfold valueLines at h
    cases h1 : getParameter m k with
    | error e => simp only [h1] at h; cases h
    | ok a =>
      simp only [h1] at h
      cases h2 : valueLines P m ks with
      | error e => simp only [h2] at h; cases h
      | ok ls' =>
        simp only [h2] at h
        cases h
        obtain ⟨f, hf, rfl⟩ := valueLines_eq P m ks ls' h2
        have hk : ∀ k' ∈ k :: ks, getParameter m k' = .ok (if k' = k then a else f k') := by
          intro k' hk'
          split
          · next e => rw [e, h1]
          · next e => exact hf k' (by rcases List.mem_cons.1 hk' with h | h; exact absurd h e; exact h)
        refine ⟨fun k' => if k' = k then a else f k', hk, ?_⟩
        rw [List.map_cons]
        simp only [if_true]
        congr 1
        apply List.map_congr_left
        intro k' hk'
        have := hk k' (List.mem_cons_of_mem _ hk')
        rw [hf k' hk'] at this
        exact congrArg (fun a => k' ++ '=' :: argText P a) (Except.ok.inj this)

theorem lastValue_mem {pairs : List (Str × Str)} (hn : (pairs.map Prod.fst).Nodup) {k v : Str} (h : (k, v) ∈ pairs) :
    lastValue pairs k = some v := by
  unfold lastValue
  cases hf : pairs.reverse.find? (fun p => decide (p.1 = k)) with
  | none =>
    have := List.find?_eq_none.1 hf (k, v) (List.mem_reverse.2 h)
    simp at this
  | some p =>
    have hp : p ∈ pairs := List.mem_reverse.1 (List.mem_of_find?_eq_some hf)
    have hk : p.1 = k := by simpa using List.find?_some hf
    obtain rfl : p = (k, v) := List.inj_on_of_nodup_map hn hp h hk
    rfl

theorem word_nil : Word ['#'] [] := ⟨by simp, by simp [Trimmed]⟩

theorem ruler_eq : ruler = '#' :: " --------------------------------".toList := rfl

/-- The generated file can be read: it has a value for each parameter and for nothing else, and the value is the text of the
default value. -/
theorem c111_generate (P : Printer R) {S : Session R} (hS : S.Sensible) {time text : Str} (ht : '\n' ∉ time)
    (hk : ∀ k ∈ S.env.reference.keys, Word ['#'] k)
    (hv : ∀ k ∈ S.env.reference.keys, ∀ a, S.Sees none k a → Word ['#'] (argText P a))
    (h : generate P S time = .ok text) :
    ∃ d, parseConfig ['#'] text = .ok d ∧ (∀ k, k ∈ d.keys ↔ k ∈ S.env.reference.keys) ∧
      ∀ k ∈ S.env.reference.keys, ∃ a, S.Sees none k a ∧ d.get? k = some (argText P a) := by
  unfold generate at h
  cases hm : S.interface none with
  | error e => simp only [hm] at h; cases h
  | ok m =>
    simp only [hm] at h
    cases hl : valueLines P m (sorted S.env.reference.keys) with
    | error e => simp only [hl] at h; cases h
    | ok ls =>
      simp only [hl] at h
      obtain ⟨f, hf, rfl⟩ := valueLines_eq P m _ _ hl
      have hmem : ∀ k, k ∈ sorted S.env.reference.keys ↔ k ∈ S.env.reference.keys := fun k => (sorted_perm _).mem_iff
      have hsees : ∀ k ∈ S.env.reference.keys, S.Sees none k (f k) := fun k hk => ⟨m, hm, hf k ((hmem k).2 hk)⟩
      let entries : List Line := (sorted S.env.reference.keys).map (fun k => .entry [] k [] [] (argText P (f k)) [] none)
      let lines : List Line := [.comment '#' " EPREM default configuration file".toList,
        .comment '#' (" Generated at ".toList ++ time), .comment '#' " --------------------------------".toList] ++ entries ++
        [.comment '#' " --------------------------------".toList, .blank]
      have hok : ∀ l ∈ lines, l.Ok ['#'] := by
        intro l hl'
        simp only [lines, entries, List.mem_append, List.mem_cons, List.not_mem_nil, or_false, List.mem_map] at hl'
        rcases hl' with ((rfl | rfl | rfl) | ⟨k, hk', rfl⟩) | (rfl | rfl)
        · exact ⟨by simp, by decide⟩
        · refine ⟨by simp, ?_⟩
          rw [List.mem_append, not_or]
          exact ⟨by decide, ht⟩
        · exact ⟨by simp, by decide⟩
        · have hk'' := (hmem k).1 hk'
          refine ⟨by simp [White], by simp [White], by simp [White], by simp [White], hk k hk'', hv k hk'' _ (hsees k hk''), ?_⟩
          simp
        · exact ⟨by simp, by decide⟩
        · trivial
      have htext : text = joinWith '\n' (lines.map Line.text) := by
        rw [← Except.ok.inj h]
        simp only [lines, entries, List.map_append, List.map_cons, List.map_nil, List.map_map]
        have : (Line.text ∘ fun k => Line.entry [] k [] [] (argText P (f k)) [] none) = fun k => k ++ '=' :: argText P (f k) := by
          funext k
          simp [Line.text]
        rw [this]
        rfl
      have hpairs : lines.filterMap Line.pair = (sorted S.env.reference.keys).map (fun k => (k, argText P (f k))) := by
        simp only [lines, entries, List.filterMap_append]
        have : (((sorted S.env.reference.keys).map
            (fun k => Line.entry [] k [] [] (argText P (f k)) [] none)).filterMap Line.pair) =
            (sorted S.env.reference.keys).map (fun k => (k, argText P (f k))) := by
          rw [List.filterMap_map]
          exact List.filterMap_eq_map (f := fun k => (k, argText P (f k))) ▸ rfl
        rw [this]
        exact List.append_nil _
      obtain ⟨d, hd, hg, hks, -⟩ := c42_parse (comments := ['#']) (by intro c hc; rw [List.mem_singleton] at hc; subst hc; decide)
        lines hok
      refine ⟨d, by rw [htext]; exact hd, ?_, ?_⟩
      · intro k
        rw [hks, hpairs, List.map_map]
        simp only [List.mem_map, Function.comp_apply]
        constructor
        · rintro ⟨k', hk', rfl⟩; exact (hmem k').1 hk'
        · intro hk'; exact ⟨k, (hmem k).2 hk', rfl⟩
      · intro k hk'
        refine ⟨f k, hsees k hk', ?_⟩
        rw [hg, hpairs]
        apply lastValue_mem
        · rw [List.map_map]
          have : (Prod.fst ∘ fun k => (k, argText P (f k))) = id := rfl
          rw [this, List.map_id]
          exact (sorted_perm _).nodup_iff.2 hS.once
        · exact List.mem_map.2 ⟨k, (hmem k).2 hk', rfl⟩

/-! ## Reading the generated file -/

theorem numeral_word {s : Str} (h : Numeral s) : Word ['#'] s := by
  have key : ∀ c ∈ s, c ≠ '=' ∧ c ∉ ['#'] ∧ c ≠ '\n' ∧ isSpace c = false := by
    intro c hc
    rcases h.2 c hc with h | h
    · have := digit_not_space h
      refine ⟨?_, ?_, ?_, ?_⟩
      · rintro rfl; revert h; decide
      · rw [List.mem_singleton]; rintro rfl; revert h; decide
      · rintro rfl; revert h; decide
      · exact this
    · have : ∀ c ∈ "+-.einfa".toList, c ≠ '=' ∧ c ∉ ['#'] ∧ c ≠ '\n' ∧ isSpace c = false := by decide
      exact this c h
  refine ⟨fun c hc => ⟨(key c hc).1, (key c hc).2.1, (key c hc).2.2.1⟩, ?_, ?_⟩
  · intro c hc
    exact (key c (List.mem_of_mem_head? hc)).2.2.2
  · intro c hc
    exact (key c (List.mem_of_getLast? hc)).2.2.2

theorem has_converted {S : Session R} (hS : S.Sensible) {k x : Str} {t : Ty} (hk : S.env.reference.get? k = some (t, x))
    {v : Val R} (hv : S.Has none k v) {d : Dict Str Str} {s : Str} (hd : d.get? k = some s) :
    S.Has (some d) k (convert S.env.numbers t s) := by
  obtain ⟨e, he, -⟩ := hv
  have := (c43_total (E := S.env) (n := S.fuel) (loc := S.locals) (cfg := some d)).2 (c43_total.1 ⟨e, he⟩)
  obtain ⟨e', he'⟩ := this
  exact ⟨e', he', (c43_values hS.once hS.locals_once he').1 _ _ _ _ _ hk rfl hd⟩

theorem has_unique {S : Session R} {cfg : Option (Dict Str Str)} {k : Str} {v w : Val R} (h : S.Has cfg k v) (h' : S.Has cfg k w) :
    v = w := by
  obtain ⟨d, hd, h1⟩ := h
  obtain ⟨d', hd', h2⟩ := h'
  rw [hd] at hd'; cases hd'
  rw [h1] at h2
  exact Option.some.inj h2

theorem joinComma_eq : ∀ (p : Str) (ps : List Str), joinComma (p :: ps) = joinWith ',' (p :: ps.map (fun q => ' ' :: q))
  | p, [] => rfl
  | p, q :: ps => by
    have ih := joinComma_eq q ps
    have key : ∀ l : List Str, joinWith ',' ((' ' :: q) :: l) = ' ' :: joinWith ',' (q :: l) := by
      intro l; cases l <;> rfl
    show p ++ ", ".toList ++ joinComma (q :: ps) = p ++ ',' :: joinWith ',' ((' ' :: q) :: ps.map (fun q => ' ' :: q))
    rw [ih, key]
    simp

/-- A list of numbers without unit reads back. -/
theorem list_reads (P : Printer R) (N : Numbers R) (ys : List R)
    (h : ∀ y ∈ ys, Numeral (P.number y) ∧ ReadsBackInList P N y) :
    convert N .list (strValue P (.list ys)) = .list ys := by
  cases ys with
  | nil => exact c45_empty N
  | cons y ys =>
    have hnum : ∀ y' ∈ y :: ys, ∀ c ∈ P.number y', c ≠ ',' ∧ c ≠ '[' ∧ c ≠ ']' ∧ c ≠ ' ' ∧ c ≠ '\'' := by
      intro y' hy' c hc
      rcases (h y' hy').1.2 c hc with h | h
      · refine ⟨?_, ?_, ?_, ?_, ?_⟩ <;> (rintro rfl; revert h; decide)
      · have : ∀ c ∈ "+-.einfa".toList, c ≠ ',' ∧ c ≠ '[' ∧ c ≠ ']' ∧ c ≠ ' ' ∧ c ≠ '\'' := by decide
        exact this c h
    have hstrip : ∀ y' ∈ y :: ys, Trimmed (fun c => c = ' ' || c = '\'') (P.number y') := by
      intro y' hy'
      refine ⟨fun c hc => ?_, fun c hc => ?_⟩
      · have := hnum y' hy' c (List.mem_of_mem_head? hc); simp [this]
      · have := hnum y' hy' c (List.mem_of_getLast? hc); simp [this]
    show convert N .list ('[' :: joinComma (P.number y :: ys.map P.number) ++ [']']) = _
    rw [joinComma_eq, List.map_map]
    apply c45_list
    · intro h0
      have : P.number y = [] := by
        cases ys with
        | nil => exact h0
        | cons z zs => simp [joinWith] at h0
      obtain ⟨c, hc, -⟩ := (h y (by simp)).1.1
      rw [this] at hc; cases hc
    · intro t ht c hc
      rcases List.mem_cons.1 ht with rfl | ht
      · have := hnum y (by simp) c hc; exact ⟨this.1, this.2.1, this.2.2.1⟩
      · obtain ⟨z, hz, rfl⟩ := List.mem_map.1 ht
        rcases List.mem_cons.1 hc with rfl | hc
        · decide
        · have := hnum z (by simp [hz]) c hc; exact ⟨this.1, this.2.1, this.2.2.1⟩
    · refine List.Forall₂.cons ?_ ?_
      · rw [stripItem, stripBy_trimmed (hstrip y (by simp))]
        exact (h y (by simp)).2
      · rw [List.forall₂_map_left_iff]
        have : ∀ z ∈ ys, cast N (stripItem (((fun q => ' ' :: q) ∘ P.number) z)) = some z := by
          intro z hz
          have e : stripItem (' ' :: P.number z) = P.number z := by
            have := stripBy_pad (p := fun c => c = ' ' || c = '\'') (a := [' ']) (s := P.number z) (b := []) (by simp) (by simp)
              (hstrip z (by simp [hz]))
            simpa [stripItem] using this
          show cast N (stripItem (' ' :: P.number z)) = some z
          rw [e]
          exact (h z (by simp [hz])).2
        clear h hnum hstrip
        induction ys with
        | nil => exact List.Forall₂.nil
        | cons z zs ih => exact List.Forall₂.cons (this z (by simp)) (ih (fun z' hz' => this z' (by simp [hz'])))

theorem argText_unit (P : Printer R) {S : Session R} {k : Str} {a : Option Str × Val R}
    (h : a.1 = S.units k ∨ S.units k = some rad ∧ a.1 = some deg) :
    argText P a = argText P (S.units k, a.2) := by
  obtain ⟨u, v⟩ := a
  rcases h with rfl | ⟨h1, rfl⟩
  · rfl
  · rw [h1]; rfl

/-- Numbers, texts, and lists of numbers without unit have their default values again when the generated file is used. -/
theorem c111_roundtrip_partial (P : Printer R) {S : Session R} (hS : S.Sensible) {time text : Str} (ht : '\n' ∉ time)
    (hk : ∀ k ∈ S.env.reference.keys, Word ['#'] k)
    (hv : ∀ k ∈ S.env.reference.keys, ∀ a, S.Sees none k a → Word ['#'] (argText P a))
    (h : generate P S time = .ok text) :
    ∃ d, parseConfig ['#'] text = .ok d ∧ ∀ k t x v, S.env.reference.get? k = some (t, x) → S.Has none k v →
      ((∃ y, v = .num y ∧ ReadsBack P S.env.numbers t y) ∨ (∃ s, v = .text s ∧ t = .str) ∨
        (∃ ys, v = .list ys ∧ t = .list ∧ S.units k = none ∧ ∀ y ∈ ys, Numeral (P.number y) ∧ ReadsBackInList P S.env.numbers y)) →
      S.Has (some d) k v := by
  obtain ⟨d, hd, -, hg⟩ := c111_generate P hS ht hk hv h
  refine ⟨d, hd, fun k t x v hr hv hcase => ?_⟩
  have hmem : k ∈ S.env.reference.keys := Dict.get?_isSome.1 ⟨_, hr⟩
  obtain ⟨a, ha, hda⟩ := hg k hmem
  obtain ⟨h1, h2⟩ := sees_value hS hmem ha
  have hav := has_unique h1 hv
  rw [argText_unit P h2, hav] at hda
  have := has_converted hS hr hv hda
  have e : convert S.env.numbers t (argText P (S.units k, v)) = v := by
    rcases hcase with ⟨y, rfl, hy⟩ | ⟨s, rfl, rfl⟩ | ⟨ys, rfl, rfl, hu, hys⟩
    · cases S.units k <;> exact hy
    · cases S.units k <;> rfl
    · rw [hu]; exact list_reads P S.env.numbers ys hys
  rwa [e] at this

/-- A list with one number that has a unit is written without brackets, and read as text. -/
theorem c111_not_lists (P : Printer R) {S : Session R} (hS : S.Sensible) {time text : Str} (ht : '\n' ∉ time)
    (hk : ∀ k ∈ S.env.reference.keys, Word ['#'] k)
    (hv : ∀ k ∈ S.env.reference.keys, ∀ a, S.Sees none k a → Word ['#'] (argText P a))
    (h : generate P S time = .ok text) :
    ∃ d, parseConfig ['#'] text = .ok d ∧ ∀ k x u y, S.env.reference.get? k = some (.list, x) → S.Has none k (.list [y]) →
      S.units k = some u → Numeral (P.number y) → S.Has (some d) k (.text (P.number y)) := by
  obtain ⟨d, hd, -, hg⟩ := c111_generate P hS ht hk hv h
  refine ⟨d, hd, fun k x u y hr hv hu hy => ?_⟩
  have hmem : k ∈ S.env.reference.keys := Dict.get?_isSome.1 ⟨_, hr⟩
  obtain ⟨a, ha, hda⟩ := hg k hmem
  obtain ⟨h1, h2⟩ := sees_value hS hmem ha
  rw [argText_unit P h2, has_unique h1 hv, hu] at hda
  have := has_converted hS hr hv hda
  have e : convert S.env.numbers .list (P.number y) = .text (P.number y) := by
    have : stringlist S.env.numbers (P.number y) = none := by
      unfold stringlist
      rw [if_neg]
      rintro ⟨h0, -⟩
      rcases hy.2 '[' (List.mem_of_mem_head? h0) with h | h
      · revert h; decide
      · revert h; decide
    simp only [convert, this]
  rwa [show argText P (some u, Val.list [y]) = P.number y from rfl, e] at this

/-- A default value that is not known is written as `None`, and read as this text. -/
theorem c111_not_none (P : Printer R) {S : Session R} (hS : S.Sensible) {time text : Str} (ht : '\n' ∉ time)
    (hk : ∀ k ∈ S.env.reference.keys, Word ['#'] k)
    (hv : ∀ k ∈ S.env.reference.keys, ∀ a, S.Sees none k a → Word ['#'] (argText P a))
    (h : generate P S time = .ok text) :
    ∃ d, parseConfig ['#'] text = .ok d ∧ ∀ k x, S.env.reference.get? k = some (.int, x) → S.Has none k .none →
      S.Has (some d) k (.text "None".toList) := by
  obtain ⟨d, hd, -, hg⟩ := c111_generate P hS ht hk hv h
  refine ⟨d, hd, fun k x hr hv => ?_⟩
  have hmem : k ∈ S.env.reference.keys := Dict.get?_isSome.1 ⟨_, hr⟩
  obtain ⟨a, ha, hda⟩ := hg k hmem
  obtain ⟨h1, h2⟩ := sees_value hS hmem ha
  rw [argText_unit P h2, has_unique h1 hv] at hda
  have := has_converted hS hr hv hda
  have e : argText P (S.units k, (Val.none : Val R)) = "None".toList := by cases S.units k <;> rfl
  rw [e, (c43_conversion S.env.numbers).2.2.2.2 _ (by decide)] at this
  exact this

/-! ## The package -/

/-- The parameters of the package (`_metadata.py`, `reference.json`). -/
def packageSession (n : Nat) : Session Rat := ⟨packageEnv, n, packageLocal, packageUnits.get?, packageAliases⟩

theorem package_sensible (n : Nat) : (packageSession n).Sensible where
  once := package_wf
  locals_once := by
    show ((packageLocal (R := Rat)).map Prod.fst).Nodup
    rw [package_local]; simp
  disjoint := package_disjoint
  separate := by
    intro k hk k' hk' g hg hkg hkg'
    obtain ⟨l, hl, rfl⟩ := List.mem_map.1 hg
    have e1 := package_separate l hl k (List.mem_toFinset.1 hkg) hk
    have e2 := package_separate l hl k' (List.mem_toFinset.1 hkg') hk'
    exact Option.some.inj (e1.symm.trans e2)
  degrees := by
    show useDegrees ∈ packageReference.keys
    decide +kernel

/-- The parameters of the package that are lists of numbers with a unit. -/
def listParameters : List Str :=
  [c! "charge", c! "mass", c! "obsPhi", c! "obsR", c! "obsTheta", c! "streamSpawnLocAzi", c! "streamSpawnLocZen"]

/-- What kinds of default values there are. -/
def kindOk (k : Str) (t : Ty) : Val Rat → Bool
  | .num _ => decide (k ∉ listParameters) && decide (k ≠ c! "numNodesPerStream")
  | .text s => decide (t = .str) && decide (s ∈ [c! "", c! "warningsXXX.txt"]) &&
      (decide (k ∉ listParameters) && decide (k ≠ c! "numNodesPerStream"))
  | .list [_] => decide (t = .list) && (packageUnits.get? k).isSome && decide (k ∈ listParameters)
  | .none => decide (t = .int) && decide (k = c! "numNodesPerStream")
  | _ => false

set_option maxHeartbeats 100000000 in
theorem package_kinds : packageReference.all (fun p => match evaluate packageEnv 4 p.1 with
    | .ok v => kindOk p.1 p.2.1 v
    | .error _ => false) = true := by decide +kernel

theorem package_kind {n : Nat} {k x : Str} {t : Ty} {v : Val Rat} (hr : packageReference.get? k = some (t, x))
    (hv : (packageSession n).Has none k v) : kindOk k t v = true := by
  have := List.all_eq_true.1 package_kinds _ (Dict.mem_of_get? hr)
  simp only at this
  cases he : evaluate packageEnv 4 k with
  | error e => simp only [he] at this; cases this
  | ok w =>
    simp only [he] at this
    obtain ⟨d, hd, hg⟩ := hv
    obtain ⟨v', hv', hd'⟩ := (c43_values (package_sensible n).once (package_sensible n).locals_once hd).2.1 k t x hr (by simp)
    rw [hg] at hd'
    obtain rfl := Option.some.inj hd'
    unfold getDefault at hv'
    rw [if_pos (show k ∈ (packageSession n).env.reference.keys from Dict.get?_isSome.1 ⟨_, hr⟩)] at hv'
    rw [Evaluates.unique (Evaluates.of hv') (Evaluates.of he)]
    exact this

/-- A word: no `=`, `#`, newline character, or surrounding white space. -/
def wordOk (s : Str) : Bool :=
  s.all (fun c => decide (c ≠ '=') && decide (c ∉ ['#']) && decide (c ≠ '\n') && !isSpace c)

theorem word_of {s : Str} (h : wordOk s = true) : Word ['#'] s := by
  have key := List.all_eq_true.1 h
  simp only [Bool.and_eq_true, decide_eq_true_eq, Bool.not_eq_true'] at key
  exact ⟨fun c hc => ⟨(key c hc).1.1.1, (key c hc).1.1.2, (key c hc).1.2⟩, fun c hc => (key c (List.mem_of_mem_head? hc)).2,
    fun c hc => (key c (List.mem_of_getLast? hc)).2⟩

theorem package_words : ∀ k ∈ packageReference.keys, Word ['#'] k := by
  have : packageReference.keys.all wordOk = true := by decide +kernel
  exact fun k hk => word_of (List.all_eq_true.1 this k hk)

theorem package_texts {P : Printer Rat} (hP : ∀ x, Numeral (P.number x)) (n : Nat) :
    ∀ k ∈ (packageSession n).env.reference.keys, ∀ a, (packageSession n).Sees none k a → Word ['#'] (argText P a) := by
  intro k hk a ha
  obtain ⟨⟨t, x⟩, hr⟩ := Dict.get?_isSome.2 hk
  obtain ⟨h1, h2⟩ := sees_value (package_sensible n) hk ha
  have hkind := package_kind hr h1
  rw [argText_unit P h2]
  generalize a.2 = v at hkind
  match v, hkind with
  | .num y, _ => cases (packageSession n).units k <;> exact numeral_word (hP y)
  | .text s, h =>
    have hs : s ∈ [c! "", c! "warningsXXX.txt"] := by
      simp only [kindOk, Bool.and_eq_true, decide_eq_true_eq] at h
      exact h.1.2
    have : Word ['#'] s := by
      apply word_of
      rcases List.mem_cons.1 hs with rfl | hs
      · decide
      · rw [List.mem_singleton] at hs; subst hs; decide
    cases (packageSession n).units k <;> exact this
  | .list [y], h =>
    have hu : (packageUnits.get? k).isSome = true := by
      simp only [kindOk, Bool.and_eq_true] at h
      exact h.1.2
    obtain ⟨u, hu⟩ := Option.isSome_iff_exists.1 hu
    rw [show (packageSession n).units k = some u from hu]
    exact numeral_word (hP y)
  | .none, _ =>
    have : Word ['#'] noneText := word_of (by decide)
    cases (packageSession n).units k <;> exact this

/-- **C111**, the package: the file of default values can be generated and read.  All numbers and texts have their default
values again (if numbers read back as they are printed).  But the seven lists and the number of nodes per stream become
texts. -/
theorem c111_package {P : Printer Rat} (hP : ∀ x, Numeral (P.number x)) {n : Nat} {time text : Str} (ht : '\n' ∉ time)
    (h : generate P (packageSession n) time = .ok text) :
    ∃ d, parseConfig ['#'] text = .ok d ∧
      (∀ k t x v, packageReference.get? k = some (t, x) → (packageSession n).Has none k v → k ∉ listParameters →
        k ≠ c! "numNodesPerStream" → (∀ y, v = .num y → ReadsBack P rationals t y) → (packageSession n).Has (some d) k v) ∧
      (∀ k ∈ listParameters, ∃ y, (packageSession n).Has none k (.list [y]) ∧
        (packageSession n).Has (some d) k (.text (P.number y))) ∧
      (packageSession n).Has none (c! "numNodesPerStream") .none ∧
      (packageSession n).Has (some d) (c! "numNodesPerStream") (.text (c! "None")) := by
  obtain ⟨d, hd, h1⟩ := c111_roundtrip_partial P (package_sensible n) ht package_words (package_texts hP n) h
  obtain ⟨d2, hd2, h2⟩ := c111_not_lists P (package_sensible n) ht package_words (package_texts hP n) h
  obtain ⟨d3, hd3, h3⟩ := c111_not_none P (package_sensible n) ht package_words (package_texts hP n) h
  rw [hd] at hd2 hd3
  cases hd2; cases hd3
  have hhas : ∀ k t x, packageReference.get? k = some (t, x) → ∃ v, (packageSession n).Has none k v := by
    intro k t x hr
    unfold generate at h
    cases hm : (packageSession n).interface none with
    | error e => simp only [hm] at h; cases h
    | ok m =>
      obtain ⟨e, he, -⟩ := interface_eq hm
      obtain ⟨v, hv⟩ := (initValues_keys (package_sensible n) he).2 k (Dict.get?_isSome.1 ⟨_, hr⟩)
      exact ⟨v, e, he, hv⟩
  refine ⟨d, hd, ?_, ?_, ?_⟩
  · intro k t x v hr hv hl hn hread
    refine h1 k t x v hr hv ?_
    have hkind := package_kind hr hv
    match v, hkind, hread with
    | .num y, _, hread => exact Or.inl ⟨y, rfl, hread y rfl⟩
    | .text s, hkind, _ =>
      simp only [kindOk, Bool.and_eq_true, decide_eq_true_eq] at hkind
      exact Or.inr (Or.inl ⟨s, rfl, hkind.1.1⟩)
    | .list [y], hkind, _ =>
      simp only [kindOk, Bool.and_eq_true, decide_eq_true_eq] at hkind
      exact absurd hkind.2 hl
    | .none, hkind, _ =>
      simp only [kindOk, Bool.and_eq_true, decide_eq_true_eq] at hkind
      exact absurd hkind.2 hn
  · intro k hk
    obtain ⟨x, u, hr, hu⟩ : ∃ x u, packageReference.get? k = some (.list, x) ∧ packageUnits.get? k = some u := by
      have : ∀ k ∈ listParameters, (packageReference.get? k).map Prod.fst = some .list ∧ (packageUnits.get? k).isSome = true := by
        decide +kernel
      obtain ⟨a, b⟩ := this k hk
      obtain ⟨⟨t, x⟩, e, e'⟩ := Option.map_eq_some_iff.1 a
      obtain ⟨u, hu⟩ := Option.isSome_iff_exists.1 b
      simp only at e'
      subst e'
      exact ⟨x, u, e, hu⟩
    obtain ⟨v, hv⟩ := hhas k _ _ hr
    have hkind := package_kind hr hv
    match v, hkind, hv with
    | .list [y], _, hv => exact ⟨y, hv, h2 k x u y hr hv hu (hP y)⟩
    | .num y, hkind, _ =>
      simp only [kindOk, Bool.and_eq_true, decide_eq_true_eq] at hkind
      exact absurd hk hkind.1
    | .text s, hkind, _ =>
      simp only [kindOk, Bool.and_eq_true, decide_eq_true_eq] at hkind
      exact absurd hk hkind.2.1
    | .none, hkind, _ => simp [kindOk] at hkind
  · have hr : packageReference.get? (c! "numNodesPerStream") = some (.int, c! "N_PROCS") := by decide +kernel
    obtain ⟨v, hv⟩ := hhas _ _ _ hr
    have hkind := package_kind hr hv
    match v, hkind, hv with
    | .none, _, hv => exact ⟨hv, h3 _ _ hr hv⟩
    | .num y, hkind, _ =>
      simp only [kindOk, Bool.and_eq_true, decide_eq_true_eq] at hkind
      exact absurd rfl hkind.2
    | .text s, hkind, _ =>
      simp only [kindOk, Bool.and_eq_true, decide_eq_true_eq] at hkind
      exact absurd rfl hkind.2.2
    | .list [y], hkind, _ =>
      simp [kindOk] at hkind

/-- The file can be generated. -/
theorem c111_package_total (P : Printer Rat) (time : Str) : ∃ n text, generate P (packageSession n) time = .ok text := by
  obtain ⟨n, d, h⟩ := c43_package_total none
  have hm : (packageSession n).interface none = .ok (Config.interface d packageUnits.get? packageAliases) := by
    unfold Session.interface
    rw [show initValues (packageSession n).env (packageSession n).fuel (packageSession n).locals none = .ok d from h]
    rfl
  have key : ∀ ks : List Str, (∀ k ∈ ks, k ∈ packageReference.keys) →
      ∃ ls, valueLines P (Config.interface d packageUnits.get? packageAliases) ks = .ok ls := by
    intro ks hks
    induction ks with
    | nil => exact ⟨_, rfl⟩
    | cons k ks ih =>
      obtain ⟨ls, hls⟩ := ih (fun k' hk' => hks k' (List.mem_cons_of_mem _ hk'))
      obtain ⟨v, hv⟩ := (initValues_keys (package_sensible n) h).2 k (hks k (by simp))
      obtain ⟨u, hu, -⟩ := getParameter_value (package_sensible n) h hv
      refine ⟨(k ++ '=' :: argText P (u, v)) :: ls, ?_⟩
      unfold valueLines
      rw [show getParameter (Config.interface d packageUnits.get? packageAliases) k = .ok (u, v) from hu]
      simp only [hls]
  obtain ⟨ls, hls⟩ := key (sorted packageReference.keys) (fun k hk => (sorted_perm _).mem_iff.1 hk)
  refine ⟨n, ?_⟩
  unfold generate
  simp only [hm]
  rw [show valueLines P _ (sorted (packageSession n).env.reference.keys) = .ok ls from hls]
  exact ⟨_, rfl⟩

/-! ## Comparing files on the command line -/

theorem openTargets_eq (S : Session R) : ∀ (files : List (Str × Dict Str Str)) (ts : List (Target R)),
    openTargets S files = .ok ts →
    ts.map (fun t => (t.label, t.cfg)) = files ∧ ∀ t ∈ ts, S.interface (some t.cfg) = .ok t.params
  | [], ts, h => by cases h; simp
  | (label, cfg) :: fs, ts, h => by
    unfold openTargets at h
    cases hm : S.interface (some cfg) with
    | error e => simp only [hm] at h; cases h
    | ok m =>
      simp only [hm] at h
      cases ht : openTargets S fs with
      | error e => simp only [ht] at h; cases h
      | ok ts' =>
        simp only [ht] at h
        cases h
        obtain ⟨h1, h2⟩ := openTargets_eq S fs ts' ht
        refine ⟨by rw [List.map_cons, h1], ?_⟩
        intro t ht'
        rcases List.mem_cons.1 ht' with rfl | ht'
        · exact hm
        · exact h2 t ht'

/-- What is shown for a file that does not set parameters to empty texts. -/
theorem shownValue_eq (P : Printer R) {S : Session R} {t : Target R} (ht : S.interface (some t.cfg) = .ok t.params) {k s : Str}
    (hne : t.cfg.get? k ≠ some []) (h : S.Shown P t.cfg k s) : shownValue P k t = s := by
  rcases h with ⟨h1, rfl⟩ | ⟨x, a, h1, ⟨m, hm, ha⟩, rfl⟩
  · simp only [shownValue, h1]; rfl
  · rw [ht] at hm
    cases hm
    have hx : x.isEmpty = false := by
      cases x with
      | nil => exact absurd h1 hne
      | cons c x => rfl
    simp only [shownValue, h1, hx, getFormatted, ha]
    rfl

theorem heading_inj (P : Printer R) {k k' : Str} (hk : ' ' ∉ k) (hk' : ' ' ∉ k') {a a' : Option Str × Val R}
    (h : heading P k a = heading P k' a') : k = k' := by
  have : (k ++ ' ' :: ("(default: ".toList ++ formatArg P a ++ ")  ".toList)) =
      (k' ++ ' ' :: ("(default: ".toList ++ formatArg P a' ++ ")  ".toList)) := by
    simp only [heading] at h
    simpa using h
  have h1 := splitOn_append (d := ' ') hk ("(default: ".toList ++ formatArg P a ++ ")  ".toList)
  have h2 := splitOn_append (d := ' ') hk' ("(default: ".toList ++ formatArg P a' ++ ")  ".toList)
  rw [this, h2] at h1
  exact (List.cons.inj h1).1.symm

theorem heading_space (P : Printer R) (k : Str) (a : Option Str × Val R) : ' ' ∈ heading P k a := by simp [heading]

/-- A group is printed for the parameter. -/
def Listed (P : Printer R) (ts : List (Target R)) (diff : Bool) (k : Str) : Prop :=
  (!diff || differ (mapParameter P k ts).values) = true

theorem buildGroups_spec (P : Printer R) (m : Aliased.AMap Str (Option Str × Val R)) (ts : List (Target R)) (diff : Bool) :
    ∀ (ks : List Str) (built out : Dict Str (Dict Str Str)), ks.Nodup → (∀ k ∈ ks, ' ' ∉ k) →
      buildGroups P m ts diff built ks = .ok out →
      (built.WF → out.WF) ∧
      (∀ k ∈ ks, ∃ a, getParameter m k = .ok a ∧ (Listed P ts diff k → out.get? (heading P k a) = some (mapParameter P k ts))) ∧
      ∀ q, (∀ k ∈ ks, ∀ a, Listed P ts diff k → getParameter m k = .ok a → heading P k a ≠ q) → out.get? q = built.get? q
  | [], built, out, _, _, h => by cases h; exact ⟨id, by simp, by simp⟩
  | k :: ks, built, out, hn, hs, h => by
    unfold buildGroups at h
    cases hg : getParameter m k with
    | error e => simp only [hg] at h; cases h
    | ok a =>
      simp only [hg] at h
      obtain ⟨hnk, hn'⟩ := List.nodup_cons.1 hn
      have hs' : ∀ k' ∈ ks, ' ' ∉ k' := fun k' hk' => hs k' (List.mem_cons_of_mem _ hk')
      by_cases hL : Listed P ts diff k
      · rw [if_pos (show (!diff || differ (mapParameter P k ts).values) = true from hL)] at h
        obtain ⟨hw, h1, h2⟩ := buildGroups_spec P m ts diff ks _ out hn' hs' h
        refine ⟨fun hb => hw (hb.set _ _), ?_, ?_⟩
        · intro k' hk'
          rcases List.mem_cons.1 hk' with rfl | hk'
          · refine ⟨a, hg, fun _ => ?_⟩
            rw [h2 _ (fun k'' hk'' a'' _ _ e => hnk (by
              have := heading_inj P (hs' k'' hk'') (hs k' (by simp)) e
              rwa [this] at hk''))]
            rw [Dict.get?_set, if_pos rfl]
          · exact h1 k' hk'
        · intro q hq
          rw [h2 q (fun k' hk' => hq k' (List.mem_cons_of_mem _ hk')), Dict.get?_set,
            if_neg (hq k (by simp) a hL hg)]
      · rw [if_neg (show ¬ (!diff || differ (mapParameter P k ts).values) = true from hL)] at h
        obtain ⟨hw, h1, h2⟩ := buildGroups_spec P m ts diff ks _ out hn' hs' h
        refine ⟨hw, ?_, ?_⟩
        · intro k' hk'
          rcases List.mem_cons.1 hk' with rfl | hk'
          · exact ⟨a, hg, fun h => absurd h hL⟩
          · exact h1 k' hk'
        · intro q hq
          exact h2 q (fun k' hk' => hq k' (List.mem_cons_of_mem _ hk'))

theorem differ_iff (l : List Str) : differ l = true ↔ ∃ v ∈ l, ∃ w ∈ l, v ≠ w := by
  cases l with
  | nil => simp [differ]
  | cons v0 l =>
    simp only [differ, List.any_eq_true, ne_eq, decide_eq_true_eq]
    constructor
    · rintro ⟨v, hv, h⟩
      exact ⟨v, hv, v0, by simp, h⟩
    · rintro ⟨v, hv, w, hw, h⟩
      by_cases e : v = v0
      · exact ⟨w, hw, fun e' => h (by rw [e, e'])⟩
      · exact ⟨v, hv, e⟩

theorem initial_get (l : List Str) (q : Str) :
    Dict.get? (l.map (fun k => (k, ([] : Dict Str Str)))) q = if q ∈ l then some [] else none := by
  induction l with
  | nil => rfl
  | cons k l ih =>
    rw [List.map_cons, Dict.get?_cons, ih]
    by_cases e : k = q
    · subst e; simp
    · rw [if_neg e]
      simp [Ne.symm e]

theorem get_filter {d : Dict Str (Dict Str Str)} (hw : d.WF) (p : Dict Str Str → Bool) (q : Str) (g : Dict Str Str) :
    Dict.get? (d.filter (fun x => p x.2)) q = some g ↔ d.get? q = some g ∧ p g = true := by
  have hw' : Dict.WF (d.filter (fun x => p x.2)) := by
    unfold Dict.WF Dict.keys at *
    exact hw.sublist (List.filter_sublist.map _)
  rw [Dict.get?_eq_some hw', Dict.get?_eq_some hw, List.mem_filter]

/-- What `buildArgs` is made from. -/
theorem buildArgs_parts {P : Printer R} {S : Session R} {keys : List Str} {files : List (Str × Dict Str Str)} {diff : Bool}
    {args : Dict Str (Dict Str Str)} (h : buildArgs P S keys files diff = .ok args) :
    ∃ m ts built, S.interface none = .ok m ∧ openTargets S files = .ok ts ∧
      buildGroups P m ts diff ((sorted keys).map (fun k => (k, []))) (sorted keys) = .ok built ∧
      args = if diff then built.filter (fun p => !p.2.isEmpty) else built := by
  unfold buildArgs at h
  cases hm : S.interface none with
  | error e => simp only [hm] at h; cases h
  | ok m =>
    simp only [hm] at h
    cases ht : openTargets S files with
    | error e => simp only [ht] at h; cases h
    | ok ts =>
      simp only [ht] at h
      cases hb : buildGroups P m ts diff ((sorted keys).map (fun k => (k, []))) (sorted keys) with
      | error e => simp only [hb] at h; cases h
      | ok built =>
        simp only [hb] at h
        exact ⟨m, ts, built, rfl, rfl, hb, (Except.ok.inj h).symm⟩

/-- The values of a group: one for each file, in order. -/
theorem mapParameter_group (P : Printer R) {S : Session R} {files : List (Str × Dict Str Str)} {ts : List (Target R)}
    (h : openTargets S files = .ok ts) (hl : (files.map Prod.fst).Nodup) (k : Str)
    (hne : ∀ f ∈ files, f.2.get? k ≠ some []) :
    (mapParameter P k ts).keys = files.map Prod.fst ∧
    ∀ f ∈ files, ∀ s, S.Shown P f.2 k s → (mapParameter P k ts).get? f.1 = some s := by
  obtain ⟨h1, h2⟩ := openTargets_eq S files ts h
  have hk : (mapParameter P k ts).keys = files.map Prod.fst := by
    rw [← h1]
    unfold mapParameter Dict.keys
    rw [List.map_map, List.map_map]
    rfl
  refine ⟨hk, fun f hf s hs => ?_⟩
  rw [← h1] at hf
  obtain ⟨t, ht, rfl⟩ := List.mem_map.1 hf
  rw [Dict.get?_eq_some (by unfold Dict.WF; rw [hk]; exact hl)]
  refine List.mem_map.2 ⟨t, ht, ?_⟩
  rw [shownValue_eq P (h2 t ht) (hne _ (by rw [← h1]; exact hf)) hs]

/-- **C111**, comparison: every parameter has a group that shows its default value, and its value in each file. -/
theorem c111_compare (P : Printer R) {S : Session R} {keys : List Str} (hn : keys.Nodup) (hs : ∀ k ∈ keys, ' ' ∉ k)
    {files : List (Str × Dict Str Str)} (hl : (files.map Prod.fst).Nodup) {args : Dict Str (Dict Str Str)}
    (h : buildArgs P S keys files false = .ok args) (k : Str) (hk : k ∈ keys) (hne : ∀ f ∈ files, f.2.get? k ≠ some []) :
    ∃ a g, S.Sees none k a ∧
      args.get? ("  ".toList ++ k ++ " (default: ".toList ++ formatArg P a ++ ")  ".toList) = some g ∧
      g.keys = files.map Prod.fst ∧ ∀ f ∈ files, ∀ s, S.Shown P f.2 k s → g.get? f.1 = some s := by
  obtain ⟨m, ts, built, hm, ht, hb, rfl⟩ := buildArgs_parts h
  obtain ⟨-, h1, -⟩ := buildGroups_spec P m ts false _ _ _ ((sorted_perm keys).nodup_iff.2 hn)
    (fun k hk => hs k ((sorted_perm keys).mem_iff.1 hk)) hb
  obtain ⟨a, ha, hg⟩ := h1 k ((sorted_perm keys).mem_iff.2 hk)
  obtain ⟨hk1, hk2⟩ := mapParameter_group P ht hl k hne
  exact ⟨a, _, ⟨m, hm, ha⟩, hg rfl, hk1, hk2⟩

/-- **C111**, differences: a parameter has a group if and only if two files show different values, the group shows its value
in each file, and there are no other groups. -/
theorem c111_differences_partial (P : Printer R) {S : Session R} {keys : List Str} (hn : keys.Nodup) (hs : ∀ k ∈ keys, ' ' ∉ k)
    {files : List (Str × Dict Str Str)} (hl : (files.map Prod.fst).Nodup) (hf : files ≠ []) {args : Dict Str (Dict Str Str)}
    (h : buildArgs P S keys files true = .ok args)
    (hne : ∀ k ∈ keys, ∀ f ∈ files, f.2.get? k ≠ some [] ∧ ∃ s, S.Shown P f.2 k s) :
    (∀ k ∈ keys, ∃ a, S.Sees none k a ∧
      ((∃ f ∈ files, ∃ f' ∈ files, ∃ s s', S.Shown P f.2 k s ∧ S.Shown P f'.2 k s' ∧ s ≠ s') ↔
        ∃ g, args.get? ("  ".toList ++ k ++ " (default: ".toList ++ formatArg P a ++ ")  ".toList) = some g) ∧
      ∀ g, args.get? ("  ".toList ++ k ++ " (default: ".toList ++ formatArg P a ++ ")  ".toList) = some g →
        g.keys = files.map Prod.fst ∧ ∀ f ∈ files, ∀ s, S.Shown P f.2 k s → g.get? f.1 = some s) ∧
    ∀ q g, args.get? q = some g → ∃ k ∈ keys, ∃ a, S.Sees none k a ∧
      q = "  ".toList ++ k ++ " (default: ".toList ++ formatArg P a ++ ")  ".toList := by
  obtain ⟨m, ts, built, hm, ht, hb, rfl⟩ := buildArgs_parts h
  have hmem : ∀ k, k ∈ sorted keys ↔ k ∈ keys := fun k => (sorted_perm keys).mem_iff
  have hnd : (sorted keys).Nodup := (sorted_perm keys).nodup_iff.2 hn
  have hspace : ∀ k ∈ sorted keys, ' ' ∉ k := fun k hk => hs k ((hmem k).1 hk)
  obtain ⟨hw, h1, h2⟩ := buildGroups_spec P m ts true _ _ _ hnd hspace hb
  have hwf : built.WF := hw (by
    unfold Dict.WF Dict.keys
    rw [List.map_map]
    exact (List.map_id (sorted keys)).symm ▸ hnd)
  obtain ⟨hts1, hts2⟩ := openTargets_eq S files ts ht
  have hnonempty : ∀ k, (!(mapParameter P k ts).isEmpty) = true := by
    intro k
    cases ts with
    | nil => exact absurd hts1.symm hf
    | cons t ts => rfl
  have hshown : ∀ k ∈ keys, ∀ t ∈ ts, S.Shown P t.cfg k (shownValue P k t) := by
    intro k hk t ht'
    have hf' : (t.label, t.cfg) ∈ files := by rw [← hts1]; exact List.mem_map.2 ⟨t, ht', rfl⟩
    obtain ⟨hne', s, hs'⟩ := hne k hk _ hf'
    rw [shownValue_eq P (hts2 t ht') hne' hs']
    exact hs'
  have hlisted : ∀ k ∈ keys, Listed P ts true k ↔
      ∃ f ∈ files, ∃ f' ∈ files, ∃ s s', S.Shown P f.2 k s ∧ S.Shown P f'.2 k s' ∧ s ≠ s' := by
    intro k hk
    show (differ (mapParameter P k ts).values) = true ↔ _
    have hvals : (mapParameter P k ts).values = ts.map (shownValue P k) := by
      unfold mapParameter Dict.values
      rw [List.map_map]
      rfl
    rw [differ_iff, hvals]
    constructor
    · rintro ⟨v, hv, w, hw', hvw⟩
      obtain ⟨t, ht', rfl⟩ := List.mem_map.1 hv
      obtain ⟨t', ht'', rfl⟩ := List.mem_map.1 hw'
      exact ⟨(t.label, t.cfg), by rw [← hts1]; exact List.mem_map.2 ⟨t, ht', rfl⟩,
        (t'.label, t'.cfg), by rw [← hts1]; exact List.mem_map.2 ⟨t', ht'', rfl⟩, _, _, hshown k hk t ht', hshown k hk t' ht'', hvw⟩
    · rintro ⟨f, hf1, f', hf2, s, s', hs1, hs2, hss⟩
      have e1 := (hne k hk f hf1).1
      have e2 := (hne k hk f' hf2).1
      rw [← hts1] at hf1 hf2
      obtain ⟨t, ht', rfl⟩ := List.mem_map.1 hf1
      obtain ⟨t', ht'', rfl⟩ := List.mem_map.1 hf2
      refine ⟨_, List.mem_map.2 ⟨t, ht', rfl⟩, _, List.mem_map.2 ⟨t', ht'', rfl⟩, ?_⟩
      rw [shownValue_eq P (hts2 t ht') e1 hs1, shownValue_eq P (hts2 t' ht'') e2 hs2]
      exact hss
  have hbare : ∀ q, (∀ k ∈ keys, ∀ a, Listed P ts true k → getParameter m k = .ok a → heading P k a ≠ q) →
      ∀ g, ¬ Dict.get? (built.filter (fun p => !p.2.isEmpty)) q = some g := by
    intro q hq g hg
    rw [get_filter hwf (fun g => !g.isEmpty)] at hg
    rw [h2 q (fun k hk => hq k ((hmem k).1 hk)), initial_get] at hg
    obtain ⟨hg1, hg2⟩ := hg
    split at hg1
    · cases Option.some.inj hg1; cases hg2
    · cases hg1
  simp only [if_true]
  constructor
  · intro k hk
    obtain ⟨a, ha, hg⟩ := h1 k ((hmem k).2 hk)
    refine ⟨a, ⟨m, hm, ha⟩, ?_⟩
    have hget : ∀ g, Dict.get? (built.filter (fun p => !p.2.isEmpty)) (heading P k a) = some g →
        Listed P ts true k ∧ g = mapParameter P k ts := by
      intro g hg'
      have hL : Listed P ts true k := by
        by_contra hL
        refine hbare (heading P k a) ?_ g hg'
        intro k' hk' a' hL' _ e
        rw [heading_inj P (hs k' hk') (hs k hk) e] at hL'
        exact hL hL'
      refine ⟨hL, ?_⟩
      rw [get_filter hwf (fun g => !g.isEmpty), hg hL] at hg'
      exact (Option.some.inj hg'.1).symm
    constructor
    · rw [← hlisted k hk]
      constructor
      · intro hL
        exact ⟨_, (get_filter hwf (fun g => !g.isEmpty) _ _).2 ⟨hg hL, hnonempty k⟩⟩
      · rintro ⟨g, hg'⟩
        exact (hget g hg').1
    · intro g hg'
      rw [(hget g hg').2]
      exact mapParameter_group P ht hl k (fun f hf => (hne k hk f hf).1)
  · intro q g hg
    by_contra hcon
    push Not at hcon
    exact hbare q (fun k hk a _ ha e => hcon k hk a ⟨m, hm, ha⟩ e.symm) g hg

/-- If no file differs from another, then the comparison for differences fails instead of printing nothing. -/
theorem c111_not_same (P : Printer R) {S : Session R} {keys : List Str} (hn : keys.Nodup) (hs : ∀ k ∈ keys, ' ' ∉ k)
    {files : List (Str × Dict Str Str)} (hl : (files.map Prod.fst).Nodup) (hf : files ≠ []) {args : Dict Str (Dict Str Str)}
    (h : buildArgs P S keys files true = .ok args)
    (hne : ∀ k ∈ keys, ∀ f ∈ files, f.2.get? k ≠ some [] ∧ ∃ s, S.Shown P f.2 k s)
    (hsame : ∀ k ∈ keys, ∀ f ∈ files, ∀ f' ∈ files, ∀ s s', S.Shown P f.2 k s → S.Shown P f'.2 k s' → s = s') :
    compareFiles P S keys files true = .error .stop := by
  obtain ⟨h1, h2⟩ := c111_differences_partial P hn hs hl hf h hne
  have hargs : args = [] := by
    cases args with
    | nil => rfl
    | cons p args =>
      exfalso
      have hp : Dict.get? (p :: args) p.1 = some p.2 := by
        obtain ⟨a, b⟩ := p
        rw [Dict.get?_cons, if_pos rfl]
      obtain ⟨k, hk, a, ha, hq⟩ := h2 _ _ hp
      obtain ⟨a', ha', hiff, -⟩ := h1 k hk
      rw [sees_unique ha ha', ] at hq
      rw [hq] at hp
      obtain ⟨f, hf1, f', hf2, s, s', hs1, hs2, hss⟩ := hiff.2 ⟨_, hp⟩
      exact hss (hsame k hk f hf1 f' hf2 s s' hs1 hs2)
  unfold compareFiles
  have : files.isEmpty = false := by
    cases files with
    | nil => exact absurd rfl hf
    | cons f fs => rfl
  rw [this]
  simp only [h, hargs]
  rfl

/-- Without the restriction to differences, there is another group for each parameter, with its name only and no values. -/
theorem c111_not_once (P : Printer R) {S : Session R} {keys : List Str} (hn : keys.Nodup) (hs : ∀ k ∈ keys, ' ' ∉ k)
    {files : List (Str × Dict Str Str)} {args : Dict Str (Dict Str Str)}
    (h : buildArgs P S keys files false = .ok args) (k : Str) (hk : k ∈ keys) : args.get? k = some [] := by
  obtain ⟨m, ts, built, hm, ht, hb, rfl⟩ := buildArgs_parts h
  obtain ⟨-, -, h2⟩ := buildGroups_spec P m ts false _ _ _ ((sorted_perm keys).nodup_iff.2 hn)
    (fun k hk => hs k ((sorted_perm keys).mem_iff.1 hk)) hb
  have := h2 k (fun k' hk' a _ _ e => hs k hk (by rw [← e]; exact heading_space P k' a))
  rw [initial_get, if_pos ((sorted_perm keys).mem_iff.2 hk)] at this
  exact this

/-- A file that sets a parameter to its default value is shown to differ from a file that does not mention the parameter, although
the parameter has the same value and unit in both. -/
theorem c111_not_default (P : Printer R) {S : Session R} {k x : Str} {c c' : Dict Str Str} {a : Option Str × Val R}
    (hc : c.get? k = some x) (hc' : c'.get? k = none) (ha : S.Sees (some c) k a)
    (hm : formatArg P a ≠ "(default)".toList) :
    ∃ s s', S.Shown P c k s ∧ S.Shown P c' k s' ∧ s ≠ s' :=
  ⟨_, _, Or.inr ⟨x, a, hc, ha, rfl⟩, Or.inl ⟨hc', rfl⟩, hm⟩

/-- A file that sets a parameter to the empty text is shown as if it did not mention the parameter. -/
theorem c111_not_empty (P : Printer R) {k : Str} (t : Target R) (h : t.cfg.get? k = some []) :
    shownValue P k t = "(default)".toList := by
  simp only [shownValue, h]
  rfl

/-- The source of parameters is used for their names only: a parameter that the package does not know makes the comparison
fail. -/
theorem c111_not_source (P : Printer R) {S : Session R} {keys : List Str} {k : Str} (hk : k ∈ keys)
    {files : List (Str × Dict Str Str)} (hf : files ≠ []) {diff : Bool} (h : ∀ a, ¬ S.Sees none k a) :
    ∃ e, compareFiles P S keys files diff = .error (.config e) := by
  have hb : ∀ args, buildArgs P S keys files diff ≠ .ok args := by
    intro args ha
    obtain ⟨m, ts, built, hm, ht, hb, -⟩ := buildArgs_parts ha
    have key : ∀ (ks : List Str) (b out : Dict Str (Dict Str Str)), k ∈ ks → buildGroups P m ts diff b ks ≠ .ok out := by
      intro ks
      induction ks with
      | nil => intro b out hk; cases hk
      | cons k' ks ih =>
        intro b out hk'
        unfold buildGroups
        cases hg : getParameter m k' with
        | error e => simp
        | ok a =>
          have hne : k ≠ k' := fun e => h a ⟨m, hm, by rw [e, hg]⟩
          simp only
          have hk'' : k ∈ ks := (List.mem_cons.1 hk').resolve_left hne
          split
          · exact ih _ _ hk''
          · exact ih _ _ hk''
    exact key _ _ _ ((sorted_perm keys).mem_iff.2 hk) hb
  unfold compareFiles
  have : files.isEmpty = false := by
    cases files with
    | nil => exact absurd rfl hf
    | cons f fs => rfl
  rw [this]
  cases hb' : buildArgs P S keys files diff with
  | ok args => exact absurd hb' (hb args)
  | error e => exact ⟨e, rfl⟩

/-! ## The printed lines -/

theorem foldl_max (l : List Nat) (m : Nat) : m ≤ l.foldl max m ∧ ∀ x ∈ l, x ≤ l.foldl max m := by
  induction l generalizing m with
  | nil => simp
  | cons a l ih =>
    obtain ⟨h1, h2⟩ := ih (max m a)
    refine ⟨(le_max_left m a).trans h1, ?_⟩
    intro x hx
    rcases List.mem_cons.1 hx with rfl | hx
    · exact (le_max_right m x).trans h1
    · exact h2 x hx

theorem maxLength_le {l : List Str} {s : Str} (h : s ∈ l) : s.length ≤ maxLength l :=
  (foldl_max (l.map List.length) 0).2 _ (List.mem_map.2 ⟨s, h, rfl⟩)

theorem center_length {n : Nat} {s : Str} (h : s.length ≤ n) : (center n s).length = n := by
  unfold center leftPad
  simp only [List.length_append, List.length_replicate]
  split <;> omega

/-- What is printed: an empty line; and for each group its heading and a line of dashes, both of the full width, a line for
each file, which begins with the label and ends with the value, and an empty line.  Values of at most 76 characters, and labels of
at most the width of the labels of the first group, are separated by at least two spaces. -/
theorem c111_print_partial {args : Dict Str (Dict Str Str)} {lines : List Str} (h : printGroups args = .ok lines) :
    ∃ (width : Nat) (body : Str × Dict Str Str → List Str), lines = [] :: args.flatMap body ∧
      (∀ g ∈ args, ∃ head rows, body g = head :: List.replicate width '-' :: (rows ++ [[]]) ∧ head.length = width ∧
        (∃ l r, head = List.replicate l ' ' ++ g.1 ++ List.replicate r ' ') ∧
        List.Forall₂ (fun (p : Str × Str) row => ∃ n, row = p.1 ++ List.replicate n ' ' ++ p.2) g.2 rows) ∧
      ∀ top, args.values.find? (fun v => !v.isEmpty) = some top → ∀ g ∈ args, ∀ p ∈ g.2, p.1.length ≤ maxLength top.keys →
        p.2.length ≤ 76 → ∃ row ∈ body g, ∃ n, 2 ≤ n ∧ row = p.1 ++ List.replicate n ' ' ++ p.2 ∧ row.length = width := by
  unfold printGroups at h
  cases ht : args.values.find? (fun v => !v.isEmpty) with
  | none => simp only [ht] at h; cases h
  | some top =>
    simp only [ht] at h
    split at h
    · cases h
    · have hrow : ∀ p : Str × Str, valueLine (labelWidth top) (totalWidth args top) p =
          p.1 ++ List.replicate ((labelWidth top - p.1.length) + (totalWidth args top - labelWidth top - p.2.length)) ' ' ++ p.2 := by
        intro p
        simp only [valueLine, ljust, rjust, List.append_assoc, List.replicate_add]
      refine ⟨totalWidth args top, groupLines (labelWidth top) (totalWidth args top), (Except.ok.inj h).symm, ?_, ?_⟩
      · intro g hg
        refine ⟨center (totalWidth args top) g.1, g.2.map (valueLine (labelWidth top) (totalWidth args top)), rfl, ?_,
          ⟨_, _, rfl⟩, ?_⟩
        · apply center_length
          exact (maxLength_le (l := args.keys) (List.mem_map.2 ⟨g, hg, rfl⟩)).trans (le_max_left _ _)
        · rw [List.forall₂_map_right_iff]
          exact List.forall₂_same.2 (fun p _ => ⟨_, hrow p⟩)
      · intro top' htop' g hg p hp hlen hval
        cases htop'
        refine ⟨valueLine (labelWidth top) (totalWidth args top) p, ?_, _, ?_, hrow p, ?_⟩
        · simp only [groupLines, List.mem_append]
          exact Or.inl (Or.inr (List.mem_map.2 ⟨p, hp, rfl⟩))
        · have hw : labelWidth top + min 78 (maxLength (nonNull args) + 2) ≤ totalWidth args top := le_max_right _ _
          have hv : p.2.length ≤ maxLength (nonNull args) := by
            cases hp2 : p.2 with
            | nil => simp
            | cons c s =>
              rw [← hp2]
              apply maxLength_le
              refine List.mem_flatMap.2 ⟨g.2, List.mem_map.2 ⟨g, hg, rfl⟩, List.mem_filter.2 ⟨List.mem_map.2 ⟨p, hp, rfl⟩, ?_⟩⟩
              rw [hp2]; rfl
          omega
        · have hw : labelWidth top + min 78 (maxLength (nonNull args) + 2) ≤ totalWidth args top := le_max_right _ _
          have hv : p.2.length ≤ maxLength (nonNull args) := by
            cases hp2 : p.2 with
            | nil => simp
            | cons c s =>
              rw [← hp2]
              apply maxLength_le
              refine List.mem_flatMap.2 ⟨g.2, List.mem_map.2 ⟨g, hg, rfl⟩, List.mem_filter.2 ⟨List.mem_map.2 ⟨p, hp, rfl⟩, ?_⟩⟩
              rw [hp2]; rfl
          have hl' : p.1.length ≤ labelWidth top := hlen
          rw [hrow p]
          simp only [List.length_append, List.length_replicate]
          omega

/-- A long value is not separated from the label at all: the line is the label of the file, immediately followed by the value. -/
theorem c111_not_separated {args : Dict Str (Dict Str Str)} {top : Dict Str Str} {p : Str × Str}
    (h1 : maxLength args.keys ≤ maxLength top.keys + 78) (h2 : p.1.length = maxLength top.keys) (h3 : 78 ≤ p.2.length) :
    valueLine (labelWidth top) (totalWidth args top) p = p.1 ++ p.2 := by
  have e1 : labelWidth top - p.1.length = 0 := by unfold labelWidth; omega
  have e2 : totalWidth args top - labelWidth top - p.2.length = 0 := by
    unfold totalWidth labelWidth
    omega
  simp only [valueLine, ljust, rjust, e1, e2, List.replicate_zero, List.append_nil, List.nil_append]

/-! ## Comparing file objects -/

/-- The other file of a comparison of file objects: a file object; or a path object, with comment markers. -/
def Compared (comments : Option (List Char)) : Other → Dict Str Str → Prop
  | .file d, d' => d' = d
  | .path text, d' => ∃ cs, comments = some cs ∧ cs ≠ [] ∧ parseConfig cs text = .ok d'
  | _, _ => False

/-- **C111**, file objects: comparing two files gives, in order, the names in either of them, with the values in both. -/
theorem c111_objects_partial {d d' : Dict Str Str} (hd : d.WF) (hd' : d'.WF) {comments : Option (List Char)} {o : Other}
    (h : Compared comments o d') :
    ∃ r, compareConfig d comments o = .ok r ∧ r.keys.Nodup ∧ r.keys.Pairwise Before ∧
      (∀ k, k ∈ r.keys ↔ k ∈ d.keys ∨ k ∈ d'.keys) ∧ (∀ k ∈ r.keys, r.get? k = some (d.get? k, d'.get? k)) ∧
      ∃ a b, diffKeys d comments o = .ok (a, b) ∧ (∀ k, k ∈ a ↔ k ∈ d.keys ∧ k ∉ d'.keys) ∧
        ∀ k, k ∈ b ↔ k ∈ d'.keys ∧ k ∉ d.keys := by
  have ho : otherFile comments o = .ok d' := by
    match o, h with
    | .file d, h => cases h; rfl
    | .path text, ⟨cs, hc, hne, hp⟩ =>
      have : cs.isEmpty = false := by
        cases cs with
        | nil => exact absurd rfl hne
        | cons c cs => rfl
      simp only [otherFile, hc, this]
      rw [if_neg (by simp)]
      simp only [hp]
  let u := d.keys ++ d'.keys.filter (fun k => !d.keys.contains k)
  have hkeys : Dict.keys ((sorted u).map (fun k => (k, d.get? k, d'.get? k))) = sorted u := by
    unfold Dict.keys
    rw [List.map_map]
    exact List.map_id _
  have hmem : ∀ k, k ∈ sorted u ↔ k ∈ d.keys ∨ k ∈ d'.keys := by
    intro k
    rw [(sorted_perm u).mem_iff]
    simp only [u, List.mem_append, List.mem_filter, Bool.not_eq_true', List.contains_eq_mem, decide_eq_false_iff_not]
    tauto
  have hnodup : (sorted u).Nodup := by
    rw [(sorted_perm u).nodup_iff]
    refine List.Nodup.append hd (List.Nodup.filter _ hd') ?_
    intro k h1 h2
    simp only [List.mem_filter, Bool.not_eq_true', List.contains_eq_mem, decide_eq_false_iff_not] at h2
    exact h2.2 h1
  refine ⟨_, by simp only [compareConfig, ho]; rfl, ?_, ?_, ?_, ?_, _, _, by simp only [diffKeys, ho]; rfl, ?_, ?_⟩
  · rw [hkeys]; exact hnodup
  · rw [hkeys]; exact sorted_before ((sorted_perm u).nodup_iff.1 hnodup)
  · rw [hkeys]; exact hmem
  · intro k hk
    rw [hkeys] at hk
    rw [Dict.get?_eq_some (by unfold Dict.WF; rw [hkeys]; exact hnodup)]
    exact List.mem_map.2 ⟨k, hk, rfl⟩
  · intro k
    simp [List.mem_filter]
  · intro k
    simp [List.mem_filter]

/-- A file object cannot be compared to the text of a path, and to a path object only if comment markers are given. -/
theorem c111_not_paths (d : Dict Str Str) (comments : List Char) (text : Str) :
    compareConfig d none (.string text) = .error .type ∧ compareConfig d (some comments) (.string text) = .error .attribute ∧
      compareConfig d none (.path text) = .error .type := ⟨rfl, rfl, rfl⟩

/-! ## The hypotheses can be met -/

theorem buildGroups_total (P : Printer R) (m : Aliased.AMap Str (Option Str × Val R)) (ts : List (Target R)) (diff : Bool) :
    ∀ (ks : List Str) (built : Dict Str (Dict Str Str)), (∀ k ∈ ks, ∃ a, getParameter m k = .ok a) →
      ∃ out, buildGroups P m ts diff built ks = .ok out
  | [], built, _ => ⟨built, rfl⟩
  | k :: ks, built, h => by
    obtain ⟨a, ha⟩ := h k (by simp)
    unfold buildGroups
    simp only [ha]
    split
    · exact buildGroups_total P m ts diff ks _ (fun k' hk' => h k' (List.mem_cons_of_mem _ hk'))
    · exact buildGroups_total P m ts diff ks _ (fun k' hk' => h k' (List.mem_cons_of_mem _ hk'))

theorem interface_total {S : Session R} (h : ∃ m, S.interface none = .ok m) (cfg : Option (Dict Str Str)) :
    ∃ m, S.interface cfg = .ok m := by
  obtain ⟨m, hm⟩ := h
  obtain ⟨d, hd, -⟩ := interface_eq hm
  obtain ⟨d', hd'⟩ := (c43_total (E := S.env) (n := S.fuel) (loc := S.locals) (cfg := cfg)).2 (c43_total.1 ⟨d, hd⟩)
  exact ⟨_, by unfold Session.interface; simp only [hd']; rfl⟩

theorem sees_total {S : Session R} (hS : S.Sensible) (h : ∃ m, S.interface none = .ok m) (cfg : Option (Dict Str Str)) {k : Str}
    (hk : k ∈ S.env.reference.keys) : ∃ a, S.Sees cfg k a := by
  obtain ⟨m, hm⟩ := interface_total h cfg
  obtain ⟨d, hd, rfl⟩ := interface_eq hm
  obtain ⟨v, hv⟩ := (initValues_keys hS hd).2 k hk
  obtain ⟨u, hu, -⟩ := getParameter_value hS hd hv
  exact ⟨_, _, hm, hu⟩

/-- Every parameter of every file can be shown, and the comparison of known parameters never fails before it prints. -/
theorem c111_total (P : Printer R) {S : Session R} (hS : S.Sensible) (h : ∃ m, S.interface none = .ok m) {keys : List Str}
    (hk : ∀ k ∈ keys, k ∈ S.env.reference.keys) (files : List (Str × Dict Str Str)) (diff : Bool) :
    (∃ args, buildArgs P S keys files diff = .ok args) ∧ ∀ k ∈ keys, ∀ f ∈ files, ∃ s, S.Shown P f.2 k s := by
  constructor
  · obtain ⟨m, hm⟩ := h
    have ht : ∀ fs : List (Str × Dict Str Str), ∃ ts, openTargets S fs = .ok ts := by
      intro fs
      induction fs with
      | nil => exact ⟨_, rfl⟩
      | cons f fs ih =>
        obtain ⟨ts, hts⟩ := ih
        obtain ⟨m', hm'⟩ := interface_total ⟨m, hm⟩ (some f.2)
        obtain ⟨label, cfg⟩ := f
        exact ⟨⟨label, cfg, m'⟩ :: ts, by unfold openTargets; simp only [hm', hts]⟩
    obtain ⟨ts, hts⟩ := ht files
    obtain ⟨out, hout⟩ := buildGroups_total P m ts diff (sorted keys) ((sorted keys).map (fun k => (k, []))) (fun k hk' => by
      obtain ⟨a, m', hm', ha⟩ := sees_total hS ⟨m, hm⟩ none (hk k ((sorted_perm keys).mem_iff.1 hk'))
      rw [hm] at hm'; cases hm'
      exact ⟨a, ha⟩)
    unfold buildArgs
    simp only [hm, hts, hout]
    exact ⟨_, rfl⟩
  · intro k hk' f _
    cases hc : f.2.get? k with
    | none => exact ⟨_, Or.inl ⟨hc, rfl⟩⟩
    | some x =>
      obtain ⟨a, ha⟩ := sees_total hS h (some f.2) (hk k hk')
      exact ⟨_, Or.inr ⟨x, a, hc, ha, rfl⟩⟩

/-- A printer that prints integers, and rounds other numbers. -/
def samplePrinter : Printer Rat where
  number := fun x => showInt x.num
  array := fun l => '[' :: joinWith ' ' (l.map (fun x => showInt x.num)) ++ [']']
  reprNumber := fun x => showInt x.num
  reprArray := fun l => '[' :: joinWith ' ' (l.map (fun x => showInt x.num)) ++ [']']
  reprText := fun s => '\'' :: s ++ ['\'']
  unit := id
  unitless := fun u => decide (u = c! "1")

theorem sample_numeral (x : Rat) : Numeral (samplePrinter.number x) := by
  obtain ⟨h1, h2⟩ := showNat_digits x.num.natAbs
  have hd : ∀ c ∈ showNat x.num.natAbs, isDigit c = true := by simpa using h2
  have hex : ∃ c ∈ showNat x.num.natAbs, isDigit c = true := by
    obtain ⟨c, hc⟩ := List.exists_mem_of_ne_nil _ h1
    exact ⟨c, hc, hd c hc⟩
  show Numeral (showInt x.num)
  unfold showInt
  split
  · obtain ⟨c, hc, hc'⟩ := hex
    refine ⟨⟨c, List.mem_cons_of_mem _ hc, hc'⟩, ?_⟩
    intro c hc
    rcases List.mem_cons.1 hc with rfl | hc
    · exact Or.inr (by decide)
    · exact Or.inl (hd c hc)
  · exact ⟨hex, fun c hc => Or.inl (hd c hc)⟩

theorem sample_reads (z : Int) : ReadsBack samplePrinter rationals .int (z : Rat) := by
  unfold ReadsBack
  show convert rationals .int (showInt ((z : Rat)).num) = .num (z : Rat)
  rw [Rat.num_intCast]
  exact (c43_conversion rationals).2.1 z

/-- the package with this printer: the file can be generated, read and used -/
example : ∃ n text d, generate samplePrinter (packageSession n) (c! "2024-01-01 00:00:00") = .ok text ∧
    parseConfig ['#'] text = .ok d ∧ ∃ y, (packageSession n).Has none (c! "mass") (.list [y]) ∧
      (packageSession n).Has (some d) (c! "mass") (.text (samplePrinter.number y)) := by
  obtain ⟨n, text, h⟩ := c111_package_total samplePrinter (c! "2024-01-01 00:00:00")
  obtain ⟨d, hd, -, h2, -⟩ := c111_package sample_numeral (by decide) h
  exact ⟨n, text, d, h, hd, h2 _ (by decide)⟩

/-- two files: one starts later, the other one mentions nothing -/
def twoFiles : List (Str × Dict Str Str) := [(c! "0", laterConfig), (c! "1", [])]

theorem package_open : ∃ n, ∃ m, (packageSession n).interface none = .ok m := by
  obtain ⟨n, d, h⟩ := c43_package_total none
  refine ⟨n, Config.interface d packageUnits.get? packageAliases, ?_⟩
  unfold Session.interface
  rw [show initValues (packageSession n).env (packageSession n).fuel (packageSession n).locals none = .ok d from h]
  rfl

/-- the keys of the package meet the hypotheses, and the two files differ -/
example : ∃ n args, buildArgs samplePrinter (packageSession n) packageReference.keys twoFiles true = .ok args ∧
    packageReference.keys.Nodup ∧ (∀ k ∈ packageReference.keys, ' ' ∉ k) ∧ (twoFiles.map Prod.fst).Nodup ∧
    (∀ k ∈ packageReference.keys, ∀ f ∈ twoFiles, f.2.get? k ≠ some [] ∧ ∃ s, (packageSession n).Shown samplePrinter f.2 k s) ∧
    ∃ s s', (packageSession n).Shown samplePrinter laterConfig (c! "simStartTime") s ∧
      (packageSession n).Shown samplePrinter [] (c! "simStartTime") s' ∧ s ≠ s' := by
  obtain ⟨n, hm⟩ := package_open
  obtain ⟨⟨args, h1⟩, h2⟩ := c111_total samplePrinter (package_sensible n) hm (keys := packageReference.keys)
    (fun k hk => hk) twoFiles true
  refine ⟨n, args, h1, package_wf, by decide +kernel, by decide, fun k hk f hf => ⟨?_, h2 k hk f hf⟩, ?_⟩
  · intro h0
    simp only [twoFiles, List.mem_cons, List.not_mem_nil, or_false] at hf
    rcases hf with rfl | rfl
    · have h0 := Dict.mem_of_get? h0
      simp only [laterConfig, List.mem_cons, List.not_mem_nil, or_false, Prod.mk.injEq] at h0
      rcases h0 with ⟨-, h⟩ | ⟨-, h⟩ <;> revert h <;> decide
    · cases h0
  · have hk : c! "simStartTime" ∈ packageReference.keys := by decide +kernel
    obtain ⟨a, ha⟩ := sees_total (package_sensible n) hm (some laterConfig) hk
    refine c111_not_default samplePrinter (x := c! "10.0") (by decide) rfl ha ?_
    have hr : packageReference.get? (c! "simStartTime") = some (.float, c! "0.0") := by decide +kernel
    obtain ⟨hv, hu⟩ := sees_value (package_sensible n) hk ha
    obtain ⟨d, hd, hdv⟩ := hv
    have := (c43_values (package_sensible n).once (package_sensible n).locals_once hd).1 _ _ _ _ (c! "10.0") hr rfl (by decide)
    rw [hdv] at this
    obtain ⟨u, v⟩ := a
    obtain rfl := Option.some.inj this
    have hU : (packageSession n).units (c! "simStartTime") = some (c! "day") := by
      rw [show (packageSession n).units = packageUnits.get? from rfl]
      decide +kernel
    have hu' : u = some (c! "day") := by
      rcases hu with h | ⟨h, -⟩
      · exact h.trans hU
      · rw [hU] at h; exact absurd h (by decide)
    subst hu'
    show formatArg samplePrinter (some (c! "day"), convert rationals .float (c! "10.0")) ≠ _
    decide +kernel

/-- one file compared with itself: there are no differences, and the command fails -/
example : ∃ n, compareFiles samplePrinter (packageSession n) packageReference.keys [(c! "0", [])] true = .error .stop := by
  obtain ⟨n, hm⟩ := package_open
  obtain ⟨⟨args, h1⟩, h2⟩ := c111_total samplePrinter (package_sensible n) hm (keys := packageReference.keys)
    (fun k hk => hk) [(c! "0", [])] true
  refine ⟨n, c111_not_same samplePrinter package_wf (by decide +kernel) (by simp) (by simp) h1 (fun k hk f hf => ⟨?_, h2 k hk f hf⟩) ?_⟩
  · rw [List.mem_singleton] at hf; subst hf; intro h; cases h
  · intro k _ f hf f' hf' s s' hs hs'
    rw [List.mem_singleton] at hf hf'
    subst hf; subst hf'
    rcases hs with ⟨-, rfl⟩ | ⟨x, a, h, -⟩
    · rcases hs' with ⟨-, rfl⟩ | ⟨x, a, h, -⟩
      · rfl
      · cases h
    · cases h

/-- a set of one parameter -/
def tinySession : Session Rat := ⟨⟨rationals, [(useDegrees, .int, c! "0")], fun _ => none⟩, 4, [], fun _ => none, []⟩

/-- a parameter of another version of the sources -/
example : ∃ e, compareFiles samplePrinter tinySession [c! "newParameter"] twoFiles false = .error (.config e) := by
  refine c111_not_source samplePrinter (k := c! "newParameter") (by simp) (by simp [twoFiles]) ?_
  rintro a ⟨m, hm, ha⟩
  have : (match tinySession.interface none with
      | .ok m => (match getParameter m (c! "newParameter") with
        | .ok _ => false
        | .error _ => true)
      | .error _ => true) = true := by decide +kernel
  rw [hm] at this
  simp only [ha] at this
  cases this

/-- a printed comparison -/
example : printGroups [(c! "  eMin (default: 0.1 'MeV')  ", [(c! "0", c! "(default)"), (c! "1", c! "1.0 'MeV'")])] = .ok [[],
    c! "  eMin (default: 0.1 'MeV')  ", c! "-----------------------------", c! "0                   (default)",
    c! "1                   1.0 'MeV'", []] := by decide +kernel

/-- a directory with a long name -/
example : (valueLine 1 79 (c! "0", List.replicate 80 'x')) = '0' :: List.replicate 80 'x' := by decide +kernel

/-- two file objects -/
example : Compared none (.file [(c! "eMin", c! "1.0")]) [(c! "eMin", c! "1.0")] := rfl

example : Compared (some ['#']) (.path (c! "eMin=1.0")) [(c! "eMin", c! "1.0")] := ⟨['#'], rfl, by simp, by decide +kernel⟩

end Eprem.Config
