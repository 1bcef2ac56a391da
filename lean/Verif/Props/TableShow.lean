import Mathlib.Tactic.Ring
import Mathlib.Data.List.Forall2
import Verif.Model.TableShow
import Verif.Lemmas.PyDict

/-! # C131: printed tables are aligned -/

namespace Eprem.TableShow

/-- `out` is the text `s` in the middle of `w` characters: at least two blanks on each side, and at most one
more on the right than on the left. -/
def Centred (w : Nat) (s out : Str) : Prop :=
  ∃ a b, out = List.replicate a ' ' ++ s ++ List.replicate b ' ' ∧ out.length = w ∧ 2 ≤ a ∧ a ≤ b ∧ b ≤ a + 1

theorem center_centred {w : Nat} {s : Str} (h : s.length + 4 ≤ w) : Centred w s (center w s) := by
  refine ⟨_, _, rfl, ?_, ?_, ?_, ?_⟩
  · unfold center
    simp only [List.length_append, List.length_replicate]
    omega
  all_goals omega

theorem firsts_mem {l : List Str} {n : Str} : n ∈ firsts l ↔ n ∈ l := by
  induction l with
  | nil => rfl
  | cons m r ih =>
    rw [firsts, List.mem_cons, List.mem_cons, List.mem_filter, ih, decide_eq_true_iff]
    by_cases h : n = m <;> simp [h]

theorem firsts_nodup (l : List Str) : (firsts l).Nodup := by
  induction l with
  | nil => exact List.nodup_nil
  | cons m r ih =>
    rw [firsts, List.nodup_cons]
    exact ⟨by simp, ih.filter _⟩

theorem firsts_sublist (l : List Str) : (firsts l).Sublist l := by
  induction l with
  | nil => exact List.Sublist.refl _
  | cons m r ih => exact (List.filter_sublist.trans ih).cons_cons m

/-- The longest of a name and the texts of the values under it has `w` characters. -/
def Longest (entries : List (Dict Str Cell)) (n : Str) (w : Nat) : Prop :=
  n.length ≤ w ∧ (∀ e ∈ entries, ∀ c, e.get? n = some c → c.str.length ≤ w) ∧
  (w = n.length ∨ ∃ e ∈ entries, ∃ c, e.get? n = some c ∧ w = c.str.length)

theorem width_longest (entries : List (Dict Str Cell)) (n : Str) : Longest entries n (width entries n) := by
  have key : ∀ (l : List (Dict Str Cell)) (w : Nat),
      let r := l.foldl (fun w e => match e.get? n with
        | some c => max w c.str.length
        | none => w) w
      w ≤ r ∧ (∀ e ∈ l, ∀ c, e.get? n = some c → c.str.length ≤ r) ∧
        (r = w ∨ ∃ e ∈ l, ∃ c, e.get? n = some c ∧ r = c.str.length) := by
    intro l
    induction l with
    | nil => intro w; exact ⟨le_refl _, by simp, Or.inl rfl⟩
    | cons e l ih =>
      intro w
      rw [List.foldl_cons]
      cases hg : e.get? n with
      | none =>
        obtain ⟨h1, h2, h3⟩ := ih w
        refine ⟨h1, fun e' he' c hc => ?_, ?_⟩
        · rcases List.mem_cons.1 he' with rfl | he'
          · rw [hg] at hc; cases hc
          · exact h2 e' he' c hc
        · rcases h3 with h3 | ⟨e', he', h3⟩
          · exact Or.inl h3
          · exact Or.inr ⟨e', by simp [he'], h3⟩
      | some c =>
        obtain ⟨h1, h2, h3⟩ := ih (max w c.str.length)
        refine ⟨le_trans (le_max_left _ _) h1, fun e' he' c' hc => ?_, ?_⟩
        · rcases List.mem_cons.1 he' with rfl | he'
          · rw [hg] at hc; cases hc
            exact le_trans (le_max_right _ _) h1
          · exact h2 e' he' c' hc
        · rcases h3 with h3 | ⟨e', he', h3⟩
          · rcases le_total w c.str.length with hw | hw
            · exact Or.inr ⟨e, by simp, c, hg, h3.trans (max_eq_right hw)⟩
            · exact Or.inl (h3.trans (max_eq_left hw))
          · exact Or.inr ⟨e', by simp [he'], h3⟩
  exact key entries n.length

/-- What a value looks like in the table: a truth value is a digit. -/
def Cell.shown : Cell → Str
  | .text s => s
  | .flag b => if b then ['1'] else ['0']
  | .object s => s

/-- A value that can be formatted. -/
def Cell.Plain (c : Cell) : Prop := ∀ s, c ≠ .object s

theorem mapM_ok_forall₂ {α β : Type} (f : α → Except Err β) (P : α → β → Prop) (l : List α)
    (h : ∀ a ∈ l, ∃ b, f a = .ok b ∧ P a b) : ∃ l', l.mapM f = .ok l' ∧ List.Forall₂ P l l' := by
  induction l with
  | nil => exact ⟨[], rfl, .nil⟩
  | cons a l ih =>
    obtain ⟨b, h1, h2⟩ := h a (by simp)
    obtain ⟨l', h3, h4⟩ := ih (fun x hx => h x (by simp [hx]))
    exact ⟨b :: l', by rw [List.mapM_cons, h1, h3]; rfl, .cons h2 h4⟩

theorem mapM_typeError {α β : Type} (f : α → Except Err β) (l : List α)
    (h : ∀ a ∈ l, (∃ b, f a = .ok b) ∨ f a = .error .typeError) (hx : ∃ a ∈ l, f a = .error .typeError) :
    l.mapM f = .error .typeError := by
  induction l with
  | nil => obtain ⟨a, ha, _⟩ := hx; simp at ha
  | cons a l ih =>
    rw [List.mapM_cons]
    rcases h a (by simp) with ⟨b, hb⟩ | hb
    · obtain ⟨c, hc, hce⟩ := hx
      rcases List.mem_cons.1 hc with rfl | hc
      · rw [hb] at hce; cases hce
      · rw [hb, ih (fun x hx => h x (by simp [hx])) ⟨c, hc, hce⟩]; rfl
    · rw [hb]; rfl

theorem columns_mem {entries : List (Dict Str Cell)} {names : List Str} {n : Str} :
    n ∈ columns entries names ↔ n ∈ names ∧ ∀ e ∈ entries, ∃ c, e.get? n = some c := by
  unfold columns
  rw [firsts_mem, List.mem_filter]
  unfold common
  simp only [List.all_eq_true, Option.isSome_iff_exists]

theorem forall₂_length {P : Str → Str → Prop} {f : Str → Nat} (h : ∀ n s, P n s → s.length = f n)
    {l l' : List Str} (h2 : List.Forall₂ P l l') : l'.flatten.length = (l.map f).sum := by
  induction h2 with
  | nil => rfl
  | cons hp _ ih => rw [List.flatten_cons, List.length_append, ih, h _ _ hp, List.map_cons, List.sum_cons]

/-- **C131.** The table printed for some names.  The columns are the given names that are in every entry, once
each and in the order given.  If there is one and every value in the columns can be formatted, the lines are
one with the names, one with as many dashes as each name has characters, and one for every entry in order;
the lines have the same length, and every name, every line of dashes and every value is in the middle of its
column, whose width is that of the longest name or value plus two blanks on each side. -/
theorem c131_layout_partial (entries : List (Dict Str Cell)) (names : List Str) (hn : names ≠ []) (he : entries ≠ []) :
    ∃ cols : List Str, cols.Nodup ∧ cols.Sublist names ∧
      (∀ n, n ∈ cols ↔ n ∈ names ∧ ∀ e ∈ entries, ∃ c, e.get? n = some c) ∧
      (cols = [] → printed entries names = .ok []) ∧
      (cols ≠ [] → (∀ e ∈ entries, ∀ n ∈ cols, ∀ c, e.get? n = some c → c.Plain) →
        ∃ (w : Str → Nat) (header dashes : List Str) (rows : List (List Str)),
          (∀ n, Longest entries n (w n)) ∧
          printed entries names = .ok (header.flatten :: dashes.flatten :: rows.map List.flatten) ∧
          List.Forall₂ (fun n s => Centred (w n + 4) n s) cols header ∧
          List.Forall₂ (fun n s => Centred (w n + 4) (List.replicate n.length '-') s) cols dashes ∧
          List.Forall₂ (fun e row => List.Forall₂ (fun n s => ∃ c, e.get? n = some c ∧ Centred (w n + 4) c.shown s)
            cols row) entries rows ∧
          ∀ line ∈ header.flatten :: dashes.flatten :: rows.map List.flatten,
            line.length = (cols.map (fun n => w n + 4)).sum) := by
  refine ⟨columns entries names, firsts_nodup _, (firsts_sublist _).trans List.filter_sublist,
    fun n => columns_mem, fun hc => ?_, fun hc hp => ?_⟩
  · unfold printed
    rw [if_neg hn, if_neg he]
    simp only [hc]
    obtain ⟨l, hl, _⟩ := mapM_ok_forall₂ (fun e => ([] : List Str).mapM (cell entries e)) (fun _ _ => True)
      entries (fun e _ => ⟨[], rfl, trivial⟩)
    rw [hl]; rfl
  · have hw := width_longest entries
    have hcell : ∀ e ∈ entries, ∀ n ∈ columns entries names,
        ∃ s, cell entries e n = .ok s ∧ ∃ c, e.get? n = some c ∧ Centred (width entries n + 4) c.shown s := by
      intro e hee n hnn
      obtain ⟨c, hgc⟩ := (columns_mem.1 hnn).2 e hee
      have hlen := (hw n).2.1 e hee c hgc
      have hpl := hp e hee n hnn c hgc
      unfold cell
      rw [hgc]
      cases c with
      | object s => exact absurd rfl (hpl s)
      | text s =>
        refine ⟨_, rfl, _, rfl, ?_⟩
        rw [Nat.add_comm _ 4]
        exact center_centred (by change s.length ≤ _ at hlen; change s.length + 4 ≤ _; omega)
      | flag b =>
        refine ⟨_, rfl, _, rfl, ?_⟩
        rw [Nat.add_comm _ 4]
        have : 1 ≤ width entries n := le_trans (by cases b <;> decide) hlen
        cases b
        · exact center_centred (by show 1 + 4 ≤ _; omega)
        · exact center_centred (by show 1 + 4 ≤ _; omega)
    obtain ⟨rows, hr, hrows⟩ := mapM_ok_forall₂ (fun e => (columns entries names).mapM (cell entries e))
      (fun e row => List.Forall₂ (fun n s => ∃ c, e.get? n = some c ∧ Centred (width entries n + 4) c.shown s)
        (columns entries names) row) entries
      (fun e hee => mapM_ok_forall₂ (cell entries e) _ _ (hcell e hee))
    have hmap : ∀ (P : Str → Str → Prop) (f : Str → Str) (l : List Str), (∀ n, P n (f n)) →
        List.Forall₂ P l (l.map f) := by
      intro P f l h
      induction l with
      | nil => exact .nil
      | cons a l ih => exact .cons (h a) ih
    have h1 := hmap (fun n s => Centred (width entries n + 4) n s)
      (fun n => center (2 * 2 + width entries n) n) (columns entries names) (fun n => by
        have := (hw n).1
        rw [Nat.add_comm _ 4]; exact center_centred (by omega))
    have h2 := hmap (fun n s => Centred (width entries n + 4) (List.replicate n.length '-') s)
      (fun n => center (2 * 2 + width entries n) (List.replicate n.length '-')) (columns entries names) (fun n => by
        have := (hw n).1
        rw [Nat.add_comm _ 4]; exact center_centred (by rw [List.length_replicate]; omega))
    refine ⟨width entries, _, _, rows, hw, ?_, h1, h2, hrows, ?_⟩
    · unfold printed
      rw [if_neg hn, if_neg he]
      simp only
      rw [hr]
      simp only
      rw [if_neg hc]
    · intro line hline
      rw [List.mem_cons, List.mem_cons] at hline
      rcases hline with rfl | rfl | hline
      · exact forall₂_length (fun n s h => by obtain ⟨_, _, _, h, _⟩ := h; exact h) h1
      · exact forall₂_length (fun n s h => by obtain ⟨_, _, _, h, _⟩ := h; exact h) h2
      · obtain ⟨row, hrow, rfl⟩ := List.mem_map.1 hline
        obtain ⟨e, _, hf⟩ : ∃ e ∈ entries, List.Forall₂ (fun n s => ∃ c, e.get? n = some c ∧
            Centred (width entries n + 4) c.shown s) (columns entries names) row := by
          have : ∀ (es : List (Dict Str Cell)) (rs : List (List Str)),
              List.Forall₂ (fun e row => List.Forall₂ (fun n s => ∃ c, e.get? n = some c ∧
                Centred (width entries n + 4) c.shown s) (columns entries names) row) es rs → row ∈ rs →
              ∃ e ∈ es, List.Forall₂ (fun n s => ∃ c, e.get? n = some c ∧
                Centred (width entries n + 4) c.shown s) (columns entries names) row := by
            intro es rs h
            induction h with
            | nil => simp
            | cons hp _ ih =>
              intro hm
              rcases List.mem_cons.1 hm with rfl | hm
              · exact ⟨_, by simp, hp⟩
              · obtain ⟨e, he, hf⟩ := ih hm
                exact ⟨e, by simp [he], hf⟩
          exact this entries rows hrows hrow
        exact forall₂_length (fun n s h => by obtain ⟨_, _, _, _, _, h, _⟩ := h; exact h) hf

/-- **C131**, violated: a value without a format of its own (`None`, a list) in one of the columns is a
`TypeError`, and nothing is printed. -/
theorem c131_object (entries : List (Dict Str Cell)) (names : List Str) (n : Str) (hn : n ∈ names)
    (hc : ∀ e ∈ entries, ∃ c, e.get? n = some c) (e : Dict Str Cell) (he : e ∈ entries) (s : Str)
    (hs : e.get? n = some (.object s)) : printed entries names = .error .typeError := by
  have hcol : n ∈ columns entries names := columns_mem.2 ⟨hn, hc⟩
  have hcell : ∀ e ∈ entries, ∀ m ∈ columns entries names,
      (∃ s, cell entries e m = .ok s) ∨ cell entries e m = .error .typeError := by
    intro e he m hm
    obtain ⟨c, hgc⟩ := (columns_mem.1 hm).2 e he
    unfold cell
    rw [hgc]
    cases c with
    | object s => exact Or.inr rfl
    | text s => exact Or.inl ⟨_, rfl⟩
    | flag b => exact Or.inl ⟨_, rfl⟩
  have hrow : ∀ e ∈ entries, (∃ r, (columns entries names).mapM (cell entries e) = .ok r) ∨
      (columns entries names).mapM (cell entries e) = .error .typeError := by
    intro e he
    by_cases hx : ∃ m ∈ columns entries names, cell entries e m = .error .typeError
    · exact Or.inr (mapM_typeError _ _ (hcell e he) hx)
    · left
      obtain ⟨r, hr, _⟩ := mapM_ok_forall₂ (cell entries e) (fun _ _ => True) (columns entries names) (fun m hm => by
        rcases hcell e he m hm with ⟨s, hs⟩ | h
        · exact ⟨s, hs, trivial⟩
        · exact absurd ⟨m, hm, h⟩ hx)
      exact ⟨r, hr⟩
  unfold printed
  rw [if_neg (List.ne_nil_of_mem hn), if_neg (List.ne_nil_of_mem he)]
  simp only
  rw [mapM_typeError _ entries hrow ⟨e, he, mapM_typeError _ _ (hcell e he) ⟨n, hcol, by
    unfold cell; rw [hs]; rfl⟩⟩]

/-- **C131**, violated: without names the table prints nothing, whatever it holds; and with names the empty
table is an `IndexError`. -/
theorem c131_nothing (entries : List (Dict Str Cell)) (names : List Str) (h : names ≠ []) :
    printed entries [] = .ok [] ∧ printed [] names = .error .indexError := by
  refine ⟨rfl, ?_⟩
  unfold printed
  rw [if_neg h, if_pos rfl]

/-! ### Examples -/

/-- Two entries with a name and a unit, and one other key. -/
def demoTable : List (Dict Str Cell) :=
  [[("q".toList, .text "length".toList), ("unit".toList, .text "m".toList)],
   [("unit".toList, .text "s".toList), ("q".toList, .text "time".toList), ("ok".toList, .flag true)]]

example : printed demoTable ["unit".toList, "q".toList, "unit".toList, "ok".toList] = .ok
    (["  unit      q     ", "  ----      -     ", "   m      length  ", "   s       time   "].map String.toList) := by
  decide
example : demoTable ≠ [] ∧ (∀ e ∈ demoTable, ∀ n ∈ ["unit".toList, "q".toList], ∀ c, e.get? n = some c →
    ∃ s, c = .text s) := by
  refine ⟨by decide, ?_⟩
  intro e he n hn c hc
  simp only [demoTable, List.mem_cons, List.not_mem_nil, or_false] at he hn
  rcases he with rfl | rfl <;> rcases hn with rfl | rfl <;> exact ⟨_, (Option.some.inj hc).symm⟩
example : printed [[("q".toList, .object "None".toList)]] ["q".toList] = .error .typeError :=
  c131_object _ _ "q".toList (by simp) (by
    intro e he; rw [List.mem_singleton] at he; subst he; exact ⟨_, rfl⟩)
    [("q".toList, .object "None".toList)] (List.mem_singleton.2 rfl) "None".toList rfl
example : printed [[("ok".toList, .flag true)]] ["ok".toList] =
    .ok (["   ok   ", "   --   ", "   1    "].map String.toList) := by decide

end Eprem.TableShow
