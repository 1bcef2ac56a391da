import Mathlib.Data.List.Basic
import Verif.Model.Etc
import Verif.Lemmas.Text

/-! # C132: singletons, texts of objects, first results, and help texts -/

namespace Eprem.Etc

open Eprem.Config (splitOn joinWith splitOn_none splitOn_append)

/-! ## Singletons -/

theorem lookup_set {own : Cls → Option Inst} {c : Cls} {new : Inst} (h : lookup own c = none) :
    ∀ {d : Cls} {i : Inst}, lookup own d = some i →
      lookup (fun e => if e = c then some new else own e) d = some i
  | [], i, hd => by
    unfold lookup at hd ⊢
    have : ([] : Cls) ≠ c := by
      rintro rfl
      unfold lookup at h; rw [hd] at h; cases h
    simp only [this, if_false]; exact hd
  | n :: base, i, hd => by
    have hc : (n :: base) ≠ c := by
      rintro rfl; rw [hd] at h; cases h
    rw [lookup] at hd ⊢
    simp only [hc, if_false]
    cases ho : own (n :: base) with
    | some j => rw [ho] at hd; simp only at hd ⊢; exact hd
    | none => rw [ho] at hd; simp only at hd ⊢; exact lookup_set h hd

theorem lookup_self (own : Cls → Option Inst) (c : Cls) (new : Inst) :
    lookup (fun e => if e = c then some new else own e) c = some new := by
  cases c <;> simp [lookup]

theorem call_lookup (s : State) (c : Cls) : lookup (call s c).2.own c = some (call s c).1 := by
  unfold call
  cases h : lookup s.own c with
  | some i => simp only; exact h
  | none => exact lookup_self _ _ _

theorem call_keeps (s : State) (c : Cls) {d : Cls} {i : Inst} (h : lookup s.own d = some i) :
    lookup (call s c).2.own d = some i := by
  unfold call
  cases hc : lookup s.own c with
  | some j => exact h
  | none => exact lookup_set hc h

theorem calls_keeps (cs : List Cls) : ∀ (s : State) {d : Cls} {i : Inst}, lookup s.own d = some i →
    lookup (calls s cs).2.own d = some i := by
  induction cs with
  | nil => exact fun s _ _ h => h
  | cons c cs ih => exact fun s _ _ h => ih _ (call_keeps s c h)

theorem call_of_lookup {s : State} {c : Cls} {i : Inst} (h : lookup s.own c = some i) : call s c = (i, s) := by
  unfold call; rw [h]

/-- **C132**, singletons.  Whatever was called before, and whatever is called between, all calls of a class give
the same object. -/
theorem c132_same (s : State) (c : Cls) (between : List Cls) :
    (call (calls (call s c).2 between).2 c).1 = (call s c).1 := by
  rw [call_of_lookup (calls_keeps between _ (call_lookup s c))]

theorem calls_append (s : State) (xs ys : List Cls) :
    (calls s (xs ++ ys)).2 = (calls (calls s xs).2 ys).2 := by
  induction xs generalizing s with
  | nil => rfl
  | cons x xs ih => exact ih _

/-- What is known of a state after any calls: the instance that a class has set itself is of that class, and was
made by one of the calls; serial numbers tell instances apart. -/
structure Sound (s : State) (cs : List Cls) : Prop where
  cls : ∀ c i, s.own c = some i → i.cls = c ∧ i.serial < s.made ∧ c ∈ cs
  inj : ∀ c d i j, s.own c = some i → s.own d = some j → i.serial = j.serial → c = d

theorem sound_mono {s : State} {cs ds : List Cls} (h : Sound s cs) (hs : ∀ c ∈ cs, c ∈ ds) : Sound s ds :=
  ⟨fun c i hi => ⟨(h.cls c i hi).1, (h.cls c i hi).2.1, hs c (h.cls c i hi).2.2⟩, h.inj⟩

theorem call_sound {s : State} {cs : List Cls} (h : Sound s cs) {c : Cls} (hc : c ∈ cs) : Sound (call s c).2 cs := by
  unfold call
  cases hl : lookup s.own c with
  | some i => exact h
  | none =>
    refine ⟨fun d i hi => ?_, fun d e i j hi hj hij => ?_⟩
    · simp only at hi ⊢
      split at hi
      · rename_i hd
        cases hi
        exact ⟨hd.symm, Nat.lt_succ_self _, hd ▸ hc⟩
      · obtain ⟨h1, h2, h3⟩ := h.cls d i hi
        exact ⟨h1, Nat.lt_succ_of_lt h2, h3⟩
    · simp only at hi hj
      split at hi <;> split at hj
      · rename_i h1 h2; rw [h1, h2]
      · cases hi
        have := (h.cls e j hj).2.1
        simp only at hij; omega
      · cases hj
        have := (h.cls d i hi).2.1
        simp only at hij; omega
      · exact h.inj d e i j hi hj hij

theorem calls_sound (cs : List Cls) : ∀ {s : State} {all : List Cls}, Sound s all → (∀ c ∈ cs, c ∈ all) →
    Sound (calls s cs).2 all := by
  induction cs with
  | nil => exact fun h _ => h
  | cons c cs ih => exact fun h hc => ih (call_sound h (hc c (by simp))) (fun d hd => hc d (by simp [hd]))

theorem start_sound (cs : List Cls) : Sound (calls State.start cs).2 cs :=
  calls_sound cs ⟨(fun _ _ h => by cases h), (fun _ _ _ _ h => by cases h)⟩ (fun _ h => h)

theorem lookup_own {own : Cls → Option Inst} : ∀ {c : Cls} {i : Inst}, lookup own c = some i →
    ∃ d, d <:+ c ∧ own d = some i
  | [], i, h => ⟨[], List.suffix_refl _, h⟩
  | n :: base, i, h => by
    rw [lookup] at h
    cases ho : own (n :: base) with
    | some j => rw [ho] at h; cases h; exact ⟨_, List.suffix_refl _, ho⟩
    | none =>
      rw [ho] at h
      obtain ⟨d, hd, h'⟩ := lookup_own h
      exact ⟨d, hd.trans (List.suffix_cons n base), h'⟩

theorem call_class (cs : List Cls) (c : Cls) (h : ∀ d ∈ cs, d <:+ c → d = c) :
    (call (calls State.start cs).2 c).1.cls = c := by
  have hs := start_sound cs
  unfold call
  cases hl : lookup (calls State.start cs).2.own c with
  | none => rfl
  | some i =>
    obtain ⟨d, hd, ho⟩ := lookup_own hl
    obtain ⟨h1, _, h3⟩ := hs.cls d i ho
    rw [h d h3 hd] at h1
    exact h1

/-- **C132**, singletons.  As long as no base of the class has been called, the object is an instance of the class
that is called; in particular, classes that are called without their bases having been called have different
objects. -/
theorem c132_own_class_partial (cs : List Cls) (c d : Cls) (hc : ∀ e ∈ cs, e <:+ c → e = c)
    (hd : ∀ e ∈ cs ++ [c], e <:+ d → e = d) :
    (call (calls State.start cs).2 c).1.cls = c ∧
    (call (call (calls State.start cs).2 c).2 d).1.cls = d ∧
    (c ≠ d → (call (calls State.start cs).2 c).1 ≠ (call (call (calls State.start cs).2 c).2 d).1) := by
  have h1 := call_class cs c hc
  have h2 : (call (call (calls State.start cs).2 c).2 d).1.cls = d := by
    have := call_class (cs ++ [c]) d hd
    rw [calls_append] at this
    exact this
  exact ⟨h1, h2, fun hne he => hne (by rw [← h1, ← h2, he])⟩

/-- **C132**, violated: once a singleton class has its instance, calling a class below it gives that instance, which
is not an instance of the class that is called. -/
theorem c132_base_first (n m : Nat) :
    let s := (call State.start [n]).2
    (call s [m, n]).1 = (call State.start [n]).1 ∧ (call s [m, n]).1.cls = [n] := by
  have hl : lookup (call State.start [n]).2.own [m, n] = some ⟨[n], 0⟩ := by
    simp [call, lookup, State.start]
  have h0 : (call State.start [n]).1 = ⟨[n], 0⟩ := rfl
  simp only
  rw [call_of_lookup hl, h0]
  exact ⟨rfl, rfl⟩

example : (calls State.start [[1], [2], [1], [3, 2], [2]]).1.map Inst.serial = [0, 1, 0, 1, 1] := by decide
example : (∀ e ∈ [[1], [3, 2]], e <:+ [1] → e = [1]) ∧ ∀ e ∈ [[1], [3, 2]] ++ [[1]], e <:+ [2] → e = [2] := by decide

/-! ## Text of objects -/

/-- **C132**, `autostr`.  A decorated class that has a `__repr__` keeps it.  Otherwise the representation of an
instance, of the class itself or of a class below it without `__repr__`, is the name of its class with its text in
parentheses, or the name alone if neither the class nor a base has a `__str__`. -/
theorem c132_autostr (name : Str) (below : List ClassDict) (c : ClassDict) (bases : List ClassDict)
    (hb : ∀ b ∈ below, b.repr = none) :
    (∀ t, c.repr = some (.custom t) → reprOf name (below ++ c.autostr :: bases) = some t) ∧
    (c.repr = none → (∀ t, (below ++ c :: bases).findSome? ClassDict.str = some t →
      reprOf name (below ++ c.autostr :: bases) = some (name ++ "(".toList ++ t ++ ")".toList))) ∧
    (c.repr = none → ((∀ b ∈ below ++ c :: bases, b.str = none) →
      reprOf name (below ++ c.autostr :: bases) = some name)) := by
  have hskip : ∀ rest, (below ++ rest).findSome? ClassDict.repr = rest.findSome? ClassDict.repr := by
    intro rest
    rw [List.findSome?_append]
    have : below.findSome? ClassDict.repr = none := List.findSome?_eq_none_iff.2 hb
    rw [this]; rfl
  have hstr : (below ++ c.autostr :: bases).findSome? ClassDict.str = (below ++ c :: bases).findSome? ClassDict.str := by
    rw [List.findSome?_append, List.findSome?_append, List.findSome?_cons, List.findSome?_cons]
    have : c.autostr.str = c.str := by unfold ClassDict.autostr; cases c.repr <;> rfl
    rw [this]
  refine ⟨fun t ht => ?_, fun hn t ht => ?_, fun hn hs => ?_⟩
  · unfold reprOf
    rw [hskip, List.findSome?_cons]
    have : c.autostr.repr = some (.custom t) := by unfold ClassDict.autostr; rw [ht]; exact ht
    rw [this]
  · unfold reprOf
    rw [hskip, List.findSome?_cons]
    have : c.autostr.repr = some .autostr := by unfold ClassDict.autostr; rw [hn]
    rw [this]
    simp only
    rw [hstr, ht]
  · unfold reprOf
    rw [hskip, List.findSome?_cons]
    have : c.autostr.repr = some .autostr := by unfold ClassDict.autostr; rw [hn]
    rw [this]
    simp only
    rw [hstr, List.findSome?_eq_none_iff.2 hs]

/-- **C132**, `str2repr`.  The representation of an instance of the decorated class is its name with its text in
parentheses.  Violated: an instance of a class below that inherits `__str__` is represented by the name alone. -/
theorem c132_str2repr_partial (name t : Str) (c b : ClassDict) (bases : List ClassDict) (hc : c.str = some t) :
    reprOf name (c.str2repr :: bases) = some (name ++ "(".toList ++ t ++ ")".toList) ∧
    (b.repr = none → b.str = none → reprOf name (b :: c.str2repr :: bases) = some name) := by
  constructor
  · show (match c.str with
      | some t => some (name ++ "(".toList ++ t ++ ")".toList)
      | none => some name) = _
    rw [hc]
  · intro h1 h2
    unfold reprOf
    rw [List.findSome?_cons, h1]
    show (match b.str with
      | some t => some (name ++ "(".toList ++ t ++ ")".toList)
      | none => some name) = _
    rw [h2]

example : reprOf "C".toList [ClassDict.autostr ⟨some "v=3".toList, none⟩] = some "C(v=3)".toList :=
  ((c132_autostr _ [] _ [] (by simp)).2.1 rfl _ rfl).trans (by decide)

/-! ## First results -/

/-- **C132**, `apply`.  The result is that of the first method whose result is true; the methods after it are not
called; there is none if all results are false; an exception of a method called leaves the call. -/
theorem c132_apply {α : Type} (before : List (Outcome α)) (hb : ∀ o ∈ before, ∃ x, o = .result x false)
    (after : List (Outcome α)) :
    (∀ x, firstResult (before ++ .result x true :: after) = (some (some x), before.length + 1)) ∧
    firstResult before = (some none, before.length) ∧
    firstResult (before ++ .raised :: after) = (none, before.length + 1) := by
  induction before with
  | nil => exact ⟨fun _ => rfl, rfl, rfl⟩
  | cons o r ih =>
    obtain ⟨y, rfl⟩ := hb o (by simp)
    obtain ⟨h1, h2, h3⟩ := ih (fun o ho => hb o (by simp [ho]))
    refine ⟨fun x => ?_, ?_, ?_⟩
    · rw [List.cons_append, firstResult, h1]; rfl
    · rw [firstResult, h2]; rfl
    · rw [List.cons_append, firstResult, h3]; rfl

example : firstResult [.result 0 false, .result 5 true, .raised] = (some (some 5), 2) := by decide

/-! ## Help texts -/

/-- **C132**, help texts.  For a docstring of any number of empty lines, a line that does not begin with one, and
further lines, the summary is that line as written. -/
theorem c132_summary (wrap : Str → List Str) (k : Nat) (c : Char) (line rest : Str) (hc : c ≠ '\n') (hl : '\n' ∉ line) :
    doc2help wrap (some (List.replicate k '\n' ++ (c :: line) ++ '\n' :: rest)) .summary = some (c :: line) ∧
    doc2help wrap (some (List.replicate k '\n' ++ (c :: line))) .summary = some (c :: line) := by
  have drop : ∀ s : Str, (List.replicate k '\n' ++ (c :: s)).dropWhile (· = '\n') = c :: s := by
    intro s
    induction k with
    | zero => simp [List.dropWhile, hc]
    | succ k ih => rw [List.replicate_succ, List.cons_append, List.dropWhile_cons_of_pos (by simp), ih]
  have hcl : '\n' ∉ c :: line := by
    rw [List.mem_cons, not_or]; exact ⟨fun h => hc h.symm, hl⟩
  constructor
  · unfold doc2help
    simp only [Option.getD_some]
    rw [List.append_assoc, List.cons_append, drop, ← List.cons_append, splitOn_append hcl]
    rfl
  · unfold doc2help
    simp only [Option.getD_some]
    rw [drop, splitOn_none hcl]
    rfl

theorem rstripDots_spec (s : Str) : ∃ k, s = rstripDots s ++ List.replicate k '.' ∧
    ∀ t, rstripDots s ≠ t ++ ['.'] := by
  unfold rstripDots
  have key : ∀ r : Str, ∃ k, r = List.replicate k '.' ++ r.dropWhile (· = '.') ∧
      ∀ t, r.dropWhile (· = '.') ≠ '.' :: t := by
    intro r
    induction r with
    | nil => exact ⟨0, rfl, fun t h => by cases h⟩
    | cons a r ih =>
      by_cases ha : a = '.'
      · subst ha
        obtain ⟨k, h1, h2⟩ := ih
        refine ⟨k + 1, ?_, ?_⟩
        · rw [List.dropWhile_cons_of_pos (by simp), List.replicate_succ, List.cons_append, ← h1]
        · rw [List.dropWhile_cons_of_pos (by simp)]; exact h2
      · refine ⟨0, ?_, ?_⟩
        · rw [List.dropWhile_cons_of_neg (by simpa using ha)]; rfl
        · rw [List.dropWhile_cons_of_neg (by simpa using ha)]
          intro t h; cases h; exact ha rfl
  obtain ⟨k, h1, h2⟩ := key s.reverse
  refine ⟨k, ?_, fun t h => ?_⟩
  · have := congrArg List.reverse h1
    rw [List.reverse_reverse, List.reverse_append, List.reverse_replicate] at this
    exact this
  · have := congrArg List.reverse h
    rw [List.reverse_reverse, List.reverse_append] at this
    exact h2 _ this

/-- **C132**, help texts.  A phrase is the summary with its first letter in lower case and without periods at its
end.  Violated: the other letters are as they were, and an empty docstring is an `IndexError`. -/
theorem c132_phrase_partial (wrap : Str → List Str) (doc : Option Str) (c : Char) (line : Str)
    (h : doc2help wrap doc .summary = some (c :: line)) :
    ∃ body k, doc2help wrap doc .phrase = some (lower c :: body) ∧ line = body ++ List.replicate k '.' ∧
      ∀ t, body ≠ t ++ ['.'] := by
  obtain ⟨k, h1, h2⟩ := rstripDots_spec line
  refine ⟨rstripDots line, k, ?_, h1, h2⟩
  unfold doc2help at h ⊢
  simp only [Option.some.injEq] at h ⊢
  rw [h]

/-- **C132**, violated: an object without a docstring has the help text `None`, a phrase keeps capital letters, and
the phrase of an empty docstring is an `IndexError`. -/
theorem c132_help_witnesses (wrap : Str → List Str) :
    doc2help wrap none .summary = some "None".toList ∧
    doc2help wrap (some "Read The FILE.".toList) .phrase = some "read The FILE".toList ∧
    doc2help wrap (some []) .phrase = none := by
  refine ⟨?_, ?_, ?_⟩
  · unfold doc2help; simp only; decide
  · unfold doc2help; simp only; decide
  · unfold doc2help; simp only; decide

/-- **C132**, help texts.  The full help is the summary, an empty line, and the other lines, without the blanks they
begin with and joined by single blanks, as `textwrap.wrap` divides them. -/
theorem c132_full (wrap : Str → List Str) (line : Str) (hl : '\n' ∉ line) (hn : line ≠ []) (ls : List Str)
    (hne : ls ≠ []) (hls : ∀ s ∈ ls, '\n' ∉ s) :
    doc2help wrap (some (line ++ '\n' :: joinWith '\n' ls)) .full =
      some (line ++ "\n\n".toList ++ (joinWith '\n' (wrap (joinWith ' '
        (ls.map (fun s => s.dropWhile (fun c => c = ' ' ∨ c = '\t')))))).dropWhile (· = ' ')) := by
  have hd : (line ++ '\n' :: joinWith '\n' ls).dropWhile (· = '\n') = line ++ '\n' :: joinWith '\n' ls := by
    cases line with
    | nil => exact absurd rfl hn
    | cons c line =>
      rw [List.cons_append, List.dropWhile_cons_of_neg]
      simp only [List.mem_cons, not_or] at hl
      simpa using fun h => hl.1 h.symm
  unfold doc2help
  simp only [Option.getD_some]
  rw [hd, splitOn_append hl, Eprem.Config.splitOn_join hne hls]
  rfl

example : doc2help (fun s => [s]) (some "\nRun.\n  more\n\ttext".toList) .summary = some "Run.".toList ∧
    doc2help (fun s => [s]) (some "Run.\n  more\n\ttext".toList) .full = some "Run.\n\nmore text".toList := by decide

end Eprem.Etc
