import Verif.Model.Observer
import Verif.Props.Config
import Mathlib.Data.List.Basic

/-!
# Observer files (C62, C79)
-/

namespace Eprem.Observer

open Eprem Eprem.Config
open Eprem.Symbolic (Str showNat isDigit natVal)

/-! ## Patterns -/

/-- A text without wildcards. -/
def Literal (l : Str) : Prop := ∀ c ∈ l, c ≠ '*' ∧ c ≠ '?'

theorem star_any (s : Str) : globMatch ['*'] s = true := by
  show s.tails.any (globMatch []) = true
  rw [List.any_eq_true]
  exact ⟨[], by simp, rfl⟩

theorem globMatch_literal {l : Str} (hl : Literal l) (p f : Str) :
    globMatch (l ++ p) f = true ↔ ∃ r, f = l ++ r ∧ globMatch p r = true := by
  induction l generalizing f with
  | nil => simp
  | cons a l ih =>
    have ha := hl a (List.mem_cons_self ..)
    have ih := ih (fun c hc => hl c (List.mem_cons_of_mem _ hc))
    rw [List.cons_append, globMatch.eq_def]
    simp only [if_neg ha.1]
    cases f with
    | nil => simp
    | cons c f =>
      simp only [ha.2, decide_false, Bool.false_or, Bool.and_eq_true, decide_eq_true_eq, List.cons_append, List.cons.injEq]
      rw [ih]
      constructor
      · rintro ⟨rfl, r, rfl, h⟩; exact ⟨r, ⟨rfl, rfl⟩, h⟩
      · rintro ⟨r, ⟨rfl, rfl⟩, h⟩; exact ⟨rfl, r, rfl, h⟩

/-- The files that match `text.*`. -/
theorem glob_dot {l : Str} (hl : Literal l) (f : Str) : globMatch (l ++ dotStar) f = true ↔ ∃ ext, f = l ++ '.' :: ext := by
  rw [globMatch_literal hl]
  constructor
  · rintro ⟨r, rfl, h⟩
    cases r with
    | nil => exact absurd h (by decide)
    | cons c r =>
      have : c = '.' := by
        simp only [dotStar, globMatch, show ('.' : Char) ≠ '*' by decide, show ('.' : Char) ≠ '?' by decide, if_false,
          decide_false, Bool.false_or, Bool.and_eq_true, decide_eq_true_eq] at h
        exact h.1.symm
      exact ⟨r, by rw [this]⟩
  · rintro ⟨ext, rfl⟩
    refine ⟨_, rfl, ?_⟩
    have := star_any ext
    simp only [dotStar, globMatch, show ('.' : Char) ≠ '*' by decide, if_false, decide_true, Bool.or_true,
      Bool.true_and] at this ⊢
    exact this

theorem glob_star {l : Str} (hl : Literal l) (f : Str) : globMatch (l ++ ['*']) f = true ↔ ∃ r, f = l ++ r := by
  rw [globMatch_literal hl]
  simp [star_any]

/-! ## Numbers in names -/

theorem natVal_zeros (k : Nat) : natVal (List.replicate k '0') = 0 := by
  induction k with
  | zero => rfl
  | succ k ih =>
    rw [List.replicate_succ', Symbolic.natVal_append, ih]
    rfl

theorem pad_digits (w : Nat) (n : Int) : ∃ ds, Symbolic.Digits ds ∧ natVal ds = n.natAbs ∧
    pad w n = if n < 0 then '-' :: ds else ds := by
  unfold pad
  by_cases h : n < 0
  · refine ⟨List.replicate (w - 1 - (showNat n.natAbs).length) '0' ++ showNat n.natAbs, ⟨?_, ?_⟩, ?_, ?_⟩
    · simp [(Symbolic.showNat_digits n.natAbs).1]
    · intro c hc
      rcases List.mem_append.1 hc with hc | hc
      · rw [(List.mem_replicate.1 hc).2]; decide
      · exact (Symbolic.showNat_digits n.natAbs).2 c hc
    · rw [Symbolic.natVal_append, natVal_zeros, Symbolic.showNat_val]; simp
    · simp [h]
  · refine ⟨List.replicate (w - (showNat n.natAbs).length) '0' ++ showNat n.natAbs, ⟨?_, ?_⟩, ?_, ?_⟩
    · simp [(Symbolic.showNat_digits n.natAbs).1]
    · intro c hc
      rcases List.mem_append.1 hc with hc | hc
      · rw [(List.mem_replicate.1 hc).2]; decide
      · exact (Symbolic.showNat_digits n.natAbs).2 c hc
    · rw [Symbolic.natVal_append, natVal_zeros, Symbolic.showNat_val]; simp
    · simp [h]

theorem pad_chars {w : Nat} {n : Int} {c : Char} (h : c ∈ pad w n) : c = '-' ∨ isDigit c = true := by
  obtain ⟨ds, h1, _, h3⟩ := pad_digits w n
  rw [h3] at h
  by_cases hn : n < 0
  · rw [if_pos hn] at h
    rcases List.mem_cons.1 h with rfl | h
    · exact .inl rfl
    · exact .inr (h1.2 c h)
  · rw [if_neg hn] at h
    exact .inr (h1.2 c h)

theorem pad_ne {w : Nat} {n : Int} : pad w n ≠ [] := by
  obtain ⟨ds, h1, _, h3⟩ := pad_digits w n
  rw [h3]
  by_cases hn : n < 0
  · rw [if_pos hn]; simp
  · rw [if_neg hn]; exact h1.1

theorem numeral_digits {ds : Str} (h : Symbolic.Digits ds) : numeralDigits ds = some ds := by
  unfold numeralDigits
  have hs : splitOn '_' ds = [ds] :=
    splitOn_none (fun h' => (digit_plain (h.2 _ h')).2.2.2.2.2.1 rfl)
  rw [hs, if_pos]
  · simp
  · have h1 := h.1
    have h2 := h.2
    simp only [List.all_cons, List.all_nil, Bool.and_true, Bool.and_eq_true, List.all_eq_true]
    exact ⟨by cases h : ds <;> simp_all, h2⟩

/-- The number in a name is read back. -/
theorem pyInt_pad (w : Nat) (n : Int) : pyInt (pad w n) = some n := by
  obtain ⟨ds, h1, h2, h3⟩ := pad_digits w n
  have hc : ∀ c ∈ pad w n, Symbolic.isSpace c = false := by
    intro c hc
    rcases pad_chars hc with rfl | h
    · decide
    · exact (digit_plain h).1
  have hstrip : Symbolic.strip (pad w n) = pad w n := by
    rw [strip_eq]
    exact stripBy_trimmed ⟨fun c h => hc c (List.mem_of_mem_head? h), fun c h => hc c (List.mem_of_getLast? h)⟩
  unfold pyInt
  rw [hstrip, h3]
  by_cases h : n < 0
  · rw [if_pos h]
    show (numeralDigits ds).map _ = _
    rw [numeral_digits h1, Option.map_some, h2]
    simp only [if_true]
    congr 1; omega
  · rw [if_neg h]
    have ht : Symbolic.takeSign ds = (false, ds) := by
      cases hd : ds with
      | nil => rfl
      | cons c s =>
        have := digit_plain (h1.2 c (by rw [hd]; simp))
        unfold Symbolic.takeSign
        split
        · next h => cases h; exact absurd rfl this.2.2.2.2.2.2.1
        · next h => cases h; exact absurd rfl this.2.2.2.2.2.2.2
        · rfl
    rw [ht]
    show (numeralDigits ds).map _ = _
    rw [numeral_digits h1, Option.map_some, h2]
    simp only [Bool.false_eq_true, if_false]
    congr 1; omega

/-! ## Names of observer files -/

/-- The letters of a prefix. -/
def Plain (p : Str) : Prop := ∀ c ∈ p, c ≠ '*' ∧ c ≠ '?' ∧ c ≠ '.' ∧ c ≠ '-' ∧ isDigit c = false

instance (p : Str) : Decidable (Plain p) := by unfold Plain; infer_instance

theorem plain_prefixes : ∀ p ∈ streamPrefixes ++ pointPrefixes, Plain p := by decide

/-- `f` is the name of an observer file with the prefix `p` and the number `n`, which is written with at least `w`
characters. -/
def IsFile (w : Nat) (p : Str) (n : Int) (f : Str) : Prop := ∃ ext, f = p ++ pad w n ++ '.' :: ext

theorem literal_name {p : Str} (hp : Plain p) (w : Nat) (n : Int) : Literal (p ++ pad w n) := by
  intro c hc
  rcases List.mem_append.1 hc with h | h
  · exact ⟨(hp c h).1, (hp c h).2.1⟩
  · rcases pad_chars h with rfl | h
    · decide
    · exact ⟨by rintro rfl; revert h; decide, by rintro rfl; revert h; decide⟩

theorem glob_name {p : Str} (hp : Plain p) (w : Nat) (n : Int) (f : Str) :
    globMatch (p ++ pad w n ++ dotStar) f = true ↔ IsFile w p n f := glob_dot (literal_name hp w n) f

theorem dot_name {p : Str} (hp : Plain p) (w : Nat) (n : Int) : '.' ∉ p ++ pad w n := by
  intro h
  rcases List.mem_append.1 h with h | h
  · exact (hp _ h).2.2.1 rfl
  · rcases pad_chars h with h | h
    · exact absurd h (by decide)
    · exact absurd h (by decide)

theorem cut_dot {a b x y : Str} (ha : '.' ∉ a) (hb : '.' ∉ b) (h : a ++ '.' :: x = b ++ '.' :: y) : a = b ∧ x = y := by
  induction a generalizing b with
  | nil => cases b with
    | nil => simpa using h
    | cons c b => simp at h; exact absurd h.1 (by rintro rfl; simp at hb)
  | cons c a ih => cases b with
    | nil => simp at h; exact absurd h.1 (by rintro rfl; simp at ha)
    | cons d b =>
      simp only [List.cons_append, List.cons.injEq] at h
      obtain ⟨h1, h2⟩ := ih (by simp at ha; exact ha.2) (by simp at hb; exact hb.2) h.2
      exact ⟨by rw [h.1, h1], h2⟩

theorem cut_letters {p q a b : Str} (hp : Plain p) (hq : Plain q) (ha : ∀ c ∈ a, c = '-' ∨ isDigit c = true)
    (hb : ∀ c ∈ b, c = '-' ∨ isDigit c = true) (ha0 : a ≠ []) (hb0 : b ≠ []) (h : p ++ a = q ++ b) : p = q ∧ a = b := by
  induction p generalizing q with
  | nil => cases q with
    | nil => exact ⟨rfl, h⟩
    | cons c q =>
      exfalso
      have hc := ha c (by simp at h; rw [h]; simp)
      have := hq c (by simp)
      rcases hc with hc | hc
      · exact this.2.2.2.1 hc
      · rw [hc] at this; exact absurd this.2.2.2.2 (by simp)
  | cons d p ih => cases q with
    | nil =>
      exfalso
      have hc := hb d (by simp at h; rw [← h]; simp)
      have := hp d (by simp)
      rcases hc with hc | hc
      · exact this.2.2.2.1 hc
      · rw [hc] at this; exact absurd this.2.2.2.2 (by simp)
    | cons c q =>
      simp only [List.cons_append, List.cons.injEq] at h
      obtain ⟨h1, h2⟩ := ih (fun x hx => hp x (List.mem_cons_of_mem _ hx)) (fun x hx => hq x (List.mem_cons_of_mem _ hx)) h.2
      exact ⟨by rw [h.1, h1], h2⟩

/-- The prefix and the number of a file are determined by its name. -/
theorem isFile_unique {w : Nat} {p q : Str} {m n : Int} {f : Str} (hp : Plain p) (hq : Plain q) (h1 : IsFile w p n f)
    (h2 : IsFile w q m f) : p = q ∧ n = m := by
  obtain ⟨e1, rfl⟩ := h1
  obtain ⟨e2, h⟩ := h2
  obtain ⟨h3, _⟩ := cut_dot (dot_name hp w n) (dot_name hq w m) h
  obtain ⟨h4, h5⟩ := cut_letters hp hq (fun c => pad_chars) (fun c => pad_chars) pad_ne pad_ne h3
  refine ⟨h4, ?_⟩
  have := pyInt_pad w n
  rw [h5, pyInt_pad] at this
  exact (Option.some.inj this).symm

/-! ## C62: searching files -/

theorem build_found {dir ps : List Str} {f : Str} (h : buildDatapath dir ps = .ok f) :
    ∃ p ∈ ps, f ∈ dir ∧ globMatch p f = true ∧ ∀ g ∈ dir, globMatch p g = true → g = f := by
  induction ps with
  | nil => cases h
  | cons p ps ih =>
    unfold buildDatapath at h
    match hg : glob dir p with
    | [] =>
      rw [hg] at h
      obtain ⟨q, h1, h2⟩ := ih h
      exact ⟨q, List.mem_cons_of_mem _ h1, h2⟩
    | [g] =>
      rw [hg] at h
      cases h
      have hmem : ∀ x, x ∈ glob dir p ↔ x = f := by rw [hg]; simp
      have hf := List.mem_filter.1 ((hmem f).2 rfl)
      exact ⟨p, List.mem_cons_self .., hf.1, hf.2, fun x hx hxp => (hmem x).1 (List.mem_filter.2 ⟨hx, hxp⟩)⟩
    | a :: b :: l => rw [hg] at h; cases h

theorem build_single {dir ps : List Str} {f : Str} (hn : dir.Nodup) (hf : f ∈ dir) {p : Str} (hp : p ∈ ps)
    (hpf : globMatch p f = true) (hu : ∀ q ∈ ps, ∀ g ∈ dir, globMatch q g = true → g = f) : buildDatapath dir ps = .ok f := by
  induction ps with
  | nil => cases hp
  | cons q ps ih =>
    have hsub : ∀ x ∈ glob dir q, x = f := fun x hx => by
      have := List.mem_filter.1 hx
      exact hu q (List.mem_cons_self ..) x this.1 this.2
    have hnd : (glob dir q).Nodup := hn.filter _
    unfold buildDatapath
    match hg : glob dir q with
    | [] =>
      simp only
      rcases List.mem_cons.1 hp with rfl | hp
      · have : f ∈ glob dir p := List.mem_filter.2 ⟨hf, hpf⟩
        rw [hg] at this
        cases this
      · exact ih hp (fun q hq => hu q (List.mem_cons_of_mem _ hq))
    | [g] =>
      simp only
      rw [hsub g (by rw [hg]; simp)]
    | a :: b :: l =>
      rw [hg] at hsub hnd
      have h1 := hsub a (by simp)
      have h2 := hsub b (by simp)
      rw [h1, h2] at hnd
      simp at hnd

theorem build_none {dir ps : List Str} (h : ∀ p ∈ ps, ∀ g ∈ dir, globMatch p g = false) :
    buildDatapath dir ps = .error .source := by
  induction ps with
  | nil => rfl
  | cons p ps ih =>
    have : glob dir p = [] := List.filter_eq_nil_iff.2 (fun g hg => by simp [h p (List.mem_cons_self ..) g hg])
    unfold buildDatapath
    rw [this]
    exact ih (fun q hq => h q (List.mem_cons_of_mem _ hq))

variable {order dir : List Str}

theorem stream_eq (n : Int) : stream order dir (.int n) = buildDatapath dir (order.map (fun p => p ++ pad 6 n ++ dotStar)) := rfl

/-- **C62**: a stream cannot be requested by name. -/
theorem c62_stream_text (order dir : List Str) (s : Str) : stream order dir (.str s) = .error .type := rfl

/-- **C62**: the file that is opened for the stream `n` is a file of the directory with one of the prefixes and this number,
and it is the only one with this prefix and this number. -/
theorem c62_stream_found (ho : order.Perm streamPrefixes) {n : Int} {f : Str} (h : stream order dir (.int n) = .ok f) :
    f ∈ dir ∧ ∃ p ∈ streamPrefixes, IsFile 6 p n f ∧ ∀ g ∈ dir, IsFile 6 p n g → g = f := by
  obtain ⟨q, h1, h2, h3, h4⟩ := build_found h
  obtain ⟨p, hp, rfl⟩ := List.mem_map.1 h1
  have hp := ho.mem_iff.1 hp
  have hpl := plain_prefixes p (List.mem_append_left _ hp)
  exact ⟨h2, p, hp, (glob_name hpl 6 n f).1 h3, fun g hg hgf => h4 g hg ((glob_name hpl 6 n g).2 hgf)⟩

/-- **C62**: a single file with this number is opened, in whatever order the prefixes are tried. -/
theorem c62_stream_single (ho : order.Perm streamPrefixes) (hn : dir.Nodup) {n : Int} {p f : Str} (hp : p ∈ streamPrefixes)
    (hf : f ∈ dir) (hpf : IsFile 6 p n f) (hu : ∀ q ∈ streamPrefixes, ∀ g ∈ dir, IsFile 6 q n g → g = f) :
    stream order dir (.int n) = .ok f := by
  refine build_single hn hf (List.mem_map.2 ⟨p, ho.mem_iff.2 hp, rfl⟩)
    ((glob_name (plain_prefixes p (List.mem_append_left _ hp)) 6 n f).2 hpf) (fun q hq g hg hgm => ?_)
  obtain ⟨r, hr, rfl⟩ := List.mem_map.1 hq
  have hr := ho.mem_iff.1 hr
  exact hu r hr g hg ((glob_name (plain_prefixes r (List.mem_append_left _ hr)) 6 n g).1 hgm)

/-- **C62**: without such a file, the search fails. -/
theorem c62_stream_none (ho : order.Perm streamPrefixes) {n : Int}
    (hu : ∀ q ∈ streamPrefixes, ∀ g ∈ dir, ¬ IsFile 6 q n g) : stream order dir (.int n) = .error .source := by
  refine build_none (fun q hq g hg => ?_)
  obtain ⟨r, hr, rfl⟩ := List.mem_map.1 hq
  have hr := ho.mem_iff.1 hr
  have := hu r hr g hg
  rw [← glob_name (plain_prefixes r (List.mem_append_left _ hr))] at this
  simpa using this

/-- **C62**: different numbers never open the same file. -/
theorem c62_stream_distinct {order' : List Str} (ho : order.Perm streamPrefixes) (ho' : order'.Perm streamPrefixes) {n m : Int}
    {f : Str} (h1 : stream order dir (.int n) = .ok f) (h2 : stream order' dir (.int m) = .ok f) : n = m := by
  obtain ⟨_, p, hp, a, _⟩ := c62_stream_found ho h1
  obtain ⟨_, q, hq, b, _⟩ := c62_stream_found ho' h2
  exact (isFile_unique (plain_prefixes p (List.mem_append_left _ hp)) (plain_prefixes q (List.mem_append_left _ hq)) a b).2

/-! ## C62: point observers -/

/-- **C62**: the file that is opened for the point `n` is a file of the directory with one of the prefixes and this number,
and it is the only one with this prefix and this number. -/
theorem c62_point_found (ho : order.Perm pointPrefixes) {n : Int} {f : Str} (h : point order dir (.int n) = .ok f) :
    f ∈ dir ∧ ∃ p ∈ pointPrefixes, IsFile 3 p n f ∧ ∀ g ∈ dir, IsFile 3 p n g → g = f := by
  obtain ⟨q, h1, h2, h3, h4⟩ := build_found h
  obtain ⟨p, hp, rfl⟩ := List.mem_map.1 h1
  have hp := ho.mem_iff.1 hp
  have hpl := plain_prefixes p (List.mem_append_right _ hp)
  exact ⟨h2, p, hp, (glob_name hpl 3 n f).1 h3, fun g hg hgf => h4 g hg ((glob_name hpl 3 n g).2 hgf)⟩

/-- **C62**: a single file with this number is opened. -/
theorem c62_point_single (ho : order.Perm pointPrefixes) (hn : dir.Nodup) {n : Int} {p f : Str} (hp : p ∈ pointPrefixes)
    (hf : f ∈ dir) (hpf : IsFile 3 p n f) (hu : ∀ q ∈ pointPrefixes, ∀ g ∈ dir, IsFile 3 q n g → g = f) :
    point order dir (.int n) = .ok f := by
  refine build_single hn hf (List.mem_map.2 ⟨p, ho.mem_iff.2 hp, rfl⟩)
    ((glob_name (plain_prefixes p (List.mem_append_right _ hp)) 3 n f).2 hpf) (fun q hq g hg hgm => ?_)
  obtain ⟨r, hr, rfl⟩ := List.mem_map.1 hq
  have hr := ho.mem_iff.1 hr
  exact hu r hr g hg ((glob_name (plain_prefixes r (List.mem_append_right _ hr)) 3 n g).1 hgm)

/-- **C62**: different numbers never open the same file. -/
theorem c62_point_distinct {order' : List Str} (ho : order.Perm pointPrefixes) (ho' : order'.Perm pointPrefixes) {n m : Int}
    {f : Str} (h1 : point order dir (.int n) = .ok f) (h2 : point order' dir (.int m) = .ok f) : n = m := by
  obtain ⟨_, p, hp, a, _⟩ := c62_point_found ho h1
  obtain ⟨_, q, hq, b, _⟩ := c62_point_found ho' h2
  exact (isFile_unique (plain_prefixes p (List.mem_append_right _ hp)) (plain_prefixes q (List.mem_append_right _ hq)) a b).2

/-- **C62**: a point given by its name, which is not a number, is the only file with this name before the extension. -/
theorem c62_point_name (hn : dir.Nodup) {name : Str} (hl : Literal name) (hi : pyInt name = none) (f : Str) :
    point order dir (.str name) = .ok f ↔
      f ∈ dir ∧ (∃ ext, f = name ++ '.' :: ext) ∧ ∀ g ∈ dir, (∃ ext, g = name ++ '.' :: ext) → g = f := by
  have e : point order dir (.str name) = buildDatapath dir [name ++ dotStar] := by
    simp only [point, pointPatterns, hi]
    rfl
  rw [e]
  constructor
  · intro h
    obtain ⟨q, h1, h2, h3, h4⟩ := build_found h
    obtain rfl := List.mem_singleton.1 h1
    exact ⟨h2, (glob_dot hl f).1 h3, fun g hg hgf => h4 g hg ((glob_dot hl g).2 hgf)⟩
  · rintro ⟨h1, h2, h3⟩
    refine build_single hn h1 (List.mem_singleton.2 rfl) ((glob_dot hl f).2 h2) (fun q hq g hg hgm => ?_)
    obtain rfl := List.mem_singleton.1 hq
    exact h3 g hg ((glob_dot hl g).1 hgm)

/-! ## C62: `observer` -/

/-- The prefixes of `observer(number)`. -/
def observerPrefixes : List Str := [['o', 'b', 's'], ['f', 'l', 'u', 'x']]

theorem observer_plain : ∀ p ∈ observerPrefixes, Plain p := by decide

/-- **C62**: `observer(n)` opens a file of the directory with one of the prefixes and this number, the only one with this
prefix and this number. -/
theorem c62_observer_found (ho : order.Perm observerPrefixes) {n : Int} {f : Str} (h : observer order dir (.int n) = .ok f) :
    f ∈ dir ∧ ∃ p ∈ observerPrefixes, IsFile 6 p n f ∧ ∀ g ∈ dir, IsFile 6 p n g → g = f := by
  obtain ⟨q, h1, h2, h3, h4⟩ := build_found h
  obtain ⟨p, hp, rfl⟩ := List.mem_map.1 h1
  have hp := ho.mem_iff.1 hp
  have hpl := observer_plain p hp
  exact ⟨h2, p, hp, (glob_name hpl 6 n f).1 h3, fun g hg hgf => h4 g hg ((glob_name hpl 6 n g).2 hgf)⟩

/-- **C62**: a single file with this number is opened by `observer`, in whatever order the prefixes are tried. -/
theorem c62_observer_single (ho : order.Perm observerPrefixes) (hn : dir.Nodup) {n : Int} {p f : Str} (hp : p ∈ observerPrefixes)
    (hf : f ∈ dir) (hpf : IsFile 6 p n f) (hu : ∀ q ∈ observerPrefixes, ∀ g ∈ dir, IsFile 6 q n g → g = f) :
    observer order dir (.int n) = .ok f := by
  refine build_single hn hf (List.mem_map.2 ⟨p, ho.mem_iff.2 hp, rfl⟩)
    ((glob_name (observer_plain p hp) 6 n f).2 hpf) (fun q hq g hg hgm => ?_)
  obtain ⟨r, hr, rfl⟩ := List.mem_map.1 hq
  have hr := ho.mem_iff.1 hr
  exact hu r hr g hg ((glob_name (observer_plain r hr) 6 n g).1 hgm)

/-- **C62**: where the prefixes leave no doubt, `stream(n)` opens the same file as `observer(n)`. -/
theorem c62_observer_stream {order' : List Str} (ho : order.Perm observerPrefixes) (ho' : order'.Perm streamPrefixes)
    (hn : dir.Nodup) {n : Int} {f : Str} (h : observer order dir (.int n) = .ok f)
    (hu : ∀ q ∈ streamPrefixes, ∀ g ∈ dir, IsFile 6 q n g → g = f) : stream order' dir (.int n) = .ok f := by
  obtain ⟨h1, p, hp, h2, _⟩ := c62_observer_found ho h
  refine c62_stream_single ho' hn (p := p) ?_ h1 h2 hu
  simp only [observerPrefixes, List.mem_cons, List.not_mem_nil, or_false] at hp
  rcases hp with rfl | rfl <;> decide

/-- **C62**: `observer(text)` for a text that is a number opens the only file `p_obs` with this number. -/
theorem c62_observer_point (hn : dir.Nodup) {s : Str} {n : Int} (hi : pyInt s = some n) {f : Str} (hf : f ∈ dir)
    (hpf : IsFile 3 ['p', '_', 'o', 'b', 's'] n f) (hu : ∀ g ∈ dir, IsFile 3 ['p', '_', 'o', 'b', 's'] n g → g = f) :
    observer order dir (.str s) = .ok f := by
  have hpl : Plain ['p', '_', 'o', 'b', 's'] := by decide
  have e : glob dir (['p', '_', 'o', 'b', 's'] ++ pad 3 n ++ dotStar) = [f] := by
    have hmem : ∀ g, g ∈ glob dir (['p', '_', 'o', 'b', 's'] ++ pad 3 n ++ dotStar) ↔ g = f := fun g => by
      unfold glob
      rw [List.mem_filter, glob_name hpl]
      exact ⟨fun h => hu g h.1 h.2, by rintro rfl; exact ⟨hf, hpf⟩⟩
    have hnd : (glob dir (['p', '_', 'o', 'b', 's'] ++ pad 3 n ++ dotStar)).Nodup := hn.filter _
    generalize glob dir (['p', '_', 'o', 'b', 's'] ++ pad 3 n ++ dotStar) = l at hmem hnd
    match l with
    | [] => exact absurd ((hmem f).2 rfl) (List.not_mem_nil)
    | [a] => rw [(hmem a).1 (by simp)]
    | a :: b :: l =>
      have h1 := (hmem a).1 (by simp)
      have h2 := (hmem b).1 (by simp)
      rw [h1, h2] at hnd
      simp at hnd
  simp only [observer, hi]
  show buildDatapath dir ((['p', '_', 'o', 'b', 's'] ++ pad 3 n ++ dotStar) :: [s ++ dotStar]) = .ok f
  unfold buildDatapath
  rw [e]

/-- **C62**: `observer(text)` for any other text opens the only file with this name before the extension. -/
theorem c62_observer_name (hn : dir.Nodup) {name : Str} (hl : Literal name) (hi : pyInt name = none) (f : Str) :
    observer order dir (.str name) = .ok f ↔
      f ∈ dir ∧ (∃ ext, f = name ++ '.' :: ext) ∧ ∀ g ∈ dir, (∃ ext, g = name ++ '.' :: ext) → g = f := by
  have e : observer order dir (.str name) = point order dir (.str name) := by
    simp only [point, pointPatterns, observer, hi]
  rw [e]
  exact c62_point_name hn hl hi f

/-! ## C62: identifiers in a dataset -/

/-- The extension of data files. -/
def nc : Str := ['.', 'n', 'c']

theorem lastDot_nc {s : Str} (hs : s ≠ []) : lastDot (s ++ nc) = some s.length := by
  have hlen : 0 < s.length := List.length_pos_iff.2 hs
  have hidx : (s ++ nc).reverse.idxOf '.' = 2 := by
    rw [List.reverse_append]
    rfl
  unfold lastDot
  rw [if_pos (by simp [nc]), hidx]
  simp only
  have e : (s ++ nc).length - 1 - 2 = s.length := by simp [nc]
  rw [e, if_pos ⟨hlen, by simp [nc]⟩]

theorem stem_nc {s : Str} (hs : s ≠ []) : stem (s ++ nc) = s := by
  unfold stem
  rw [lastDot_nc hs]
  simp

/-- Data files are those with the extension `.nc`. -/
theorem suffix_nc (f : Str) : suffix f ∈ viewers ↔ ∃ s, s ≠ [] ∧ f = s ++ nc := by
  constructor
  · intro h
    unfold suffix at h
    cases hd : lastDot f with
    | none => rw [hd] at h; exact absurd (show ([] : Str) ∈ viewers from h) (by decide)
    | some i =>
      rw [hd] at h
      simp only at h
      unfold lastDot at hd
      by_cases hm : '.' ∈ f
      · rw [if_pos hm] at hd
        simp only at hd
        set k := f.reverse.idxOf '.' with hk
        have hklt : k < f.reverse.length := List.idxOf_lt_length_of_mem (List.mem_reverse.2 hm)
        have hkv : f.reverse[k] = '.' := List.getElem_idxOf hklt
        by_cases hc : 0 < f.length - 1 - k ∧ f.length - 1 - k < f.length - 1
        · rw [if_pos hc] at hd
          obtain rfl := Option.some.inj hd
          rw [List.getElem_reverse] at hkv
          rw [List.drop_eq_getElem_cons (by omega), hkv] at h
          have hv : ∀ r : Str, '.' :: r ∈ viewers → r = ['n', 'c'] := by
            intro r hr
            simp only [viewers, List.mem_cons, List.cons.injEq, List.not_mem_nil, or_false] at hr
            rcases hr with ⟨_, h⟩ | ⟨h, _⟩ | ⟨h, _⟩ | ⟨h, _⟩
            · exact h
            all_goals exact absurd h (by decide)
          refine ⟨f.take (f.length - 1 - k), by simp; constructor <;> [omega; (rintro rfl; simp at hm)], ?_⟩
          conv_lhs => rw [← List.take_append_drop (f.length - 1 - k) f]
          rw [List.drop_eq_getElem_cons (by omega), hkv, hv _ h]
          rfl
        · rw [if_neg hc] at hd; cases hd
      · rw [if_neg hm] at hd; cases hd
  · rintro ⟨s, hs, rfl⟩
    unfold suffix
    rw [lastDot_nc hs]
    simp [nc, viewers]

theorem prefix_free : ∀ p ∈ streamPrefixes ++ pointPrefixes, ∀ q ∈ streamPrefixes ++ pointPrefixes,
    p.isPrefixOf q = true → p = q := by decide

theorem prefix_one {p q s : Str} (hp : p ∈ streamPrefixes ++ pointPrefixes) (hq : q ∈ streamPrefixes ++ pointPrefixes)
    (h1 : p <+: s) (h2 : q <+: s) : p = q := by
  rcases List.prefix_or_prefix_of_prefix h1 h2 with h | h
  · exact prefix_free p hp q hq (List.isPrefixOf_iff_prefix.2 h)
  · exact (prefix_free q hq p hp (List.isPrefixOf_iff_prefix.2 h)).symm

theorem observerId_prefix {p name : Str} (ho : ∀ q ∈ order, q ∈ streamPrefixes ++ pointPrefixes) (hp : p ∈ order)
    (h : p <+: stem name) : observerId order name =
      if p ∈ streamPrefixes then match pyInt (lstrip (stem name) p) with
        | some n => .ok (.int n)
        | none => .error .value
      else .ok (.str (lstrip (stem name) p)) := by
  induction order with
  | nil => cases hp
  | cons q qs ih =>
    unfold observerId
    by_cases hq : q.isPrefixOf (stem name) = true
    · rw [if_pos hq]
      have e := prefix_one (ho q (List.mem_cons_self ..)) (ho p hp) (List.isPrefixOf_iff_prefix.1 hq) h
      subst e
      rfl
    · rw [if_neg hq]
      rcases List.mem_cons.1 hp with rfl | hp
      · exact absurd (List.isPrefixOf_iff_prefix.2 h) hq
      · exact ih (fun q hq => ho q (List.mem_cons_of_mem _ hq)) hp

theorem point_ne : ∀ p ∈ pointPrefixes, p ≠ [] := by decide

theorem dropWhile_all {q : Char → Bool} : ∀ {l : Str}, (∀ c ∈ l, q c = true) → l.dropWhile q = []
  | [], _ => rfl
  | c :: l, h => by
    rw [List.dropWhile_cons_of_pos (h c (List.mem_cons_self ..))]
    exact dropWhile_all (fun d hd => h d (List.mem_cons_of_mem _ hd))

theorem lstrip_prefix {p key : Str} (h : ∀ c, key.head? = some c → c ∉ p) : lstrip (p ++ key) p = key := by
  unfold lstrip
  rw [List.dropWhile_append]
  have : p.dropWhile (fun c => decide (c ∈ p)) = [] := dropWhile_all (fun c hc => by simp [hc])
  rw [this]
  simp only [List.isEmpty_nil, if_true]
  cases key with
  | nil => rfl
  | cons c k => rw [List.dropWhile_cons_of_neg]; simp [h c rfl]

theorem digit_notin {p : Str} (hp : Plain p) {w : Nat} {n : Int} : ∀ c, (pad w n).head? = some c → c ∉ p := by
  intro c hc hm
  rcases pad_chars (List.mem_of_mem_head? hc) with h | h
  · exact (hp c hm).2.2.2.1 h
  · rw [(hp c hm).2.2.2.2] at h; cases h

theorem stream_not_point : ∀ p ∈ pointPrefixes, p ∉ streamPrefixes := by decide

/-- **C62**: the identifier of a stream file is its number, in whatever order the prefixes are tried. -/
theorem c62_stream_id (ho : order.Perm (streamPrefixes ++ pointPrefixes)) {p : Str} (hp : p ∈ streamPrefixes) (n : Int) :
    observerId order (p ++ pad 6 n ++ nc) = .ok (.int n) := by
  have hpl := plain_prefixes p (List.mem_append_left _ hp)
  have hs : stem (p ++ pad 6 n ++ nc) = p ++ pad 6 n := stem_nc (by simp [pad_ne])
  rw [observerId_prefix (p := p) (fun q hq => ho.mem_iff.1 hq) (ho.mem_iff.2 (List.mem_append_left _ hp))
    (by rw [hs]; exact List.prefix_append ..), if_pos hp, hs, lstrip_prefix (digit_notin hpl), pyInt_pad]

/-- **C62**: the identifier of a point file is what follows the prefix, provided that its first letter is not one of the
letters of the prefix (`c62_not_point_id`). -/
theorem c62_point_id (ho : order.Perm (streamPrefixes ++ pointPrefixes)) {p : Str} (hp : p ∈ pointPrefixes) {key : Str}
    (hk : ∀ c, key.head? = some c → c ∉ p) : observerId order (p ++ key ++ nc) = .ok (.str key) := by
  have hne : p ≠ [] := point_ne p hp
  have hs : stem (p ++ key ++ nc) = p ++ key := stem_nc (by simp [hne])
  rw [observerId_prefix (p := p) (fun q hq => ho.mem_iff.1 hq) (ho.mem_iff.2 (List.mem_append_right _ hp))
    (by rw [hs]; exact List.prefix_append ..), if_neg (stream_not_point p hp), hs, lstrip_prefix hk]

theorem collect_ok {key : Str → Id} : ∀ {fs : List Str} {d : Dict Id Str}, (∀ f ∈ fs, observerId order f = .ok (key f)) →
    (∀ f ∈ fs, ∀ g ∈ fs, key f = key g → f = g) → ∃ d', collect order fs d = .ok d' ∧
      ∀ k f, d'.get? k = some f ↔ (f ∈ fs ∧ key f = k) ∨ ((∀ g ∈ fs, key g ≠ k) ∧ d.get? k = some f)
  | [], d, _, _ => ⟨d, rfl, fun k f => by simp⟩
  | f :: fs, d, h, hi => by
    obtain ⟨d', h1, h2⟩ := collect_ok (d := d.set (key f) f) (fun g hg => h g (List.mem_cons_of_mem _ hg))
      (fun a ha b hb => hi a (List.mem_cons_of_mem _ ha) b (List.mem_cons_of_mem _ hb))
    refine ⟨d', ?_, fun k g => ?_⟩
    · unfold collect
      rw [h f (List.mem_cons_self ..)]
      exact h1
    · rw [h2, Dict.get?_set]
      constructor
      · rintro (⟨a, b⟩ | ⟨a, b⟩)
        · exact .inl ⟨List.mem_cons_of_mem _ a, b⟩
        · by_cases e : key f = k
          · rw [if_pos e] at b
            cases b
            exact .inl ⟨List.mem_cons_self .., e⟩
          · rw [if_neg e] at b
            refine .inr ⟨fun x hx => ?_, b⟩
            rcases List.mem_cons.1 hx with rfl | hx
            · exact e
            · exact a x hx
      · rintro (⟨a, b⟩ | ⟨a, b⟩)
        · rcases List.mem_cons.1 a with rfl | a
          · by_cases hx : ∃ x ∈ fs, key x = k
            · obtain ⟨x, hx, e⟩ := hx
              have := hi x (List.mem_cons_of_mem _ hx) g (List.mem_cons_self ..) (e.trans b.symm)
              subst this
              exact .inl ⟨hx, e⟩
            · refine .inr ⟨fun x hx' e => hx ⟨x, hx', e⟩, ?_⟩
              rw [if_pos b]
          · exact .inl ⟨a, b⟩
        · refine .inr ⟨fun x hx => a x (List.mem_cons_of_mem _ hx), ?_⟩
          rw [if_neg (a f (List.mem_cons_self ..))]
          exact b

theorem mem_obspaths {prefixes : List Str} (hp : ∀ p ∈ prefixes, Plain p) (f : Str) :
    f ∈ obspaths prefixes dir ↔ f ∈ dir ∧ ∃ p ∈ prefixes, p <+: f ∧ ∃ s, s ≠ [] ∧ f = s ++ nc := by
  unfold obspaths glob
  simp only [List.mem_flatMap, List.mem_filter, decide_eq_true_eq, suffix_nc]
  constructor
  · rintro ⟨p, h1, ⟨h2, h3⟩, h4⟩
    obtain ⟨r, rfl⟩ := (glob_star (fun c hc => ⟨(hp p h1 c hc).1, (hp p h1 c hc).2.1⟩) f).1 h3
    exact ⟨h2, p, h1, List.prefix_append .., h4⟩
  · rintro ⟨h1, p, h2, ⟨r, rfl⟩, h4⟩
    exact ⟨p, h2, ⟨h1, (glob_star (fun c hc => ⟨(hp p h2 c hc).1, (hp p h2 c hc).2.1⟩) _).2 ⟨r, rfl⟩⟩, h4⟩

/-- **C62**: where every data file with the prefix of a stream has a number, and different files have different numbers, the
streams of the dataset are these files, by their numbers. -/
theorem c62_dataset_streams {prefixes : List Str} (ho : order.Perm (streamPrefixes ++ pointPrefixes))
    (hpre : prefixes.Perm streamPrefixes)
    (hall : ∀ p ∈ streamPrefixes, ∀ s, p ++ s ++ nc ∈ dir → ∃ n, s = pad 6 n)
    (hone : ∀ p ∈ streamPrefixes, ∀ q ∈ streamPrefixes, ∀ n, p ++ pad 6 n ++ nc ∈ dir → q ++ pad 6 n ++ nc ∈ dir → p = q) :
    ∃ d, observers order prefixes dir = .ok d ∧ ∀ k f, d.get? k = some f ↔
      ∃ n, k = .int n ∧ f ∈ dir ∧ ∃ p ∈ streamPrefixes, f = p ++ pad 6 n ++ nc := by
  have hpl : ∀ p ∈ prefixes, Plain p := fun p hp => plain_prefixes p (List.mem_append_left _ (hpre.mem_iff.1 hp))
  have hform : ∀ f ∈ obspaths prefixes dir, ∃ p ∈ streamPrefixes, ∃ n, f = p ++ pad 6 n ++ nc := by
    intro f hf
    obtain ⟨h1, p, hp, ⟨r, hr⟩, s, hs, hf'⟩ := (mem_obspaths hpl f).1 hf
    have hp' := hpre.mem_iff.1 hp
    have hps : p <+: s := by
      have a : p <+: s ++ nc := hf' ▸ ⟨r, hr⟩
      rcases List.prefix_or_prefix_of_prefix a (List.prefix_append s nc) with h | ⟨t, ht⟩
      · exact h
      · -- the prefix does not contain a dot
        subst ht
        cases t with
        | nil => simp
        | cons c t =>
          exfalso
          have : c = '.' := by
            obtain ⟨r', hr'⟩ := a
            rw [List.append_assoc] at hr'
            have h3 := List.append_cancel_left hr'
            simp only [nc, List.cons_append, List.cons.injEq] at h3
            exact h3.1
          exact (hpl _ hp c (by simp)).2.2.1 this
    obtain ⟨t, rfl⟩ := hps
    obtain ⟨n, rfl⟩ := hall p hp' t (hf' ▸ h1)
    exact ⟨p, hp', n, hf'⟩
  let key : Str → Id := fun f => match observerId order f with
    | .ok k => k
    | .error _ => .int 0
  have hkey : ∀ p ∈ streamPrefixes, ∀ n, key (p ++ pad 6 n ++ nc) = .int n := by
    intro p hp n
    show (match observerId order (p ++ pad 6 n ++ nc) with
      | .ok k => k
      | .error _ => .int 0) = _
    rw [c62_stream_id ho hp]
  obtain ⟨d, h1, h2⟩ := collect_ok (order := order) (key := key) (fs := obspaths prefixes dir) (d := []) (fun f hf => by
      obtain ⟨p, hp, n, rfl⟩ := hform f hf
      rw [hkey p hp, c62_stream_id ho hp]) (fun f hf g hg e => by
      have hfd := ((mem_obspaths hpl f).1 hf).1
      have hgd := ((mem_obspaths hpl g).1 hg).1
      obtain ⟨p, hp, n, rfl⟩ := hform f hf
      obtain ⟨q, hq, m, rfl⟩ := hform g hg
      rw [hkey p hp, hkey q hq] at e
      cases e
      rw [hone p hp q hq n hfd hgd])
  refine ⟨d, h1, fun k f => ?_⟩
  rw [h2]
  constructor
  · rintro (⟨a, b⟩ | ⟨_, b⟩)
    · have hfd := ((mem_obspaths hpl f).1 a).1
      obtain ⟨p, hp, n, rfl⟩ := hform f a
      rw [hkey p hp] at b
      exact ⟨n, b.symm, hfd, p, hp, rfl⟩
    · cases b
  · rintro ⟨n, rfl, h3, p, hp, rfl⟩
    refine .inl ⟨(mem_obspaths hpl _).2 ⟨h3, p, hpre.mem_iff.2 hp, ?_, p ++ pad 6 n, by simp [pad_ne], rfl⟩, hkey p hp n⟩
    rw [List.append_assoc]
    exact List.prefix_append ..

/-! ## Violations -/

deriving instance DecidableEq for Except

/-- The order of the prefixes in the source code. -/
def allPrefixes : List Str := streamPrefixes ++ pointPrefixes

/-- **C62 is violated**: with `obs000001.nc` and `flux000001.nc` in the directory, the file for the stream 1 depends on the
order of a set. -/
theorem c62_not_single : let a := "obs000001.nc".toList; let b := "flux000001.nc".toList
    stream [['s', 't', 'r', 'e', 'a', 'm'], ['o', 'b', 's'], ['f', 'l', 'u', 'x']] [a, b] (.int 1) = .ok a ∧
    stream [['s', 't', 'r', 'e', 'a', 'm'], ['f', 'l', 'u', 'x'], ['o', 'b', 's']] [a, b] (.int 1) = .ok b := by
  decide +kernel

/-- **C62 is violated**: these two files have the same identifier in a dataset, so that one of them is lost. -/
theorem c62_not_stream_id : observers allPrefixes streamPrefixes ["obs000001.nc".toList, "flux000001.nc".toList] =
    .ok [(.int 1, "flux000001.nc".toList)] := by
  decide +kernel

/-- **C62 is violated**: the points `north` and `orth` have the same identifier, because the letters of the prefix are
removed one by one. -/
theorem c62_not_point_id : observerId allPrefixes "pointnorth.nc".toList = .ok (.str "rth".toList) ∧
    observers allPrefixes pointPrefixes ["pointnorth.nc".toList, "pointorth.nc".toList] =
      .ok [(.str "rth".toList, "pointorth.nc".toList)] := by
  decide +kernel

/-- **C62 is violated**: one other data file whose name begins like that of a stream hides all streams. -/
theorem c62_not_stray : observers allPrefixes streamPrefixes ["obs000001.nc".toList, "observed.nc".toList] = .error .value := by
  decide +kernel

/-- **C62 is violated**: the identifier of a point in a dataset does not open the point. -/
theorem c62_not_point_key : observers allPrefixes pointPrefixes ["pointearth.nc".toList] =
      .ok [(.str "earth".toList, "pointearth.nc".toList)] ∧
    point pointPrefixes ["pointearth.nc".toList] (.str "earth".toList) = .error .source := by
  decide +kernel

/-- **C62 is violated**: `stream(1)` finds the file `stream000001.nc`, but `observer(1)` does not; and `point('3')` finds the
file `point003.nc`, but `observer('3')` does not. -/
theorem c62_not_observer :
    stream streamPrefixes ["stream000001.nc".toList] (.int 1) = .ok "stream000001.nc".toList ∧
    observer observerPrefixes ["stream000001.nc".toList] (.int 1) = .error .source ∧
    point pointPrefixes ["point003.nc".toList] (.str ['3']) = .ok "point003.nc".toList ∧
    observer observerPrefixes ["point003.nc".toList] (.str ['3']) = .error .source := by
  decide +kernel

/-- a directory for `observer` -/
example : let dir := ["obs000000.nc".toList, "flux000012.nc".toList, "p_obs003.nc".toList, "earth.nc".toList]
    observer observerPrefixes dir (.int 12) = .ok "flux000012.nc".toList ∧
    observer observerPrefixes dir (.str ['3']) = .ok "p_obs003.nc".toList ∧
    observer observerPrefixes dir (.str "earth".toList) = .ok "earth.nc".toList := by
  decide +kernel

/-- a directory with two streams, a point, and other files -/
example : let dir := ["obs000000.nc".toList, "flux000012.nc".toList, "p_obs003.nc".toList, "eprem.cfg".toList]
    stream streamPrefixes dir (.int 12) = .ok "flux000012.nc".toList ∧
    point pointPrefixes dir (.str ['3']) = .ok "p_obs003.nc".toList ∧
    observers allPrefixes streamPrefixes dir = .ok [(.int 0, "obs000000.nc".toList), (.int 12, "flux000012.nc".toList)] ∧
    observers allPrefixes pointPrefixes dir = .ok [(.str "003".toList, "p_obs003.nc".toList)] := by
  decide +kernel

/-- the hypotheses of `c62_dataset_streams` -/
example : let dir := ["obs000000.nc".toList, "flux000012.nc".toList]
    (∀ p ∈ streamPrefixes, ∀ s, p ++ s ++ nc ∈ dir → ∃ n, s = pad 6 n) := by
  intro dir p hp s h
  simp only [streamPrefixes, List.mem_cons, List.not_mem_nil, or_false] at hp
  have e0 : "obs000000.nc".toList = ['o', 'b', 's'] ++ pad 6 0 ++ nc := by decide +kernel
  have e1 : "flux000012.nc".toList = ['f', 'l', 'u', 'x'] ++ pad 6 12 ++ nc := by decide +kernel
  have h : p ++ s ++ nc = "obs000000.nc".toList ∨ p ++ s ++ nc = "flux000012.nc".toList := by simpa [dir] using h
  rw [e0, e1] at h
  have hd : ∀ q : Str, p ++ s ++ nc = q ++ nc → p ++ s = q := fun q h => List.append_cancel_right h
  rcases h with h | h
  · have := hd _ h
    rcases hp with rfl | rfl | rfl
    · exact absurd this (by simp)
    · exact ⟨0, List.append_cancel_left this⟩
    · exact absurd this (by simp)
  · have := hd _ h
    rcases hp with rfl | rfl | rfl
    · exact absurd this (by simp)
    · exact absurd this (by simp)
    · exact ⟨12, List.append_cancel_left this⟩

/-! ## C79: configuration files -/

theorem globMatch_self {l : Str} (hl : Literal l) (f : Str) : globMatch l f = true ↔ f = l := by
  have := globMatch_literal hl [] f
  rw [List.append_nil] at this
  rw [this]
  constructor
  · rintro ⟨r, rfl, h⟩
    cases r with
    | nil => simp
    | cons => cases h
  · rintro rfl; exact ⟨[], by simp, rfl⟩

/-- The files that match `*text`. -/
theorem glob_ext {l : Str} (hl : Literal l) (f : Str) : globMatch ('*' :: l) f = true ↔ ∃ s, f = s ++ l := by
  show f.tails.any (globMatch l) = true ↔ _
  rw [List.any_eq_true]
  constructor
  · rintro ⟨r, h1, h2⟩
    obtain ⟨s, rfl⟩ := (List.mem_tails r f).1 h1
    rw [(globMatch_self hl r).1 h2]
    exact ⟨s, rfl⟩
  · rintro ⟨s, rfl⟩
    exact ⟨l, (List.mem_tails _ _).2 (List.suffix_append ..), (globMatch_self hl l).2 rfl⟩

/-- `f` has the usual name of a configuration file; or else one of these extensions, where the earlier ones have priority. -/
def Best (dir : List Str) (f : Str) : Prop :=
  let E := fun (e g : Str) => ∃ s, g = s ++ e
  f ∈ dir ∧ (f = "eprem_input_file".toList ∨ "eprem_input_file".toList ∉ dir ∧ (E ".cfg".toList f ∨
    (∀ g ∈ dir, ¬ E ".cfg".toList g) ∧ (E ".ini".toList f ∨ (∀ g ∈ dir, ¬ E ".ini".toList g) ∧ E ".in".toList f)))

theorem guess_iff (dir ps : List Str) (f : Str) (h : guessConfig dir ps = .ok f) :
    ∃ pre p post, ps = pre ++ p :: post ∧ (∀ q ∈ pre, ∀ g ∈ dir, globMatch q g = false) ∧ f ∈ dir ∧ globMatch p f = true := by
  induction ps with
  | nil => cases h
  | cons p ps ih =>
    unfold guessConfig at h
    cases hg : glob dir p with
    | nil =>
      rw [hg] at h
      obtain ⟨pre, q, post, rfl, h1, h2⟩ := ih h
      refine ⟨p :: pre, q, post, rfl, fun x hx g hgd => ?_, h2⟩
      rcases List.mem_cons.1 hx with rfl | hx
      · simpa using List.filter_eq_nil_iff.1 hg g hgd
      · exact h1 x hx g hgd
    | cons g l =>
      rw [hg] at h
      cases h
      have := List.mem_filter.1 (show f ∈ glob dir p by rw [hg]; simp)
      exact ⟨[], p, ps, rfl, fun _ h => absurd h (List.not_mem_nil), this.1, this.2⟩

theorem guess_error (dir ps : List Str) {e : OErr} (h : guessConfig dir ps = .error e) :
    ∀ p ∈ ps, ∀ g ∈ dir, globMatch p g = false := by
  induction ps with
  | nil => intro p hp; cases hp
  | cons p ps ih =>
    unfold guessConfig at h
    cases hg : glob dir p with
    | nil =>
      rw [hg] at h
      intro x hx g hgd
      rcases List.mem_cons.1 hx with rfl | hx
      · simpa using List.filter_eq_nil_iff.1 hg g hgd
      · exact ih h x hx g hgd
    | cons g l => rw [hg] at h; cases h

theorem lit0 : Literal "eprem_input_file".toList := by unfold Literal; decide
theorem lit1 : Literal ".cfg".toList := by unfold Literal; decide
theorem lit2 : Literal ".ini".toList := by unfold Literal; decide
theorem lit3 : Literal ".in".toList := by unfold Literal; decide

/-- **C79**: without a name, a file with the best name in the directory is chosen. -/
theorem c79_guess {path : Str} {dir : List Str} {full : Str → Option Str} {r : Str}
    (h : buildConfpath path dir full none = .ok r) : ∃ f, r = path ++ '/' :: f ∧ Best dir f := by
  unfold buildConfpath at h
  cases hg : guessConfig dir configNames with
  | error e => rw [hg] at h; cases h
  | ok f =>
    rw [hg] at h
    cases h
    refine ⟨f, rfl, ?_⟩
    obtain ⟨pre, p, post, e, h1, h2, h3⟩ := guess_iff _ _ _ hg
    have g0 := fun x => globMatch_self lit0 x
    have g1 : ∀ x, globMatch "*.cfg".toList x = true ↔ _ := fun x => glob_ext lit1 x
    have g2 : ∀ x, globMatch "*.ini".toList x = true ↔ _ := fun x => glob_ext lit2 x
    have g3 : ∀ x, globMatch "*.in".toList x = true ↔ _ := fun x => glob_ext lit3 x
    refine ⟨h2, ?_⟩
    simp only
    rcases pre with _ | ⟨a, _ | ⟨b, _ | ⟨c, _ | ⟨d, pre⟩⟩⟩⟩
    · obtain ⟨rfl, -⟩ : "eprem_input_file".toList = p ∧ _ := by simpa [configNames] using e
      exact .inl ((g0 f).1 h3)
    · obtain ⟨rfl, rfl, -⟩ : "eprem_input_file".toList = a ∧ "*.cfg".toList = p ∧ _ := by simpa [configNames] using e
      refine .inr ⟨fun hm => ?_, .inl ((g1 f).1 h3)⟩
      have := h1 "eprem_input_file".toList (by simp) _ hm
      rw [(g0 _).2 rfl] at this
      cases this
    · obtain ⟨rfl, rfl, rfl, -⟩ : "eprem_input_file".toList = a ∧ "*.cfg".toList = b ∧ "*.ini".toList = p ∧ _ := by
        simpa [configNames] using e
      refine .inr ⟨fun hm => ?_, .inr ⟨fun g hg hc => ?_, .inl ((g2 f).1 h3)⟩⟩
      · have := h1 "eprem_input_file".toList (by simp) _ hm
        rw [(g0 _).2 rfl] at this
        cases this
      · have := h1 "*.cfg".toList (by simp) g hg
        rw [(g1 g).2 hc] at this
        cases this
    · obtain ⟨rfl, rfl, rfl, rfl, -⟩ : "eprem_input_file".toList = a ∧ "*.cfg".toList = b ∧ "*.ini".toList = c ∧
          "*.in".toList = p ∧ _ := by
        simpa [configNames] using e
      refine .inr ⟨fun hm => ?_, .inr ⟨fun g hg hc => ?_, .inr ⟨fun g hg hc => ?_, (g3 f).1 h3⟩⟩⟩
      · have := h1 "eprem_input_file".toList (by simp) _ hm
        rw [(g0 _).2 rfl] at this
        cases this
      · have := h1 "*.cfg".toList (by simp) g hg
        rw [(g1 g).2 hc] at this
        cases this
      · have := h1 "*.ini".toList (by simp) g hg
        rw [(g2 g).2 hc] at this
        cases this
    · have := congrArg List.length e
      simp [configNames] at this

/-- **C79**: the search fails only if there is no such file. -/
theorem c79_none {path : Str} {dir : List Str} {full : Str → Option Str} {e : OErr}
    (h : buildConfpath path dir full none = .error e) : ∀ f, ¬ Best dir f := by
  unfold buildConfpath at h
  cases hg : guessConfig dir configNames with
  | ok f => rw [hg] at h; cases h
  | error e =>
    have hn := guess_error _ _ hg
    rintro f ⟨hf, hb⟩
    have k : ∀ p ∈ configNames, globMatch p f = true → False := fun p hp h => by
      rw [hn p hp f hf] at h; cases h
    simp only at hb
    rcases hb with rfl | ⟨_, hb | ⟨_, hb | ⟨_, hb⟩⟩⟩
    · exact k _ (by simp [configNames]) ((globMatch_self lit0 _).2 rfl)
    · exact k "*.cfg".toList (by simp [configNames]) ((glob_ext lit1 f).2 hb)
    · exact k "*.ini".toList (by simp [configNames]) ((glob_ext lit2 f).2 hb)
    · exact k "*.in".toList (by simp [configNames]) ((glob_ext lit3 f).2 hb)

/-- **C79**: if only one file has the best name, the order of the directory does not matter. -/
theorem c79_single {path : Str} {dir : List Str} {full : Str → Option Str} {f : Str} (hf : Best dir f)
    (hu : ∀ g, Best dir g → g = f) : buildConfpath path dir full none = .ok (path ++ '/' :: f) := by
  cases h : buildConfpath path dir full none with
  | error e => exact absurd hf (c79_none h f)
  | ok r =>
    obtain ⟨g, rfl, hg⟩ := c79_guess h
    rw [hu g hg]

/-- **C79**: a name means the file with this name in the directory, and it must exist. -/
theorem c79_name (path : Str) (dir : List Str) (full : Str → Option Str) (c : Str) (hc : '/' ∉ c) :
    buildConfpath path dir full (some c) = if c ∈ dir then .ok (path ++ '/' :: c) else .error .value :=
  if_neg hc

/-- **C79**: any other path means the file itself, and it must exist. -/
theorem c79_path (path : Str) (dir : List Str) (full : Str → Option Str) (c : Str) (hc : '/' ∈ c) :
    (∀ p, full c = some p → buildConfpath path dir full (some c) = .ok p) ∧
    (full c = none → buildConfpath path dir full (some c) = .error .source) := by
  constructor
  · intro p hp
    refine (if_pos hc).trans ?_
    rw [hp]
  · intro hp
    refine (if_pos hc).trans ?_
    rw [hp]

/-- **C79 is violated**: with two files of the same kind, the choice depends on the order of the directory. -/
theorem c79_not_order : let a := "old.cfg".toList; let b := "new.cfg".toList
    guessConfig [a, b] configNames = .ok a ∧ guessConfig [b, a] configNames = .ok b := by
  decide +kernel

/-- a directory with one configuration file -/
example : guessConfig ["obs000000.nc".toList, "run.ini".toList] configNames = .ok "run.ini".toList := by decide +kernel

end Eprem.Observer
