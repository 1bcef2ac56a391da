import Verif.Props.Helpers
import Verif.Lemmas.PyDict

/-!
# C122: lists of words, widest types and sentinels
-/

namespace Eprem.Helpers

theorem commas_eq (l : List Str) : commas l = ", ".toList.intercalate l := by
  induction l with
  | nil => rfl
  | cons x l ih =>
    cases l with
    | nil => simp [commas, List.intercalate]
    | cons y l =>
      rw [commas, ih]
      · simp [List.intercalate, List.intersperse]
      · exact List.cons_ne_nil _ _

/-- C122: `join` gives a single item alone, puts the conjunction between two, and separates more by commas, with the
conjunction before the last; without items it fails. -/
theorem c122_join {α : Type} (f : α → Str) (c : Str) (a b : α) (l : List α) (h : 2 ≤ l.length) :
    join f c [a] = some (f a) ∧ join f c [a, b] = some (f a ++ " ".toList ++ c ++ " ".toList ++ f b) ∧
      join f c (l ++ [b]) =
        some (", ".toList.intercalate (l.map f) ++ ", ".toList ++ c ++ " ".toList ++ f b) ∧
      join f c [] = none := by
  refine ⟨rfl, rfl, ?_, rfl⟩
  unfold join
  split
  · next x hx =>
    have hl := congrArg List.length hx
    rw [List.length_append, List.length_singleton, List.length_singleton] at hl
    omega
  · next x y hx =>
    have hl := congrArg List.length hx
    rw [List.length_append, List.length_singleton, List.length_cons, List.length_singleton] at hl
    omega
  · simp [commas_eq]

example : join id "or".toList ["x".toList, "y".toList, "z".toList] = some "x, y, or z".toList := by decide +kernel

/-- C122: whatever the items and the conjunction, the joined text holds the text of each item. -/
theorem c122_join_holds {α : Type} (f : α → Str) (c : Str) (l : List α) (t : Str) (h : join f c l = some t) (x : α) (hx : x ∈ l) :
    ∃ p s, t = p ++ f x ++ s := by
  have hcommas : ∀ m : List α, x ∈ m → ∃ p s, commas (m.map f) = p ++ f x ++ s := by
    intro m
    induction m with
    | nil => intro h; cases h
    | cons y m ih =>
      intro hy
      cases m with
      | nil =>
        rcases List.mem_cons.1 hy with rfl | hy
        · exact ⟨[], [], by simp [commas]⟩
        · cases hy
      | cons z m =>
        simp only [List.map_cons, commas]
        rcases List.mem_cons.1 hy with rfl | hy
        · exact ⟨[], _, (List.append_assoc _ _ _)⟩
        · obtain ⟨p, s, hps⟩ := ih hy
          simp only [List.map_cons] at hps
          exact ⟨f y ++ ", ".toList ++ p, s, by rw [hps]; simp⟩
  unfold join at h
  split at h
  · next a =>
    cases h
    cases List.mem_singleton.1 hx
    exact ⟨[], [], by simp⟩
  · next a b =>
    cases h
    rcases List.mem_cons.1 hx with rfl | hx
    · exact ⟨[], " ".toList ++ c ++ " ".toList ++ f b, by simp⟩
    · cases List.mem_singleton.1 hx
      exact ⟨f a ++ " ".toList ++ c ++ " ".toList, [], by simp⟩
  · cases hl : l.getLast? with
    | none =>
      rw [List.getLast?_eq_none_iff.1 hl] at hx
      cases hx
    | some b =>
      rw [hl] at h
      cases h
      have hsplit : l.dropLast ++ [b] = l := List.dropLast_append_getLast? b hl
      rw [← hsplit] at hx
      rcases List.mem_append.1 hx with hx | hx
      · obtain ⟨p, s, hps⟩ := hcommas _ hx
        exact ⟨p, s ++ (", ".toList ++ c ++ " ".toList ++ f b), by rw [hps]; simp⟩
      · cases List.mem_singleton.1 hx
        exact ⟨commas (l.dropLast.map f) ++ ", ".toList ++ c ++ " ".toList, [], by simp⟩

example : ∃ p s, "x, y, or z".toList = p ++ "y".toList ++ s :=
  c122_join_holds id "or".toList ["x".toList, "y".toList, "z".toList] _ (by decide +kernel) "y".toList (by simp)

/-- C122: `allisinstance` tells whether all of some objects are of the types; it refuses none. -/
theorem c122_all (types : List Kind) (l : List Py) :
    (allIsInstance types l = none ↔ l = []) ∧
      (allIsInstance types l = some true ↔ l ≠ [] ∧ ∀ x ∈ l, ∃ t ∈ types, x.kind.sub t = true) := by
  cases l with
  | nil => simp [allIsInstance]
  | cons x l => simp [allIsInstance, isInstance]

example : allIsInstance [.int, .str] [.bool true, .str ['a']] = some true := rfl

/-! ## `widest` -/

variable {T : Type} [DecidableEq T]

/-- C122, violated: of two related types `widest` gives the *narrower*: one that is a subtype of both.  Types that are not
related are refused. -/
theorem c122_widest_partial (sub : T → T → Bool) (hr : ∀ t, sub t t = true) (a b : T) :
    (∀ r, widest sub a b none = .ok r → (r = a ∨ r = b) ∧ sub r a = true ∧ sub r b = true) ∧
      (widest sub a b none = .error .valueError ↔ sub a b = false ∧ sub b a = false) := by
  unfold widest
  by_cases h : a = b
  · subst h
    simp [hr]
  · by_cases h1 : sub a b = true
    · simp [h, h1, hr]
    · by_cases h2 : sub b a = true
      · simp [h, h1, h2, hr]
      · simp [h, h1, h2]

example : widest Kind.sub .bool .int none = .ok .bool := rfl

/-- C122, violated: it is not the case that both arguments of `widest` are of the type that it gives. -/
theorem c122_widest_not :
    ¬ ∀ a b r : Kind, widest Kind.sub a b none = .ok r → a.sub r = true ∧ b.sub r = true := by
  intro h
  have := (h .bool .int .bool rfl).2
  cases this

/-- C122: with a base type, unrelated subtypes of it give the base type, and anything that is no subtype of it is refused. -/
theorem c122_widest_base (sub : T → T → Bool) (hr : ∀ t, sub t t = true) (a b c : T) :
    (widest sub a b (some c) = .error .typeError ↔ sub a c = false ∨ sub b c = false) ∧
      (sub a c = true → sub b c = true → sub a b = false → sub b a = false → widest sub a b (some c) = .ok c) ∧
      (sub a c = true → sub b c = true → sub a b = true ∨ sub b a = true → widest sub a b (some c) = widest sub a b none) := by
  unfold widest
  dsimp only
  by_cases h : a = b
  · subst h
    have hr := hr a
    cases h1 : sub a c <;> simp [hr]
  · cases sub a c <;> cases sub b c <;> cases sub a b <;> cases sub b a <;> simp [h]

example : widest Kind.sub .int .int (some .str) = .error .typeError := rfl

/-! ## Sentinels -/

/-- The sentinels that a sequence of calls gives. -/
def calls (s : Created) : List (Str × Value) → List Sentinel
  | [] => []
  | r :: rs => (sentinel s r.1 r.2).2 :: calls (sentinel s r.1 r.2).1 rs

theorem sentinel_fresh (s : Created) (name : Str) (v : Value) (h : ∀ t, v ≠ .str t) :
    sentinel s name v = (⟨s.table.set name ⟨s.count, name, v⟩, s.count + 1⟩, ⟨s.count, name, v⟩) := by
  cases v with
  | str t => exact absurd rfl (h t)
  | none => rfl
  | bool b => rfl
  | int n => rfl

/-- C122: a sentinel stands for its value: it has the given name and value, unless the value is the name of an earlier
one. -/
theorem c122_sentinel (s : Created) (name : Str) (v : Value) :
    ((sentinel s name v).2.name = name ∧ (sentinel s name v).2.value = v ∧ (sentinel s name v).2.id = s.count) ∨
      ∃ t, v = .str t ∧ s.table.get? t = some (sentinel s name v).2 := by
  unfold sentinel
  cases v with
  | str t =>
    cases h : s.table.get? t with
    | none => simp [h]
    | some x => right; exact ⟨t, rfl, by simp [h]⟩
  | none => left; exact ⟨rfl, rfl, rfl⟩
  | bool b => left; exact ⟨rfl, rfl, rfl⟩
  | int n => left; exact ⟨rfl, rfl, rfl⟩

example : (sentinel packageSentinels "X".toList (.str "PASS".toList)).2.value = .bool true := by decide +kernel

/-- C122, violated: sentinels are not singletons.  Any calls with values that are no texts give different objects, none equal
to another, even for the same name and value. -/
theorem c122_sentinel_twice (s : Created) (rs : List (Str × Value)) (h : ∀ r ∈ rs, ∀ t, r.2 ≠ .str t) :
    (calls s rs).Pairwise (fun x y => x.same y = false) := by
  have key : ∀ (rs : List (Str × Value)) (s : Created), (∀ r ∈ rs, ∀ t, r.2 ≠ .str t) → ∀ x ∈ calls s rs, s.count ≤ x.id := by
    intro rs
    induction rs with
    | nil => intro s _ x hx; cases hx
    | cons r rs ih =>
      intro s hs x hx
      unfold calls at hx
      rw [sentinel_fresh s r.1 r.2 (hs r List.mem_cons_self)] at hx
      rcases List.mem_cons.1 hx with rfl | hx
      · exact le_rfl
      · have := ih _ (fun q hq => hs q (List.mem_cons_of_mem _ hq)) x hx
        simp only at this
        omega
  induction rs generalizing s with
  | nil => exact .nil
  | cons r rs ih =>
    unfold calls
    rw [sentinel_fresh s r.1 r.2 (h r List.mem_cons_self)]
    refine List.Pairwise.cons ?_ (ih _ (fun q hq => h q (List.mem_cons_of_mem _ hq)))
    intro y hy
    have := key rs _ (fun q hq => h q (List.mem_cons_of_mem _ hq)) y hy
    simp only at this
    exact decide_eq_false (by simp only; omega)

example : (calls packageSentinels [("A".toList, .int (-1)), ("A".toList, .int (-1))]).Pairwise (fun x y => x.same y = false) :=
  c122_sentinel_twice _ _ (by simp)

/-- C122: sentinels equal the values they stand for, with the hash of those values, and are false where those are `None`, `False`
or `0`. -/
theorem c122_sentinel_value (x : Sentinel) (v : Value) (h : x.eqValue v = true) :
    x.hashKey = v.norm ∧ (x.truthy = false ↔ v = .none ∨ v = .bool false ∨ v = .int 0) := by
  have h := of_decide_eq_true h
  refine ⟨h, ?_⟩
  unfold Sentinel.truthy
  rw [h]
  cases v with
  | none => simp [Value.norm]
  | str t => simp [Value.norm]
  | bool b => cases b <;> simp [Value.norm]
  | int n => simp [Value.norm]

example : (Sentinel.mk 0 "PASS".toList (.bool true)).hashKey = (Value.int 1).norm :=
  (c122_sentinel_value _ (.int 1) (by decide)).1

/-- C122, violated: a sentinel is not false whenever its value is: one that stands for an empty text is true. -/
theorem c122_sentinel_empty : (Sentinel.mk 0 ['E'] (.str [])).truthy = true := by decide

/-- C122, violated: equality is not transitive: two sentinels of one value both equal that value, but not one another. -/
theorem c122_not_transitive (s : Created) (m n : Str) (k : ℤ) :
    ∃ x y, calls s [(m, .int k), (n, .int k)] = [x, y] ∧ x.eqValue (.int k) = true ∧ y.eqValue (.int k) = true ∧
      x.same y = false := by
  refine ⟨_, _, rfl, ?_, ?_, ?_⟩
  · exact decide_eq_true rfl
  · exact decide_eq_true rfl
  · exact decide_eq_false (by simp [sentinel])

example : ∃ x y, calls packageSentinels [("A".toList, .int 7), ("B".toList, .int 7)] = [x, y] ∧ x.eqValue (.int 7) = true ∧
    y.eqValue (.int 7) = true ∧ x.same y = false := c122_not_transitive _ _ _ _

end Eprem.Helpers
