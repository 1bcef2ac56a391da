import Verif.Model.DimsOther
import Verif.Props.NamedArray

/-!
# Dimensions and other objects (C125)
-/

namespace Eprem.Numeric

open Eprem

/-- The object is a collection (not text or an iterator) of these names, or dimensions with these names. -/
def Holds (x : Other) (l : List Text) : Prop := x = .dims l ∨ x = .items (l.map .name)

/-- Texts as names. -/
def nameX : Text := ['x']
def nameY : Text := ['y']
def nameXY : Text := ['x', 'y']

theorem name_injective : Function.Injective Item.name := fun _ _ h => by cases h; rfl

theorem names_map (l : List Text) : namesOf (l.map .name) = some l := by
  induction l with
  | nil => rfl
  | cons s l ih => simp [namesOf, ih]

theorem namesOf_eq {l : List Item} {b : List Text} : namesOf l = some b ↔ l = b.map .name := by
  constructor
  · intro h
    induction l generalizing b with
    | nil => simp [namesOf] at h; subst h; rfl
    | cons x l ih =>
      cases x with
      | other n => cases h
      | name s =>
        obtain ⟨r, hr, rfl⟩ := Option.map_eq_some_iff.1 h
        rw [ih hr]
        rfl
  · rintro rfl
    exact names_map b

theorem holds_members {x : Other} {l : List Text} (h : Holds x l) : x.members = some (l.map .name) := by
  rcases h with rfl | rfl <;> rfl

theorem holds_operand {x : Other} {l : List Text} (h : Holds x l) : getOperand x = some l := by
  rcases h with rfl | rfl
  · rfl
  · exact names_map l

/-! ## Equality -/

/-- **C125**, equality.  Dimensions are equal to dimensions and to collections of names exactly if these have the same names in
the same order; single dimensions are equal to their name and to no other text; dimensions are not equal to collections that
hold something else, nor to objects that are not iterable. -/
theorem c125_equal (a : List Text) (x : Other) :
    (∀ l, Holds x l → (dimsEq a x = true ↔ a = l)) ∧
    (∀ n s, a = [n] → x = .text s → (dimsEq a x = true ↔ n = s)) ∧
    (∀ l, x = .items l → (∃ n, Item.other n ∈ l) → dimsEq a x = false) ∧
    (∀ n, x = .single n → dimsEq a x = false) := by
  refine ⟨fun l h => ?_, ?_, ?_, ?_⟩
  · rcases h with rfl | rfl
    · exact decide_eq_true_iff
    · show decide (a.map Item.name = l.map Item.name) = true ↔ _
      rw [decide_eq_true_iff]
      exact ⟨fun h => List.map_injective_iff.2 name_injective h, fun h => by rw [h]⟩
  · rintro n s rfl rfl
    exact decide_eq_true_iff
  · rintro l rfl ⟨n, hn⟩
    show decide (a.map Item.name = l) = false
    rw [decide_eq_false_iff_not]
    rintro rfl
    obtain ⟨s, _, h⟩ := List.mem_map.1 hn
    cases h
  · rintro n rfl
    rfl

example : dimsEq [nameX, nameY] (.items [.name nameX, .name nameY]) = true ∧
    dimsEq [nameX, nameY] (.items [.name nameY, .name nameX]) = false :=
  ⟨((c125_equal _ _).1 _ (.inr rfl)).2 rfl, by decide⟩

/-- **C125**, violated: no or several dimensions are equal to text, if its letters are their names. -/
theorem c125_equal_letters (a : List Text) (s : Text) (h : a.length ≠ 1) :
    dimsEq a (.text s) = true ↔ a = s.map (fun c => [c]) := by
  have e : dimsEq a (.text s) = decide (a.map Item.name = s.map (fun c => .name [c])) := by
    match a, h with
    | [], _ => rfl
    | [_], h => exact absurd rfl h
    | _ :: _ :: _, _ => rfl
  rw [e, decide_eq_true_iff, show s.map (fun c => Item.name [c]) = (s.map (fun c => [c])).map Item.name by rw [List.map_map]; rfl]
  exact ⟨fun h => List.map_injective_iff.2 name_injective h, fun h => by rw [h]⟩

/-- **C125**, violated: equality is not transitive: the dimensions `x`, `y` and the dimension `xy` are equal to the same text,
but not to each other. -/
theorem c125_not_transitive : dimsEq [nameX, nameY] (.text nameXY) = true ∧ dimsEq [nameXY] (.text nameXY) = true ∧
    dimsEq [nameX, nameY] (.dims [nameXY]) = false := by decide

/-- **C125**, hashes.  Dimensions have the hash of the tuple of their names, so equal dimensions and tuples have equal hashes.
Violated: text that is equal to dimensions has another hash. -/
theorem c125_hash_partial (a b : List Text) (s : Text) :
    (dimsEq a (.dims b) = true → dimsHash a = dimsHash b) ∧
    (dimsEq a (.items (b.map .name)) = true → dimsHash a = .tuple b) ∧
    dimsHash a ≠ .text s := by
  refine ⟨fun h => ?_, fun h => ?_, nofun⟩
  · rw [((c125_equal a _).1 b (.inl rfl)).1 h]
  · rw [((c125_equal a _).1 b (.inr rfl)).1 h]; rfl

example : dimsHash [nameX] = .tuple [nameX] := (c125_hash_partial _ [nameX] []).2.1 (by decide)

/-! ## Comparison -/

theorem subset_iff (a b : List Text) : subset (a.map .name) (b.map .name) = true ↔ ∀ n ∈ a, n ∈ b := by
  unfold subset
  rw [List.all_eq_true]
  simp only [List.forall_mem_map, decide_eq_true_iff]
  exact forall₂_congr fun n _ => List.mem_map_of_injective name_injective

/-- **C125**, comparison.  Dimensions are compared with dimensions and collections of names as sets of names, in whatever order
they are; other objects are a `TypeError` if they are not iterable. -/
theorem c125_compare (a l : List Text) (x : Other) (h : Holds x l) :
    (∃ r, dimsCompare .le a x = .ok r ∧ (r = true ↔ ∀ n ∈ a, n ∈ l)) ∧
    (∃ r, dimsCompare .ge a x = .ok r ∧ (r = true ↔ ∀ n ∈ l, n ∈ a)) ∧
    (∃ r, dimsCompare .lt a x = .ok r ∧ (r = true ↔ (∀ n ∈ a, n ∈ l) ∧ ∃ n ∈ l, n ∉ a)) ∧
    (∃ r, dimsCompare .gt a x = .ok r ∧ (r = true ↔ (∀ n ∈ l, n ∈ a) ∧ ∃ n ∈ a, n ∉ l)) ∧
    ∀ c n, dimsCompare c a (.single n) = .error .type := by
  have neg : ∀ p q : List Text, (!subset (p.map .name) (q.map .name)) = true ↔ ∃ n ∈ p, n ∉ q := by
    intro p q
    rw [Bool.not_eq_true', ← Bool.not_eq_true, subset_iff]
    push Not
    rfl
  unfold dimsCompare
  rw [holds_members h]
  refine ⟨⟨_, rfl, subset_iff a l⟩, ⟨_, rfl, subset_iff l a⟩, ⟨_, rfl, ?_⟩, ⟨_, rfl, ?_⟩, fun _ _ => rfl⟩
  · show (_ && _) = true ↔ _
    rw [Bool.and_eq_true, subset_iff, neg]
  · show (_ && _) = true ↔ _
    rw [Bool.and_eq_true, subset_iff, neg]

example : ∃ r, dimsCompare .le [nameX] (.items [.name nameY, .name nameX]) = .ok r ∧ (r = true ↔ ∀ n ∈ [nameX], n ∈ [nameY, nameX]) :=
  (c125_compare _ [nameY, nameX] _ (.inr rfl)).1

/-- **C125**: the order of dimensions is reflexive and transitive, and dimensions that are below each other have the same
names, but not always in the same order. -/
theorem c125_order (a b c : List Text) :
    dimsCompare .le a (.dims a) = .ok true ∧
    (dimsCompare .le a (.dims b) = .ok true → dimsCompare .le b (.dims c) = .ok true → dimsCompare .le a (.dims c) = .ok true) ∧
    (dimsCompare .le a (.dims b) = .ok true → dimsCompare .le b (.dims a) = .ok true → ∀ n, n ∈ a ↔ n ∈ b) ∧
    (a.Nodup → b.Nodup → dimsCompare .le a (.dims b) = .ok true → dimsCompare .le b (.dims a) = .ok true → a.Perm b) := by
  have le : ∀ p q : List Text, dimsCompare .le p (.dims q) = .ok true ↔ ∀ n ∈ p, n ∈ q := by
    intro p q
    rw [← subset_iff]
    exact ⟨fun h => by cases h' : subset (p.map .name) (q.map .name) <;> simp_all [dimsCompare, Other.members, Comparison.onSets],
      fun h => by simp [dimsCompare, Other.members, Comparison.onSets, h]⟩
  simp only [le]
  refine ⟨fun _ h => h, fun h h' n hn => h' n (h n hn), fun h h' n => ⟨h n, h' n⟩, fun ha hb h h' => ?_⟩
  exact (List.perm_ext_iff_of_nodup ha hb).2 fun n => ⟨h n, h' n⟩

example : dimsCompare .le [nameX, nameY] (.dims [nameY, nameX]) = .ok true ∧ dimsEq [nameX, nameY] (.dims [nameY, nameX]) = false := by
  decide

/-- **C125**, violated: text is compared by its letters, although it is one name in all other operations: a dimension of more
than one letter is equal to its name, but not below it. -/
theorem c125_compare_letters (s : Text) (h : s.length ≠ 1) :
    dimsEq [s] (.text s) = true ∧ dimsCompare .le [s] (.text s) = .ok false ∧ dimsAndOther [s] (.text s) = .ok [s] := by
  refine ⟨by simp [dimsEq], ?_, ?_⟩
  · have : subset [Item.name s] (s.map (fun c => .name [c])) = false := by
      unfold subset
      rw [List.all_cons, Bool.and_eq_false_iff]
      left
      rw [decide_eq_false_iff_not]
      intro hm
      obtain ⟨c, _, hc⟩ := List.mem_map.1 hm
      cases hc
      exact h rfl
    show Except.ok (subset [Item.name s] (s.map (fun c => .name [c]))) = _
    rw [this]
  · show Except.ok (dimsAnd [s] [s]) = _
    have h := c30_intersection [s] [s] (by simp)
    congr 1
    have hs := h.2.2
    cases hd : dimsAnd [s] [s] with
    | nil => exact absurd ((h.2.1 s).2 (by simp)) (by simp [hd])
    | cons x r =>
      rw [hd] at hs
      have := hs.length_le
      cases r with
      | nil => have := hs.subset (a := x) (by simp); simp at this; rw [this]
      | cons => simp at this

example : dimsCompare .le [nameXY] (.text nameXY) = .ok false := (c125_compare_letters nameXY (by decide)).2.1

/-! ## Operations -/

/-- **C125**, operands.  In an operation a text is one name, and a collection of names counts as dimensions with these names:
the results are those of C30, in the order of the left operand first. -/
theorem c125_operands (a l : List Text) (x : Other) (h : Holds x l ∨ ∃ s, x = .text s ∧ l = [s]) :
    dimsAndOther a x = .ok (dimsAnd a l) ∧ otherAndDims x a = .ok (dimsAnd l a) ∧
    dimsSubOther a x = .ok (dimsSub a l) ∧ dimsOrOther a x = dimsOr a l ∧ otherOrDims x a = dimsOr l a := by
  have e : getOperand x = some l := by
    rcases h with h | ⟨s, rfl, rfl⟩
    · exact holds_operand h
    · rfl
  unfold dimsAndOther otherAndDims dimsSubOther dimsOrOther otherOrDims
  rw [e]
  exact ⟨rfl, rfl, rfl, rfl, rfl⟩

example : dimsSubOther [nameX, nameY] (.text nameX) = .ok [nameY] :=
  (c125_operands _ _ _ (.inr ⟨nameX, rfl, rfl⟩)).2.2.1.trans (by decide)

/-- **C125**: what is in the results, for dimensions and collections without repeated names. -/
theorem c125_results (a l : List Text) (x : Other) (h : Holds x l ∨ ∃ s, x = .text s ∧ l = [s]) (ha : a.Nodup) (hl : l.Nodup) :
    (∃ r, dimsAndOther a x = .ok r ∧ r.Sublist a ∧ ∀ n, n ∈ r ↔ n ∈ a ∧ n ∈ l) ∧
    (∃ r, otherAndDims x a = .ok r ∧ r.Sublist l ∧ ∀ n, n ∈ r ↔ n ∈ l ∧ n ∈ a) ∧
    (∃ r, dimsSubOther a x = .ok r ∧ r.Sublist a ∧ ∀ n, n ∈ r ↔ n ∈ a ∧ n ∉ l) ∧
    (¬ Container.OrderConflict a l → ∃ r, dimsOrOther a x = .ok r ∧ Container.IsMerge a l r) ∧
    (Container.OrderConflict a l → dimsOrOther a x = .error .value) := by
  obtain ⟨h1, h2, h3, h4, _⟩ := c125_operands a l x h
  rw [h1, h2, h3, h4]
  have i1 := c30_intersection a l ha
  have i2 := c30_intersection l a hl
  have i3 := c30_difference a l ha
  exact ⟨⟨_, rfl, i1.2.2, i1.2.1⟩, ⟨_, rfl, i2.2.2, i2.2.1⟩, ⟨_, rfl, i3.2.2, i3.2.1⟩, c30_union a l ha hl⟩

example : ∃ r, otherAndDims (.items [.name nameY, .name nameX]) [nameX, nameY] = .ok r ∧ r.Sublist [nameY, nameX] ∧
    ∀ n, n ∈ r ↔ n ∈ [nameY, nameX] ∧ n ∈ [nameX, nameY] :=
  (c125_results _ [nameY, nameX] _ (.inl (.inr rfl)) (by decide) (by decide)).2.1

/-- **C125**: objects that are not iterable and collections that hold something else than names are a `TypeError` in every
operation. -/
theorem c125_refused (a : List Text) (x : Other)
    (h : (∃ n, x = .single n) ∨ ∃ l n, (x = .items l ∨ x = .iterator l) ∧ Item.other n ∈ l) :
    dimsAndOther a x = .error .type ∧ otherAndDims x a = .error .type ∧ dimsSubOther a x = .error .type ∧
    otherSubDims x a = .error .type ∧ dimsOrOther a x = .error .type ∧ otherOrDims x a = .error .type ∧
    otherXorDims x a = .error .type := by
  have e : getOperand x = none := by
    rcases h with ⟨n, rfl⟩ | ⟨l, n, h, hn⟩
    · rfl
    · have : namesOf l = none := by
        cases hl : namesOf l with
        | none => rfl
        | some b =>
          rw [namesOf_eq.1 hl] at hn
          obtain ⟨s, _, h⟩ := List.mem_map.1 hn
          cases h
      rcases h with rfl | rfl <;> simp [getOperand, this]
  have e' : otherSubDims x a = .error .type := by
    rcases h with ⟨n, rfl⟩ | ⟨l, n, rfl | rfl, hn⟩ <;> rfl
  unfold dimsAndOther otherAndDims dimsSubOther dimsOrOther otherOrDims otherXorDims
  rw [e, e']
  exact ⟨rfl, rfl, rfl, rfl, rfl, rfl, rfl⟩

example : dimsOrOther [nameX] (.items [.name nameY, .other 1]) = .error .type :=
  (c125_refused _ _ (.inr ⟨_, 1, .inl rfl, by decide⟩)).2.2.2.2.1

/-- **C125**, violated: `other - dimensions` and `other ^ dimensions` are a `TypeError` for texts and collections of names too. -/
theorem c125_not_reflected (a : List Text) (x : Other) (h : ∀ l, x ≠ .dims l) :
    otherSubDims x a = .error .type ∧ otherXorDims x a = .error .type := by
  refine ⟨?_, ?_⟩
  · cases x with
    | dims l => exact absurd rfl (h l)
    | _ => rfl
  · unfold otherXorDims
    cases getOperand x <;> rfl

example : otherSubDims (.items [.name nameX, .name nameY]) [nameX] = .error .type := (c125_not_reflected _ _ (fun _ h => by cases h)).1

/-- **C125**, violated: an iterator over names counts as no names at all. -/
theorem c125_iterator (a l : List Text) (ha : a.Nodup) :
    dimsAndOther a (.iterator (l.map .name)) = .ok [] ∧ dimsSubOther a (.iterator (l.map .name)) = .ok a ∧
    dimsOrOther a (.iterator (l.map .name)) = .ok a ∧ (dimsEq a (.iterator (l.map .name)) = true ↔ a = l) := by
  have e : getOperand (.iterator (l.map .name)) = some [] := by
    show (namesOf _).map _ = _
    rw [names_map]
    rfl
  refine ⟨?_, ?_, ?_, ?_⟩
  · unfold dimsAndOther
    rw [e]
    simp [dimsAnd, dimensions, Container.unique, Container.uniqueLoop]
  · unfold dimsSubOther
    rw [e]
    simp [dimsSub, dimensions_nodup ha]
  · unfold dimsOrOther
    rw [e]
    show dimsOr a [] = _
    unfold dimsOr
    rw [(Container.c09_merge_self a ha).2.1]
    dsimp only
    rw [dimensions_nodup ha]
  · show decide (a.map Item.name = l.map Item.name) = true ↔ _
    rw [decide_eq_true_iff]
    exact ⟨fun h => List.map_injective_iff.2 name_injective h, fun h => by rw [h]⟩

example : dimsOrOther [nameX] (.iterator [.name nameY]) = .ok [nameX] := (c125_iterator [nameX] [nameY] (by decide)).2.2.1

/-! ## `permute` -/

theorem allIndices_map (l : List ℤ) : allIndices (l.map .index) = some l := by
  induction l with
  | nil => rfl
  | cons i l ih => simp [allIndices, ih]

/-- **C125**, `permute`: separate indices, a list of them, and `order=` are the same, except (violated) for a single index, which
is a `ValueError`; no arguments and both kinds are a `TypeError`. -/
theorem c125_permute (a : List Text) (l : List ℤ) :
    permuteWith a [.indices l] none = dimsPermute a l ∧ permuteWith a [] (some (.indices l)) = dimsPermute a l ∧
    (2 ≤ l.length → permuteWith a (l.map .index) none = dimsPermute a l) ∧
    (∀ i, permuteWith a [.index i] none = .error .value) ∧
    permuteWith a [] none = .error .type ∧ ∀ x r y, permuteWith a (x :: r) (some y) = .error .type := by
  refine ⟨rfl, rfl, fun h => ?_, fun _ => rfl, rfl, fun _ _ _ => rfl⟩
  match l, h with
  | i :: j :: r, _ =>
    have := allIndices_map (i :: j :: r)
    show (match allIndices ((i :: j :: r).map Order.index) with
      | none => _
      | some l => permuteOrder a (.indices l)) = _
    rw [this]
    rfl

example : permuteWith [nameX, nameY] [.index 1, .index 0] none = .ok [nameY, nameX] :=
  ((c125_permute _ [1, 0]).2.2.1 (by decide)).trans (by decide)

/-- **C125**, `permute`: a list among several arguments is a `ValueError`. -/
theorem c125_permute_lists (a : List Text) (args : List Order) (h2 : 2 ≤ args.length) (l : List ℤ) (h : Order.indices l ∈ args) :
    permuteWith a args none = .error .value := by
  have none_of : ∀ args : List Order, Order.indices l ∈ args → allIndices args = none := by
    intro args
    induction args with
    | nil => exact fun h => by simp at h
    | cons x r ih =>
      intro h
      cases x with
      | indices _ => rfl
      | index i =>
        rcases List.mem_cons.1 h with h | h
        · cases h
        · rw [allIndices, ih h]; rfl
  match args, h2 with
  | x :: y :: r, _ =>
    show (match allIndices (x :: y :: r) with
      | none => _
      | some l => permuteOrder a (.indices l)) = _
    rw [none_of _ h]

example : permuteWith [nameX, nameY] [.indices [1, 0], .indices [0, 1]] none = .error .value :=
  c125_permute_lists _ _ (by decide) [0, 1] (by simp)

/-- **C125**, `other - dimensions` when the other object is dimensions: the names of the other that are not names of these
dimensions, in the other's order. -/
theorem c125_minus_reflected (a l : List Text) (hl : l.Nodup) :
    ∃ r, otherSubDims (.dims l) a = .ok r ∧ r.Nodup ∧ r.Sublist l ∧ ∀ n, n ∈ r ↔ n ∈ l ∧ n ∉ a := by
  obtain ⟨h1, h2, h3⟩ := c30_difference l a hl
  exact ⟨_, rfl, h1, h3, h2⟩

example : otherSubDims (.dims [nameX, nameY]) [nameY] = .ok [nameX] := by decide

end Eprem.Numeric
