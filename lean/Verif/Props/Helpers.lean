import Verif.Model.Helpers
import Verif.Props.Cli
import Mathlib.Data.List.Sort
import Mathlib.Data.List.Perm.Basic

/-!
# C121, C122: helpers on arguments
-/

namespace Eprem.Helpers

/-! ## Specification -/

/-- `Encloses x y`: `x` is `y` inside any number of lists and tuples of one member. -/
inductive Encloses : Py → Py → Prop
  | self (x : Py) : Encloses x x
  | list {x y : Py} : Encloses x y → Encloses (.list [x]) y
  | tuple {x y : Py} : Encloses x y → Encloses (.tuple [x]) y

/-- A list or tuple with one member. -/
def Single (x : Py) : Prop := ∃ y, x = .list [y] ∨ x = .tuple [y]

/-- A list or a tuple with these members. -/
def IsSequence (x : Py) (l : List Py) : Prop := x = .list l ∨ x = .tuple l

/-- `Counted l n`: these objects hold `n` objects that cannot be iterated over, at any depth, and no text. -/
inductive Counted : List Py → Nat → Prop
  | nil : Counted [] 0
  | leaf {y : Py} {ys : List Py} {n : Nat} : iter y = none → Counted ys n → Counted (y :: ys) (n + 1)
  | inner {y : Py} {l ys : List Py} {m n : Nat} : IsSequence y l → Counted l m → Counted ys n → Counted (y :: ys) (m + n)

/-- An integer, or a truth value. -/
def IsInteger (x : Py) : Prop := (∃ n, x = .int n) ∨ ∃ b, x = .bool b

theorem isInstance_int (x : Py) : isInstance x [.int] = true ↔ IsInteger x := by
  cases x <;> simp [isInstance, Py.kind, Kind.sub, IsInteger]

/-! ## C121: lists around objects -/

/-- C121: `wrap` gives the members of a list or tuple, nothing for `None`, and a list of the object for text and for what
cannot be iterated over. -/
theorem c121_wrap (x : Py) :
    (∀ l, IsSequence x l → wrap x = l) ∧ (x = .none → wrap x = []) ∧
      ((∃ s, x = .str s) ∨ (iter x = none ∧ x ≠ .none) → wrap x = [x]) := by
  refine ⟨?_, ?_, ?_⟩
  · rintro l (rfl | rfl) <;> rfl
  · rintro rfl; rfl
  · rintro (⟨s, rfl⟩ | ⟨h, hn⟩)
    · rfl
    · cases x <;> first | rfl | exact absurd rfl hn | (exact absurd h (by simp [iter]))

example : wrap (.tuple [.int 1, .none]) = [.int 1, .none] := (c121_wrap _).1 _ (.inr rfl)

/-- C121: wrapping twice is wrapping once. -/
theorem c121_wrap_again (x : Py) : wrap (.list (wrap x)) = wrap x := rfl

example : wrap (.list (wrap (.int 3))) = [.int 3] := rfl

theorem unwrap_of_not_single {x : Py} (h : ¬ Single x) : unwrap x = x := by
  unfold unwrap
  split
  · exact absurd ⟨_, .inl rfl⟩ h
  · exact absurd ⟨_, .inr rfl⟩ h
  · rfl

theorem encloses_unwrap {x y : Py} (h : Encloses x y) : unwrap x = unwrap y := by
  induction h with
  | self => rfl
  | list _ ih => rw [unwrap, ih]
  | tuple _ ih => rw [unwrap, ih]

theorem unwrap_spec (x : Py) : Encloses x (unwrap x) ∧ ¬ Single (unwrap x) := by
  fun_induction unwrap x with
  | case1 x ih => exact ⟨.list ih.1, ih.2⟩
  | case2 x ih => exact ⟨.tuple ih.1, ih.2⟩
  | case3 x h1 h2 =>
    refine ⟨.self _, ?_⟩
    rintro ⟨y, rfl | rfl⟩
    · exact h1 y rfl
    · exact h2 y rfl

/-- C121: `unwrap` gives the object that the lists and tuples of one member enclose, at any depth: the first one that is no
such list. -/
theorem c121_unwrap (x y : Py) : unwrap x = y ↔ Encloses x y ∧ ¬ Single y := by
  constructor
  · rintro rfl
    exact unwrap_spec x
  · rintro ⟨h1, h2⟩
    rw [encloses_unwrap h1, unwrap_of_not_single h2]

example : unwrap (.list [.tuple [.list [.int 42]]]) = .int 42 :=
  (c121_unwrap _ _).2 ⟨.list (.tuple (.list (.self _))), by rintro ⟨y, h | h⟩ <;> cases h⟩

/-- C121: unwrapping twice is unwrapping once, and further lists around an object make no difference. -/
theorem c121_unwrap_again (x y : Py) (h : Encloses x y) :
    unwrap (unwrap x) = unwrap x ∧ unwrap x = unwrap y ∧ unwrapAs x = unwrapAs y := by
  refine ⟨unwrap_of_not_single (unwrap_spec x).2, encloses_unwrap h, ?_⟩
  unfold unwrapAs
  rw [encloses_unwrap h]

example : unwrapAs (.list [.tuple [.int 1, .int 2]]) = [.int 1, .int 2] :=
  (c121_unwrap_again _ (.tuple [.int 1, .int 2]) (.list (.self _))).2.2

/-- C121: with a new type, the members of a list that is not of one member, at any depth, are the members of the result; a
number or text is its only member. -/
theorem c121_newtype (x y : Py) (h : Encloses x y) (hs : ¬ Single y) :
    (∀ l, IsSequence y l → unwrapAs x = l) ∧
      ((∃ s, y = .str s) ∨ (iter y = none ∧ y ≠ .none) → unwrapAs x = [y]) := by
  have he : unwrapAs x = wrap y := by
    unfold unwrapAs
    rw [(c121_unwrap x y).2 ⟨h, hs⟩]
  rw [he]
  exact ⟨(c121_wrap y).1, (c121_wrap y).2.2⟩

example : unwrapAs (.tuple [.list [.tuple [.int 42]]]) = [.int 42] :=
  (c121_newtype _ (.int 42) (.tuple (.list (.tuple (.self _)))) (by rintro ⟨y, h | h⟩ <;> cases h)).2
    (.inr ⟨rfl, nofun⟩)

/-- C121, violated: `unwrap([None], newtype=list)` has lost the member. -/
theorem c121_newtype_none : unwrapAs (.list [.none]) = [] := rfl

example : wrap (.list [.none, .none]) = [.none, .none] := rfl

/-- C121: the separable objects are the lists and tuples. -/
theorem c121_separable (x : Py) : isSeparable x = true ↔ ∃ l, IsSequence x l := by
  cases x <;> simp [isSeparable, iter, isInstance, Py.kind, Kind.sub, IsSequence]

example : isSeparable (.str "ab".toList) = false := rfl

/-- C121: a wrapper has the members of a separable object; around text, or what cannot be iterated over, it has that object
as its only member. -/
theorem c121_wrapper_partial (x : Py) (hb : ∀ b, x ≠ .bytes b) (hn : x ≠ .none) :
    (∀ l, IsSequence x l → wrapper x = l) ∧ (isSeparable x = false → wrapper x = [x]) := by
  refine ⟨(c121_wrap x).1, fun h => (c121_wrap x).2.2 ?_⟩
  cases x with
  | none => exact absurd rfl hn
  | str s => exact .inl ⟨s, rfl⟩
  | bytes b => exact absurd rfl (hb b)
  | list l => exact absurd h (by simp [isSeparable, iter, isInstance, Py.kind, Kind.sub])
  | tuple l => exact absurd h (by simp [isSeparable, iter, isInstance, Py.kind, Kind.sub])
  | bool b => exact .inr ⟨rfl, hn⟩
  | int n => exact .inr ⟨rfl, hn⟩
  | real n => exact .inr ⟨rfl, hn⟩

example : wrapper (.str "time".toList) = [.str "time".toList] :=
  (c121_wrapper_partial (.str "time".toList) (fun _ h => by cases h) (fun h => by cases h)).2 rfl

/-- C121, violated: `bytes` and `None` are not separable, but wrappers around them hold integers, and nothing. -/
theorem c121_wrapper_not :
    ¬ ∀ x, isSeparable x = false → wrapper x = [x] := by
  intro h
  have := h (.bytes [97]) rfl
  cases this

/-! ### Equality of wrappers -/

theorem asInts_int (l : List ℤ) : asInts (l.map .int) = some l := by
  induction l with
  | nil => rfl
  | cons n l ih => simp [asInts, ih]

theorem asTexts_str (l : List Str) : asTexts (l.map .str) = some l := by
  induction l with
  | nil => rfl
  | cons n l ih => simp [asTexts, ih]

theorem asInts_str {s : Str} {l : List Py} (h : .str s ∈ l) : asInts l = none := by
  induction l with
  | nil => cases h
  | cons x l ih =>
    rcases List.mem_cons.1 h with rfl | h
    · rfl
    · have ih := ih h
      cases x <;> simp [asInts, ih]

theorem asTexts_int {n : ℤ} {l : List Py} (h : .int n ∈ l) : asTexts l = none := by
  induction l with
  | nil => cases h
  | cons x l ih =>
    rcases List.mem_cons.1 h with rfl | h
    · rfl
    · have ih := ih h
      cases x <;> simp [asTexts, ih]

theorem intSort_perm (a b : List ℤ) :
    a.mergeSort (fun x y => decide (x ≤ y)) = b.mergeSort (fun x y => decide (x ≤ y)) ↔ a.Perm b := by
  have tr : ∀ x y z : ℤ, decide (x ≤ y) = true → decide (y ≤ z) = true → decide (x ≤ z) = true := by
    intro x y z h1 h2
    simp only [decide_eq_true_eq] at *
    omega
  have tot : ∀ x y : ℤ, (decide (x ≤ y) || decide (y ≤ x)) = true := by
    intro x y
    simp only [Bool.or_eq_true, decide_eq_true_eq]
    omega
  constructor
  · intro h
    exact ((List.mergeSort_perm a _).symm.trans (.of_eq h)).trans (List.mergeSort_perm b _)
  · intro h
    refine List.Perm.eq_of_pairwise (le := fun x y => decide (x ≤ y) = true) ?_ (List.pairwise_mergeSort tr tot a) (List.pairwise_mergeSort tr tot b)
      (((List.mergeSort_perm a _).trans h).trans (List.mergeSort_perm b _).symm)
    intro x y _ _ h1 h2
    simp only [decide_eq_true_eq] at *
    omega

theorem textLe_antisymm {a b : Str} (h1 : Config.strLe a b = true) (h2 : Config.strLe b a = true) : a = b := by
  induction a generalizing b with
  | nil =>
    cases b with
    | nil => rfl
    | cons d t => simp [Config.strLe] at h2
  | cons c s ih =>
    cases b with
    | nil => simp [Config.strLe] at h1
    | cons d t =>
      simp only [Config.strLe, Bool.or_eq_true, Bool.and_eq_true, decide_eq_true_eq] at h1 h2
      rcases h1 with h1 | ⟨rfl, h1⟩
      · rcases h2 with h2 | ⟨rfl, h2⟩
        · omega
        · omega
      · rcases h2 with h2 | ⟨_, h2⟩
        · omega
        · rw [ih h1 h2]

theorem textSort_perm (a b : List Str) : Config.sorted a = Config.sorted b ↔ a.Perm b := by
  constructor
  · intro h
    exact ((Config.sorted_perm a).symm.trans (h ▸ List.Perm.refl _)).trans (Config.sorted_perm b)
  · intro h
    refine List.Perm.eq_of_pairwise (le := fun x y => Config.strLe x y = true) ?_ (Config.sorted_pairwise a)
      (Config.sorted_pairwise b) (((Config.sorted_perm a).trans h).trans (Config.sorted_perm b).symm)
    intro x y _ _ h1 h2
    exact textLe_antisymm h1 h2

theorem wrapperEq_ints (a b : List ℤ) :
    wrapperEq (.list (a.map .int)) (.tuple (b.map .int)) = some (decide (a.Perm b)) := by
  simp only [wrapperEq, wrapper, wrap, iter, sortedMembers, asInts_int, Option.bind_eq_bind, Option.bind_some, Ordered.ints.injEq,
    intSort_perm]

theorem wrapperEq_texts (a b : List Str) (ha : a ≠ []) (hb : b ≠ []) :
    wrapperEq (.list (a.map .str)) (.tuple (b.map .str)) = some (decide (a.Perm b)) := by
  have h : ∀ l : List Str, l ≠ [] → asInts (l.map .str) = none := by
    intro l hl
    cases l with
    | nil => exact absurd rfl hl
    | cons s l => rfl
  simp only [wrapperEq, wrapper, wrap, iter, sortedMembers, h a ha, h b hb, asTexts_str, Option.bind_eq_bind, Option.bind_some,
    Ordered.texts.injEq, textSort_perm]

/-- C121: wrappers of integers, and wrappers of texts, can be compared; they are equal if they hold the same members as often,
in whatever order. -/
theorem c121_equal (a b : List ℤ) (s t : List Str) (hs : s ≠ []) (ht : t ≠ []) :
    (∃ r, wrapperEq (.list (a.map .int)) (.tuple (b.map .int)) = some r ∧ (r = true ↔ ∀ n, a.count n = b.count n)) ∧
      ∃ r, wrapperEq (.list (s.map .str)) (.tuple (t.map .str)) = some r ∧ (r = true ↔ ∀ n, s.count n = t.count n) := by
  rw [wrapperEq_ints, wrapperEq_texts s t hs ht]
  refine ⟨⟨_, rfl, ?_⟩, _, rfl, ?_⟩ <;> rw [decide_eq_true_eq] <;> exact List.perm_iff_count

example : ∃ r, wrapperEq (.list [.int 2, .int 1]) (.tuple [.int 1, .int 2]) = some r ∧
    (r = true ↔ ∀ n, [(2 : ℤ), 1].count n = [1, 2].count n) :=
  (c121_equal [2, 1] [1, 2] [[]] [[]] (by simp) (by simp)).1

/-- C121: wrappers that hold a text and an integer cannot be compared, not even with themselves. -/
theorem c121_equal_mixed (x y : Py) (s : Str) (n : ℤ) (hs : .str s ∈ wrapper x) (hn : .int n ∈ wrapper x) :
    wrapperEq x y = none := by
  simp only [wrapperEq, sortedMembers, asInts_str hs, asTexts_int hn, Option.bind_eq_bind, Option.bind_none]

example : wrapperEq (.list [.str ['a'], .int 1]) (.list [.str ['a'], .int 1]) = none :=
  c121_equal_mixed _ _ ['a'] 1 List.mem_cons_self (List.mem_cons_of_mem _ List.mem_cons_self)

/-! ### `hastype` and `find_first` -/

theorem hasTypeLoop_eq (x : Py) (types ws : List Kind) (strict : Bool) :
    hasTypeLoop x types strict ws = if ∃ w ∈ ws, isInstance x [w] = true then
      (iter x).map (fun l => if strict then l.all (fun i => isInstance i types) else l.any (fun i => isInstance i types))
      else some false := by
  induction ws with
  | nil => simp [hasTypeLoop]
  | cons w ws ih =>
    unfold hasTypeLoop
    by_cases h : isInstance x [w] = true
    · rw [if_pos h, if_pos ⟨w, List.mem_cons_self, h⟩]
      cases iter x <;> rfl
    · rw [if_neg h, ih]
      congr 1
      simp [h]

/-- C121: an object has a type if it is an instance of it, or an instance of one of the wrapper types with a member, or with
`strict` only members, that are instances of it. -/
theorem c121_hastype (x : Py) (l : List Py) (hx : iter x = some l) (types ws : List Kind) (strict : Bool) :
    hasType x types ws strict = some true ↔
      isInstance x types = true ∨ (∃ w ∈ ws, isInstance x [w] = true) ∧
        ((strict = true ∧ ∀ i ∈ l, isInstance i types = true) ∨ (strict = false ∧ ∃ i ∈ l, isInstance i types = true)) := by
  unfold hasType
  by_cases h : isInstance x types = true
  · simp [h]
  · rw [if_neg h, hasTypeLoop_eq, hx]
    by_cases hw : ∃ w ∈ ws, isInstance x [w] = true
    · rw [if_pos hw]
      cases strict <;> simp [h, hw]
    · rw [if_neg hw]
      simp [h, hw]

example : hasType (.list [.int 1, .real 2]) [.int] [.tuple, .list] true ≠ some true := by
  rw [Ne, c121_hastype _ _ rfl]
  rintro (h | ⟨_, ⟨_, h⟩ | ⟨h, _⟩⟩)
  · cases h
  · cases h (.real 2) (by simp)
  · cases h

/-- C121: the order in which the wrapper types are given makes no difference, nor does giving one twice. -/
theorem c121_hastype_order (x : Py) (types ws vs : List Kind) (strict : Bool) (h : ∀ w, w ∈ ws ↔ w ∈ vs) :
    hasType x types ws strict = hasType x types vs strict := by
  unfold hasType
  rw [hasTypeLoop_eq, hasTypeLoop_eq]
  simp only [h]

example : hasType (.tuple [.int 1]) [.int] [.list, .tuple] true = hasType (.tuple [.int 1]) [.int] [.tuple, .list, .list] true :=
  c121_hastype_order _ _ _ _ _ (by intro w; cases w <;> simp)

/-- C121: an empty list has any type strictly, and none otherwise. -/
theorem c121_hastype_empty (types : List Kind) (h : Kind.list ∉ types) :
    hasType (.list []) types [.list] true = some true ∧ hasType (.list []) types [.list] false = some false := by
  have : isInstance (.list []) types = false := by
    refine Bool.eq_false_iff.2 fun ht => ?_
    obtain ⟨t, h1, h2⟩ := List.any_eq_true.1 ht
    cases t <;> simp_all [Py.kind, Kind.sub]
  unfold hasType
  rw [this]
  exact ⟨rfl, rfl⟩

example : hasType (.list []) [.int] [.list] true = some true := (c121_hastype_empty [.int] (by decide)).1

/-- C121: `find_first` gives the first object with the type, and nothing if there is none. -/
theorem c121_first (t : Kind) (l : List Py) :
    (∀ x, findFirst t l = some x → ∃ p s, l = p ++ x :: s ∧ isInstance x [t] = true ∧ ∀ y ∈ p, isInstance y [t] = false) ∧
      (findFirst t l = none ↔ ∀ y ∈ l, isInstance y [t] = false) := by
  induction l with
  | nil => simp [findFirst]
  | cons z l ih =>
    unfold findFirst
    by_cases h : isInstance z [t] = true
    · rw [if_pos h]
      refine ⟨?_, by simp [h]⟩
      rintro x hx
      cases hx
      exact ⟨[], l, rfl, h, nofun⟩
    · rw [if_neg h]
      refine ⟨?_, by simp [h, ih.2]⟩
      intro x hx
      obtain ⟨p, s, rfl, h1, h2⟩ := ih.1 x hx
      refine ⟨z :: p, s, rfl, h1, ?_⟩
      intro y hy
      rcases List.mem_cons.1 hy with rfl | hy
      · exact Bool.eq_false_iff.2 h
      · exact h2 y hy

example : findFirst .int [.str ['a'], .bool true, .int 2] = some (.bool true) := rfl

/-! ### Sizes and shapes -/

mutual
theorem size_spec : ∀ (x : Py) (n : Nat), size x = some n ↔ ∃ l, IsSequence x l ∧ Counted l n
  | .list l, n => by
    rw [size, sizeLoop_spec l n]
    constructor
    · intro h; exact ⟨l, .inl rfl, h⟩
    · rintro ⟨l', h | h, hc⟩
      · cases h; exact hc
      · cases h
  | .tuple l, n => by
    rw [size, sizeLoop_spec l n]
    constructor
    · intro h; exact ⟨l, .inr rfl, h⟩
    · rintro ⟨l', h | h, hc⟩
      · cases h
      · cases h; exact hc
  | .none, n => by simp [size, IsSequence]
  | .bool b, n => by simp [size, IsSequence]
  | .int b, n => by simp [size, IsSequence]
  | .real b, n => by simp [size, IsSequence]
  | .str b, n => by simp [size, IsSequence]
  | .bytes b, n => by simp [size, IsSequence]
theorem sizeLoop_spec : ∀ (l : List Py) (n : Nat), sizeLoop l = some n ↔ Counted l n
  | [], n => by
    rw [sizeLoop.eq_1]
    constructor
    · rintro h; cases h; exact .nil
    · rintro h; cases h; rfl
  | y :: ys, n => by
    rw [sizeLoop.eq_2]
    constructor
    · intro h
      generalize ha : (if (iter y).isSome = true then size y else some 1) = a at h
      cases hm : sizeLoop ys with
      | none => rw [hm] at h; cases a <;> cases h
      | some m =>
        rw [hm] at h
        have hc := (sizeLoop_spec ys m).1 hm
        cases a with
        | none => cases h
        | some a =>
          cases h
          by_cases hi : (iter y).isSome = true
          · rw [if_pos hi] at ha
            obtain ⟨l, hl, hd⟩ := (size_spec y a).1 ha
            exact .inner hl hd hc
          · rw [if_neg hi] at ha
            cases ha
            rw [Nat.add_comm]
            exact .leaf (by simpa using hi) hc
    · intro h
      cases h with
      | leaf hi hc =>
        rw [(sizeLoop_spec ys _).2 hc, hi, Nat.add_comm]
        rfl
      | inner hl hm hn =>
        have hi : (iter y).isSome = true := by rcases hl with rfl | rfl <;> rfl
        rw [(sizeLoop_spec ys _).2 hn, if_pos hi, (size_spec y _).2 ⟨_, hl, hm⟩]
end

/-- C121: `size` counts the members of a list or tuple at any depth. -/
theorem c121_size (x : Py) (n : Nat) : size x = some n ↔ ∃ l, IsSequence x l ∧ Counted l n := size_spec x n

example : size (.list [.int 1, .tuple [.int 2, .list [.int 3]]]) = some 3 := rfl

/-- C121, violated: a list of texts is separable, but has no size. -/
theorem c121_size_texts (s : Str) (l : List Py) (h : .str s ∈ l) :
    isSeparable (.list l) = true ∧ size (.list l) = none := by
  refine ⟨rfl, ?_⟩
  rw [size]
  induction l with
  | nil => cases h
  | cons y ys ih =>
    rw [sizeLoop]
    rcases List.mem_cons.1 h with rfl | h
    · rfl
    · rw [ih h]
      cases (if (iter y).isSome = true then size y else some 1) <;> rfl

example : size (.list [.str ['a']]) = none := (c121_size_texts ['a'] _ List.mem_cons_self).2

/-- C121: the objects that look like shapes are those with members, all of them integers. -/
theorem c121_shape (x : Py) :
    isShapelike x = true ↔ ∃ l, iter x = some l ∧ l ≠ [] ∧ ∀ i ∈ l, IsInteger i := by
  cases x with
  | none => simp [isShapelike, truthy, iter]
  | bool b => simp [isShapelike, iter]
  | int n => simp [isShapelike, iter]
  | real n => simp [isShapelike, iter]
  | str s => cases s <;> simp [isShapelike, truthy, iter, isInstance_int]
  | bytes b => cases b <;> simp [isShapelike, truthy, iter, isInstance_int]
  | list l => cases l <;> simp [isShapelike, truthy, iter, isInstance_int]
  | tuple l => cases l <;> simp [isShapelike, truthy, iter, isInstance_int]

example : isShapelike (.tuple [.int 3, .int 4]) = true ∧ isShapelike (.tuple []) = false := ⟨rfl, rfl⟩

/-- C121: no text looks like a shape; `length` is zero exactly for what has no members. -/
theorem c121_length (x : Py) (s : Str) :
    isShapelike (.str s) = false ∧ (length x = 0 ↔ iter x = none ∨ iter x = some []) := by
  refine ⟨?_, ?_⟩
  · cases s <;> rfl
  · unfold length
    cases h : iter x <;> simp

example : length (.str "ab".toList) = 2 := rfl

end Eprem.Helpers
