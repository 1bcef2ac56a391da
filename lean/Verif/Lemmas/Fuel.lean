import Verif.Model.Symbolic
import Verif.Lemmas.Bounds

/-! Every string is parsed within the fuel given by `parse`; strict mode only
rejects. -/

namespace Eprem.Symbolic

theorem dropWhile_len (p : Char → Bool) (s : Str) : (s.dropWhile p).length ≤ s.length :=
  (List.dropWhile_suffix p).length_le

theorem takeWhile_drop_len (p : Char → Bool) (s : Str) :
    (s.takeWhile p).length + (s.dropWhile p).length = s.length := by
  rw [← List.length_append, List.takeWhile_append_dropWhile]

theorem strip_len (s : Str) : (strip s).length ≤ s.length := by
  unfold strip
  have h1 := dropWhile_len isSpace s
  have h2 := dropWhile_len isSpace (s.dropWhile isSpace).reverse
  simp only [List.length_reverse] at *
  omega

theorem takeSign_len (s : Str) : (takeSign s).2.length ≤ s.length := by
  unfold takeSign; split <;> simp

theorem takeFrac_len (s : Str) : (takeFrac s).2.length ≤ s.length := by
  unfold takeFrac
  split
  · rename_i s
    have := dropWhile_len isDigit s
    simp only [List.length_cons]; omega
  · exact le_refl _

theorem takeExp_len {s : Str} {x : Bool × Str × Str} (h : takeExp s = some x) : x.2.2.length < s.length := by
  unfold takeExp at h
  cases s with
  | nil => simp at h
  | cons c s =>
    simp only at h
    split at h
    · split at h
      · exact absurd h (by simp)
      · simp only [Option.some.injEq] at h
        have h1 := takeSign_len s
        have h2 := dropWhile_len isDigit (takeSign s).2
        rw [← h]; simp only [List.length_cons]; omega
    · exact absurd h (by simp)

theorem startsNumber_nil : startsNumber [] = false := rfl

theorem digit_drop_len {s : Str} (h : startsNumber s = true) :
    (s.dropWhile isDigit).length < s.length ∨ ∃ t, s.dropWhile isDigit = '.' :: t := by
  cases s with
  | nil => simp [startsNumber] at h
  | cons c s =>
    by_cases hc : isDigit c = true
    · left
      rw [List.dropWhile_cons_of_pos hc]
      have := dropWhile_len isDigit s
      simp only [List.length_cons]; omega
    · right
      have : c = '.' := by
        cases s with
        | nil => simp [startsNumber] at h; exact absurd h hc
        | cons d s =>
          simp [startsNumber, hc] at h; exact h.1
      rw [List.dropWhile_cons_of_neg hc, this]; exact ⟨s, rfl⟩

theorem frac_part_len {r s1 : Str} (hr : r.length < s1.length ∨ ∃ t, r = '.' :: t) (hle : r.length ≤ s1.length) :
    (takeFrac r).2.length < s1.length := by
  rcases hr with hr | ⟨t, rfl⟩
  · exact lt_of_le_of_lt (takeFrac_len r) hr
  · have := dropWhile_len isDigit t
    simp only [takeFrac]
    simp only [List.length_cons] at hle; omega

theorem matchRational_len {s : Str} {n : Num} {r : Str} (h : matchRational s = some (n, r)) :
    r.length < s.length := by
  unfold matchRational at h
  have h0 := takeSign_len s
  simp only at h
  split at h
  · rename_i hn
    have hd := digit_drop_len hn
    have hle := dropWhile_len isDigit (takeSign s).2
    have hfr := frac_part_len hd hle
    split at h
    · rename_i d r' heq
      split at h
      · simp only [Option.some.injEq, Prod.mk.injEq] at h
        rw [← h.2]
        rw [heq] at hle
        simp only [List.length_cons] at hle; omega
      · simp only [Option.some.injEq, Prod.mk.injEq] at h
        rw [← h.2]
        rcases hd with hd | ⟨t, ht⟩
        · omega
        · rw [heq] at ht; simp at ht
    · split at h
      · rename_i heq
        simp only [Option.some.injEq, Prod.mk.injEq] at h
        have := takeExp_len heq
        rw [← h.2]; simp only at this; omega
      · simp only [Option.some.injEq, Prod.mk.injEq] at h
        rw [← h.2]; omega
  · exact absurd h (by simp)

theorem matchExponent_len (s : Str) : (matchExponent s).2.length ≤ s.length := by
  unfold matchExponent
  split
  · rename_i s
    split
    · rename_i h; have := matchRational_len h; simp only [List.length_cons]; omega
    · exact le_refl _
  · exact le_refl _

theorem matchCoefficient_len {s : Str} {c : Option Num} {r : Str} (h : matchCoefficient s = some (c, r)) :
    r.length ≤ s.length ∧ startsLetter r = true := by
  unfold matchCoefficient at h
  have h0 := takeSign_len s
  simp only at h
  split at h
  · rename_i hn
    have hd := digit_drop_len hn
    have hle := dropWhile_len isDigit (takeSign s).2
    have hfr := frac_part_len hd hle
    split at h
    · rename_i r0 heq
      split at h
      · rename_i hh
        simp only [Option.some.injEq, Prod.mk.injEq] at h
        refine ⟨?_, by rw [← h.2]; exact hh.2⟩
        rw [← h.2]
        have := dropWhile_len isDigit r0
        rw [heq] at hle
        simp only [List.length_cons] at hle; omega
      · exact absurd h (by simp)
    · split at h
      · rename_i heq
        have := takeExp_len heq
        simp only at this
        split at h
        · simp only [Option.some.injEq, Prod.mk.injEq] at h
          rename_i hl
          exact ⟨by rw [← h.2]; omega, by rw [← h.2]; exact hl⟩
        · split at h
          · simp only [Option.some.injEq, Prod.mk.injEq] at h
            rename_i hl
            exact ⟨by rw [← h.2]; omega, by rw [← h.2]; exact hl⟩
          · exact absurd h (by simp)
      · split at h
        · simp only [Option.some.injEq, Prod.mk.injEq] at h
          rename_i hl
          exact ⟨by rw [← h.2]; omega, by rw [← h.2]; exact hl⟩
        · exact absurd h (by simp)
  · split at h
    · simp only [Option.some.injEq, Prod.mk.injEq] at h
      rename_i hl
      exact ⟨by rw [← h.2], by rw [← h.2]; exact hl⟩
    · exact absurd h (by simp)

theorem matchVariable_len {s : Str} {v : VarMatch} (h : matchVariable s = some v) : v.rest.length < s.length := by
  unfold matchVariable at h
  split at h
  · exact absurd h (by simp)
  · rename_i c r heq
    obtain ⟨h1, h2⟩ := matchCoefficient_len heq
    simp only [Option.some.injEq] at h
    rw [← h]
    simp only
    have h3 := matchExponent_len (((r.dropWhile isLetter)).dropWhile isDigit)
    have h4 := dropWhile_len isDigit (r.dropWhile isLetter)
    have h5 : (r.dropWhile isLetter).length < r.length := by
      cases r with
      | nil => simp [startsLetter] at h2
      | cons x xs =>
        simp [startsLetter] at h2
        rw [List.dropWhile_cons_of_pos h2]
        have := dropWhile_len isLetter xs
        simp only [List.length_cons]; omega
    omega

theorem matchConstant_len {s : Str} {c : Num} {e : Option Num} {r : Str} (h : matchConstant s = some (c, e, r)) :
    r.length < s.length := by
  unfold matchConstant at h
  split at h
  · exact absurd h (by simp)
  · rename_i c r' heq
    simp only [Option.some.injEq, Prod.mk.injEq] at h
    have h1 := matchRational_len heq
    have h2 := matchExponent_len r'
    rw [← h.2.2]; omega

/-- What an operand read from `s` looks like: an error that is not `fuel`, a term, or a group whose
base fits into `s` with two characters to spare (or is `'1'`, for an empty group). -/
def GoodOperand (n : Nat) (o : Except Err Operand) : Prop :=
  match o with
  | .error e => e ≠ .fuel
  | .ok o => o.isTerm = true ∨ (o.base ≠ [] ∧ o.base.length + 1 ≤ n)

theorem numValue_noFuel (n : Num) : n.value ≠ .error .fuel := by
  cases n with
  | frac a b c => simp only [Num.value]; split <;> simp
  | dec => simp [Num.value]

theorem numOr1_noFuel (n : Option Num) : numOr1 n ≠ .error .fuel := by
  cases n with
  | none => simp [numOr1]
  | some n => exact numValue_noFuel n

theorem fracPow_noFuel (c p : Rat) : fracPow c p ≠ .error .fuel := by
  unfold fracPow; repeat' split <;> simp

theorem bind_noFuel {α β : Type} {x : Except Err α} {f : α → Except Err β} (hx : x ≠ .error .fuel)
    (hf : ∀ a, f a ≠ .error .fuel) : (x >>= f) ≠ .error .fuel := by
  cases x with
  | error e => simp only [bind, Except.bind]; intro h; apply hx; simpa using h
  | ok a => exact hf a

theorem buildVariable_good (m : VarMatch) (n : Nat) : GoodOperand n (buildVariable m) := by
  unfold buildVariable
  cases h1 : numOr1 m.coeff with
  | error e =>
    have := numOr1_noFuel m.coeff
    rw [h1] at this
    simp only [bind, Except.bind, GoodOperand]; intro h; exact this (by rw [h])
  | ok c =>
    cases h2 : numOr1 m.exp with
    | error e =>
      have := numOr1_noFuel m.exp
      rw [h2] at this
      simp only [bind, Except.bind, GoodOperand]; intro h; exact this (by rw [h])
    | ok e => simp [bind, Except.bind, GoodOperand, pure, Except.pure, mkOperand]

theorem buildConstant_good (c : Num) (e : Option Num) (n : Nat) : GoodOperand n (buildConstant c e) := by
  unfold buildConstant
  cases h1 : c.value with
  | error e =>
    have := numValue_noFuel c
    rw [h1] at this
    simp only [bind, Except.bind, GoodOperand]; intro h; exact this (by rw [h])
  | ok c =>
    cases h2 : numOr1 e with
    | error e' =>
      have := numOr1_noFuel e
      rw [h2] at this
      simp only [bind, Except.bind, GoodOperand]; intro h; exact this (by rw [h])
    | ok e =>
      cases h3 : fracPow c e with
      | error e' =>
        have := fracPow_noFuel c e
        rw [h3] at this
        simp only [bind, Except.bind, GoodOperand, h3]; intro h; exact this (by rw [h])
      | ok v => simp [bind, Except.bind, GoodOperand, pure, Except.pure, mkOperand, h3]

theorem matchSimplex_good {s : Str} {o : Except Err Operand} {r : Str} (h : matchSimplex s = some (o, r)) :
    r.length < s.length ∧ GoodOperand s.length o := by
  unfold matchSimplex at h
  split at h
  · exact absurd h (by simp)
  · rename_i v c e r' h1 h2
    split at h
    · simp only [Option.some.injEq, Prod.mk.injEq] at h
      rw [← h.1, ← h.2]
      exact ⟨matchConstant_len h2, buildConstant_good _ _ _⟩
    · simp only [Option.some.injEq, Prod.mk.injEq] at h
      rw [← h.1, ← h.2]
      exact ⟨matchVariable_len h1, buildVariable_good _ _⟩
  · rename_i v h1 h2
    simp only [Option.some.injEq, Prod.mk.injEq] at h
    rw [← h.1, ← h.2]
    exact ⟨matchVariable_len h1, buildVariable_good _ _⟩
  · rename_i c e r' h1 h2
    simp only [Option.some.injEq, Prod.mk.injEq] at h
    rw [← h.1, ← h.2]
    exact ⟨matchConstant_len h2, buildConstant_good _ _ _⟩

/-- the end position reported by `find_bounds` lies inside the string, after the start -/
theorem findBoundsAux_range (s : Str) : ∀ (i : Nat) (ini : Bool) (k : Int) (i0 : Nat) (x y : Nat),
    findBoundsAux s i ini k i0 = some (x, y) → i < y ∧ y ≤ i + s.length := by
  induction s with
  | nil => intro i ini k i0 x y h; simp [findBoundsAux] at h
  | cons d s ih =>
    intro i ini k i0 x y h
    have key : ∀ (a : Bool) (b : Int) (c : Nat),
        (if a = true ∧ b = 0 then some (c, i + 1) else findBoundsAux s (i + 1) a b c) = some (x, y) →
        i < y ∧ y ≤ i + (d :: s).length := by
      intro a b c h
      split at h
      · simp only [Option.some.injEq, Prod.mk.injEq] at h
        simp only [List.length_cons]; omega
      · have := ih _ _ _ _ _ _ h
        simp only [List.length_cons]; omega
    exact key _ _ _ h

theorem findBounds_range {s : Str} {x y : Nat} (h : findBounds s = some (x, y)) : 0 < y ∧ y ≤ s.length := by
  have := findBoundsAux_range s 0 false 0 0 x y h
  omega

theorem findBounds_zero {s : Str} {y : Nat} (h : findBounds s = some (0, y)) : 2 ≤ y ∧ y ≤ s.length := by
  have h1 := findBounds_range h
  refine ⟨?_, h1.2⟩
  by_contra hcon
  have hy : y = 1 := by omega
  subst hy
  cases s with
  | nil => simp [findBounds, findBoundsAux] at h
  | cons c s =>
    unfold findBounds at h
    simp only [findBoundsAux] at h
    by_cases h1 : c = '('
    · simp only [h1, if_true] at h
      rw [if_neg (by simp)] at h
      have := findBoundsAux_range _ _ _ _ _ _ _ h
      omega
    · by_cases h2 : c = ')'
      · subst h2
        simp only [if_true] at h
        simp only [show (')' = '(') = False by simp, if_false] at h
        rw [if_neg (by simp)] at h
        have := findBoundsAux_range _ _ _ _ _ _ _ h
        omega
      · simp only [h1, h2, if_false] at h
        rw [if_neg (by simp)] at h
        have := findBoundsAux_range _ _ _ _ _ _ _ h
        omega

theorem matchComplex_good {s : Str} {o : Except Err Operand} {r : Str} (h : matchComplex s = some (o, r)) :
    r.length < s.length ∧ GoodOperand s.length o := by
  unfold matchComplex at h
  split at h
  · exact absurd h (by simp)
  · rename_i i0 e0 heq
    split at h
    · exact absurd h (by simp)
    · rename_i hi
      have hi : i0 = 0 := by simpa using hi
      subst hi
      obtain ⟨h2, h3⟩ := findBounds_zero heq
      simp only [Option.some.injEq, Prod.mk.injEq] at h
      have h4 := matchExponent_len (s.drop e0)
      rw [List.length_drop] at h4
      refine ⟨by rw [← h.2]; omega, ?_⟩
      rw [← h.1]
      cases hh : numOr1 (matchExponent (List.drop e0 s)).1 with
      | error e =>
        have := numOr1_noFuel (matchExponent (List.drop e0 s)).1
        rw [hh] at this
        simp only [bind, Except.bind, GoodOperand]; intro h; exact this (by rw [h])
      | ok e =>
        simp only [bind, Except.bind, GoodOperand, pure, Except.pure, mkOperand]
        right
        unfold orOneStr
        split
        · simp [one]; omega
        · rename_i hb
          refine ⟨hb, ?_⟩
          rw [List.length_drop, List.length_take]; omega

theorem parseOperand_good {s : Str} {o : Except Err Operand} {r : Str} (h : parseOperand s = some (o, r)) :
    r.length < s.length ∧ GoodOperand s.length o := by
  unfold parseOperand at h
  have hs := strip_len s
  have mono : ∀ o, GoodOperand (strip s).length o → GoodOperand s.length o := by
    intro o ho
    unfold GoodOperand at *
    split at ho
    · exact ho
    · rcases ho with ho | ⟨h1, h2⟩
      · exact Or.inl ho
      · exact Or.inr ⟨h1, by omega⟩
  simp only at h
  split at h
  · rename_i m heq
    simp only [Option.some.injEq] at h
    subst h
    obtain ⟨h1, h2⟩ := matchSimplex_good heq
    exact ⟨by omega, mono _ h2⟩
  · obtain ⟨h1, h2⟩ := matchComplex_good h
    exact ⟨by omega, mono _ h2⟩

theorem matchOp_len {x y : Char} {s r : Str} (h : matchOp x y s = some r) : r.length < s.length := by
  unfold matchOp at h
  have h0 := dropWhile_len isSpace s
  split at h
  · exact absurd h (by simp)
  · rename_i c r' heq
    rw [heq] at h0
    simp only [List.length_cons] at h0
    split at h
    · simp only at h
      have h1 := takeWhile_drop_len isSpace r'
      split at h
      · split at h
        · exact absurd h (by simp)
        · rename_i w hw
          simp only [Option.some.injEq] at h
          rw [← h]
          have : (r'.takeWhile isSpace).length ≠ 0 := by
            intro h0
            rw [List.length_eq_zero_iff] at h0
            rw [h0] at hw; simp at hw
          simp only [List.length_cons]; omega
      · simp only [Option.some.injEq] at h
        rw [← h]; omega
    · exact absurd h (by simp)

theorem matchSqrt_len {s r : Str} (h : matchSqrt s = some r) : r.length < s.length := by
  unfold matchSqrt at h
  have h0 := dropWhile_len isSpace s
  split at h
  · rename_i r' heq
    rw [heq] at h0
    simp only [Option.some.injEq] at h
    have := dropWhile_len isSpace r'
    rw [← h]
    simp only [List.length_cons] at h0; omega
  · exact absurd h (by simp)

theorem parseOperator_len {s : Str} {op : Operator} {r : Str} (h : parseOperator s = some (op, r)) :
    r.length < s.length := by
  unfold parseOperator at h
  split at h
  · rename_i h1; simp at h; rw [← h.2]; exact matchOp_len h1
  · split at h
    · rename_i h1; simp at h; rw [← h.2]; exact matchOp_len h1
    · split at h
      · rename_i h1; simp at h; rw [← h.2]; exact matchSqrt_len h1
      · exact absurd h (by simp)

/-- An operand whose base, if it is a group, leaves one character to spare below `n`. -/
def Small (n : Nat) (o : Operand) : Prop := o.isTerm = true ∨ (o.base ≠ [] ∧ o.base.length + 1 ≤ n)

theorem mkOperand_small {o : Operand} {c e : Rat} {n : Nat} (ho : Small n o) :
    Small n (mkOperand o.isTerm c o.base e) := by
  rcases ho with ho | ⟨h1, h2⟩
  · left; simpa [mkOperand] using ho
  · right; simp only [mkOperand, orOneStr, h1, if_false]; exact ⟨h1, h2⟩

theorem pow_small {o o' : Operand} {p : Rat} {n : Nat} (h : o.pow p = .ok o') (ho : Small n o) : Small n o' := by
  unfold Operand.pow at h
  cases h1 : fracPow o.coeff p with
  | error e => rw [h1] at h; simp [bind, Except.bind] at h
  | ok c =>
    rw [h1] at h
    simp only [bind, Except.bind, pure, Except.pure, Except.ok.injEq] at h
    rw [← h]; exact mkOperand_small ho

theorem pow_noFuel (o : Operand) (p : Rat) : o.pow p ≠ .error .fuel :=
  bind_noFuel (fracPow_noFuel _ _) (by intro a; simp [pure, Except.pure])

theorem sqrt_small {o o' : Operand} {n : Nat} (h : o.sqrt = .ok o') (ho : Small n o) : Small n o' := by
  unfold Operand.sqrt at h
  split at h
  · simp only [bind, Except.bind, pure, Except.pure, Except.ok.injEq] at h
    rw [← h]; exact mkOperand_small ho
  · simp [bind, Except.bind] at h

theorem sqrt_noFuel (o : Operand) : o.sqrt ≠ .error .fuel := by
  unfold Operand.sqrt
  split <;> simp [bind, Except.bind, pure, Except.pure]

theorem evaluate_small {op : Operator} {o o' : Operand} {n : Nat} (h : evaluate op o = .ok o') (ho : Small n o) :
    Small n o' := by
  cases op with
  | multiply => simp [evaluate] at h; rw [← h]; exact ho
  | divide => exact pow_small h ho
  | sqrt => exact sqrt_small h ho

theorem evaluate_noFuel (op : Operator) (o : Operand) : evaluate op o ≠ .error .fuel := by
  cases op with
  | multiply => simp [evaluate]
  | divide => exact pow_noFuel _ _
  | sqrt => exact sqrt_noFuel _

theorem operatorError_noFuel (strict : Bool) (c : Operator) (p : Option Operator) :
    operatorError strict c p ≠ some .fuel := by
  unfold operatorError
  split
  · split
    · cases c <;> simp
    · simp
  · simp

/-- an operand result: no fuel error, and small -/
def Fine (n : Nat) (r : Except Err (List Operand)) : Prop :=
  r ≠ .error .fuel ∧ ∀ os, r = .ok os → ∀ o ∈ os, Small n o

theorem parseLoop_fine (strict : Bool) (e : Rat) (fuel : Nat) : ∀ (prev : Option Operator) (s : Str) (n : Nat),
    s.length ≤ fuel → s.length ≤ n → Fine n (parseLoop strict e fuel prev s) := by
  induction fuel with
  | zero =>
    intro prev s n hf _
    have : s = [] := by cases s <;> simp_all
    subst this
    simp [parseLoop, Fine]
  | succ fuel ih =>
    intro prev s n hf hn
    unfold parseLoop
    split
    · simp [Fine]
    · -- the operator
      have tail : ∀ (op : Option Operator) (s1 : Str), s1.length ≤ s.length →
          Fine n (match parseOperand s1 with
            | some (o, r) => (do
              let o ← o
              let o ← o.pow e
              let new ← match op with
                | some op => evaluate op o
                | none => .ok o
              let rest ← parseLoop strict e fuel op r
              return new :: rest)
            | none =>
              match op with
              | some _ => .error .operatorWithoutOperand
              | none => .error .failedToParse) := by
        intro op s1 hs1
        cases hp : parseOperand s1 with
        | none => cases op <;> simp [Fine]
        | some x =>
          obtain ⟨o, r⟩ := x
          obtain ⟨hr, hgood⟩ := parseOperand_good hp
          simp only
          cases o with
          | error er =>
            simp only [GoodOperand] at hgood
            simp [Fine, bind, Except.bind, hgood]
          | ok o =>
            have hsm : Small n o := by
              rcases hgood with h | ⟨h1, h2⟩
              · exact Or.inl h
              · exact Or.inr ⟨h1, by omega⟩
            simp only [bind, Except.bind]
            cases ho : o.pow e with
            | error er =>
              have := pow_noFuel o e
              rw [ho] at this
              exact ⟨by simpa using this, by simp⟩
            | ok o' =>
              have hsm' := pow_small ho hsm
              simp only
              have fin : ∀ x : Except Err Operand, x ≠ .error .fuel → (∀ o'', x = .ok o'' → Small n o'') →
                  Fine n (x >>= fun new => parseLoop strict e fuel op r >>= fun rest => pure (new :: rest)) := by
                intro x h1 h2
                have hrest := ih op r n (by omega) (by omega)
                cases x with
                | error er => exact ⟨by simpa [bind, Except.bind] using h1, by simp [bind, Except.bind]⟩
                | ok o'' =>
                  have hs'' := h2 _ rfl
                  simp only [bind, Except.bind]
                  cases hr2 : parseLoop strict e fuel op r with
                  | error er =>
                    have := hrest.1
                    rw [hr2] at this
                    exact ⟨by simpa using this, by simp⟩
                  | ok rest =>
                    refine ⟨by simp [pure, Except.pure], ?_⟩
                    intro os hos
                    simp only [pure, Except.pure, Except.ok.injEq] at hos
                    rw [← hos]
                    intro x hx
                    rcases List.mem_cons.1 hx with rfl | hx
                    · exact hs''
                    · exact hrest.2 _ hr2 x hx
              cases op with
              | none => exact fin (.ok o') (by simp) (by rintro _ ⟨⟩; exact hsm')
              | some op => exact fin (evaluate op o') (evaluate_noFuel _ _) (fun o'' h => evaluate_small h hsm')
      cases hop : parseOperator s with
      | none =>
        simp only [bind, Except.bind]
        exact tail none s (le_refl _)
      | some x =>
        obtain ⟨op, r⟩ := x
        simp only
        have hl := parseOperator_len hop
        cases herr : operatorError strict op prev with
        | some er =>
          have := operatorError_noFuel strict op prev
          rw [herr] at this
          simp only [bind, Except.bind]
          exact ⟨by simpa using this, by simp⟩
        | none =>
          simp only [bind, Except.bind]
          exact tail (some op) r (by omega)

theorem concatMapM_noFuel (f : Operand → Except Err (List Term)) (os : List Operand)
    (h : ∀ o ∈ os, f o ≠ .error .fuel) : concatMapM f os ≠ .error .fuel := by
  induction os with
  | nil => simp [concatMapM]
  | cons o os ih =>
    unfold concatMapM
    have h1 := h o (by simp)
    have h2 := ih (fun o' ho => h o' (by simp [ho]))
    apply bind_noFuel h1
    intro a
    apply bind_noFuel h2
    intro b; simp [pure, Except.pure]

theorem resolve_noFuel (strict : Bool) (fuel : Nat) : ∀ cur : Operand, cur.base.length + 2 ≤ fuel →
    resolve strict fuel cur ≠ .error .fuel := by
  induction fuel with
  | zero => intro cur h; omega
  | succ fuel ih =>
    intro cur h
    unfold resolve
    have hf := parseLoop_fine strict cur.exp cur.base.length none cur.base cur.base.length (le_refl _) (le_refl _)
    cases hp : parseLoop strict cur.exp cur.base.length none cur.base with
    | error er =>
      have := hf.1
      rw [hp] at this
      simp only [bind, Except.bind]; simpa using this
    | ok os =>
      simp only [bind, Except.bind]
      have hsm := hf.2 os hp
      have := concatMapM_noFuel
        (fun o => if o.isTerm then .ok [⟨o.coeff, o.base, o.exp⟩] else resolve strict fuel o) os (by
          intro o ho
          split
          · simp
          · rename_i ht
            rcases hsm o ho with h' | ⟨_, h'⟩
            · exact absurd h' ht
            · exact ih o (by omega))
      cases hc : concatMapM (fun o => if o.isTerm then .ok [⟨o.coeff, o.base, o.exp⟩] else resolve strict fuel o) os with
      | error er => rw [hc] at this; simpa using this
      | ok ts => simp [pure, Except.pure]

theorem parse_noFuel (strict : Bool) (s : Str) : parse strict s ≠ .error .fuel :=
  resolve_noFuel strict _ _ (le_refl _)

/-! ### strict mode only rejects -/

theorem parseLoop_strict (e : Rat) (fuel : Nat) : ∀ (prev prev' : Option Operator) (s : Str) (os : List Operand),
    parseLoop true e fuel prev s = .ok os → parseLoop false e fuel prev' s = .ok os := by
  induction fuel with
  | zero => intro prev prev' s os h; simpa [parseLoop] using h
  | succ fuel ih =>
    intro prev prev' s os h
    unfold parseLoop at h ⊢
    split
    · rename_i hs; simpa [hs] using h
    · rename_i hs
      simp only [hs, if_false] at h
      have tail : ∀ (op : Option Operator) (s1 : Str),
          (match parseOperand s1 with
            | some (o, r) => (do
              let o ← o
              let o ← o.pow e
              let new ← match op with
                | some op => evaluate op o
                | none => .ok o
              let rest ← parseLoop true e fuel op r
              return new :: rest)
            | none =>
              match op with
              | some _ => .error .operatorWithoutOperand
              | none => .error .failedToParse) = Except.ok os →
          (match parseOperand s1 with
            | some (o, r) => (do
              let o ← o
              let o ← o.pow e
              let new ← match op with
                | some op => evaluate op o
                | none => .ok o
              let rest ← parseLoop false e fuel op r
              return new :: rest)
            | none =>
              match op with
              | some _ => .error .operatorWithoutOperand
              | none => .error .failedToParse) = Except.ok os := by
        intro op s1 h
        cases hp : parseOperand s1 with
        | none => rw [hp] at h; exact h
        | some x =>
          obtain ⟨o, r⟩ := x
          rw [hp] at h
          simp only [bind, Except.bind] at h ⊢
          split at h
          · exact absurd h (by simp)
          · split at h
            · exact absurd h (by simp)
            · rename_i o2 ho2
              have step : ∀ new, (parseLoop true e fuel op r >>= fun v => pure (new :: v)) = Except.ok os →
                  (parseLoop false e fuel op r >>= fun v => pure (new :: v)) = Except.ok os := by
                intro new h
                cases hrest : parseLoop true e fuel op r with
                | error er => rw [hrest] at h; simp [bind, Except.bind] at h
                | ok rest => rw [hrest] at h; rw [ih op op r rest hrest]; exact h
              cases op with
              | none => exact step o2 h
              | some op =>
                simp only at h ⊢
                cases hev : evaluate op o2 with
                | error er => rw [hev] at h; simp at h
                | ok o3 => rw [hev] at h; exact step o3 h
      cases hop : parseOperator s with
      | none =>
        rw [hop] at h
        simp only [bind, Except.bind] at h ⊢
        exact tail none s h
      | some x =>
        obtain ⟨op, r⟩ := x
        rw [hop] at h
        simp only at h ⊢
        have hno : operatorError false op prev' = none := by simp [operatorError]
        rw [hno]
        split at h
        · simp [bind, Except.bind] at h
        · simp only [bind, Except.bind] at h ⊢
          exact tail (some op) r h

theorem concatMapM_mono {f g : Operand → Except Err (List Term)} (hfg : ∀ o ts, f o = .ok ts → g o = .ok ts)
    (os : List Operand) : ∀ ts, concatMapM f os = .ok ts → concatMapM g os = .ok ts := by
  induction os with
  | nil => intro ts h; simpa [concatMapM] using h
  | cons o os ih =>
    intro ts h
    unfold concatMapM at h ⊢
    simp only [bind, Except.bind] at h ⊢
    split at h
    · exact absurd h (by simp)
    · rename_i a ha
      rw [hfg o a ha]
      simp only
      split at h
      · exact absurd h (by simp)
      · rename_i b hb
        rw [ih b hb]; exact h

theorem resolve_strict (fuel : Nat) : ∀ cur ts, resolve true fuel cur = .ok ts → resolve false fuel cur = .ok ts := by
  induction fuel with
  | zero => intro cur ts h; simp [resolve] at h
  | succ fuel ih =>
    intro cur ts h
    unfold resolve at h ⊢
    simp only [bind, Except.bind] at h ⊢
    split at h
    · exact absurd h (by simp)
    · rename_i os hos
      rw [parseLoop_strict _ _ none none _ os hos]
      simp only
      split at h
      · exact absurd h (by simp)
      · rename_i us hus
        have := concatMapM_mono
          (f := fun o => if o.isTerm then .ok [⟨o.coeff, o.base, o.exp⟩] else resolve true fuel o)
          (g := fun o => if o.isTerm then .ok [⟨o.coeff, o.base, o.exp⟩] else resolve false fuel o)
          (by
            intro o ts' h'
            split
            · rename_i ht; simpa [ht] using h'
            · rename_i ht; simp only [ht] at h'; exact ih o ts' (by simpa using h')) os us hus
        rw [this]; exact h

theorem parse_strict {s : Str} {ts : List Term} (h : parse true s = .ok ts) : parse false s = .ok ts :=
  resolve_strict _ _ _ h

end Eprem.Symbolic
