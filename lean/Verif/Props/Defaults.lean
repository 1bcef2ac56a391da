import Verif.Props.Parameters
import Verif.Props.Symbolic
import Verif.Model.ConfigTables

/-!
# Products, constants and the package's own tables (C75–C77)
-/

namespace Eprem.Symbolic

theorem Atom.opd_base (E : Rat) (op : Option Operator) (a : Atom) : (a.opd E op).base = a.operand.base := by
  unfold Atom.opd
  simp only
  split <;> rfl

mutual
theorem Atom.flat_names (E : Rat) (op : Option Operator) : (a : Atom) → ∀ t ∈ a.flat E op, t.base ≠ one → t.base ∈ a.names
  | .const l e, t, ht, hb => by
    simp only [Atom.flat, List.mem_singleton] at ht
    subst ht
    exact absurd (Atom.opd_base E op _) hb
  | .var c ls ds e, t, ht, hb => by
    simp only [Atom.flat, List.mem_singleton] at ht
    subst ht
    simp only [Atom.opd_base, Atom.names, List.mem_singleton]
    rfl
  | .group x e, t, ht, hb => by
    simp only [Atom.flat, List.mem_append, List.mem_singleton] at ht
    rcases ht with ht | rfl
    · exact Expr.flat_names _ none x t ht hb
    · exact absurd rfl hb
theorem Expr.flat_names (E : Rat) (op : Option Operator) : (x : Expr) → ∀ t ∈ x.flat E op, t.base ≠ one → t.base ∈ x.names
  | .one a, t, ht, hb => by
    rw [Expr.flat] at ht
    exact Atom.flat_names E op a t ht hb
  | .cons a s x, t, ht, hb => by
    rw [Expr.flat, List.mem_append] at ht
    rw [Expr.names, List.mem_append]
    rcases ht with ht | ht
    · exact .inl (Atom.flat_names E op a t ht hb)
    · exact .inr (Expr.flat_names E s.op x t ht hb)
end

/-- The expression read from a text has no other names than the text, and its value. -/
theorem expression_names (x : Expr) (hx : x.Ok 1) (hp : x.Pos) :
    ∃ r, exprOfString false x.text = .ok r ∧ r ≠ [] ∧ (∀ t ∈ r, t.base ≠ one → t.base ∈ x.names) ∧
      (∀ t ∈ r, t.base = one → t.exp = 1) ∧ ∀ ρ, Positive ρ → value ρ r = x.denote ρ id := by
  have hw : WF (x.flat 1 none ++ [⟨1, one, 1⟩]) :=
    (Expr.flat_wf 1 one_ne_zero x hx none).append (by
      intro t ht; simp at ht; subst ht; exact ⟨one_ne_zero, by simp [one], one_ne_zero⟩)
  obtain ⟨r, hr, hc, hv⟩ := c05_expression_denotes x hx hp
  have hred : reduce (x.flat 1 none ++ [⟨1, one, 1⟩]) = .ok r := by
    have := hr
    rw [exprOfString, if_neg (Expr.text_ne_nil 1 x hx), parse_text x hx] at this
    exact this
  have hs := reduce_spec (by simp) hw hred
  refine ⟨r, hr, hs.2.2.1, ?_, ?_, hv⟩
  · intro t ht hb
    obtain ⟨u, hu, hut⟩ := List.mem_map.1 (hs.2.2.2.2.2.1 t ht hb)
    rcases List.mem_append.1 hu with hu | hu
    · exact hut ▸ Expr.flat_names 1 none x u hu (hut.symm ▸ hb)
    · simp at hu
      subst hu
      exact absurd hut.symm hb
  · exact fun t ht hb => (hs.1.number t ht hb).1

end Eprem.Symbolic

namespace Eprem.Config

open Eprem Eprem.Symbolic Eprem.Metric

/-! ## The limit of the recursion does not matter -/

section
variable {R : Type} [Field R] [DecidableEq R]

omit [DecidableEq R] in
theorem evalParts_mono {f g : Str → Except Err (Val R)} (h : ∀ s v, f s = .ok v → g s = .ok v) :
    ∀ {l : List Str} {vs : List (Val R)}, evalParts f l = .ok vs → evalParts g l = .ok vs
  | [], vs, hl => hl
  | s :: l, vs, hl => by
    rw [evalParts] at hl ⊢
    split at hl
    · cases hl
    next v hv =>
      split at hl
      · cases hl
      next ws hws =>
        rw [h _ _ hv, evalParts_mono h hws]
        exact hl

omit [DecidableEq R] in
theorem sumParts_mono {f g : Str → Except Err (Val R)} (h : ∀ s v, f s = .ok v → g s = .ok v) {e : R} {l : List Str}
    {v : Option R} (hl : sumParts f e l = .ok v) : sumParts g e l = .ok v := by
  unfold sumParts at hl ⊢
  cases hp : evalParts f l with
  | error e => rw [hp] at hl; cases hl
  | ok vs => rw [hp] at hl; rw [evalParts_mono h hp]; exact hl

omit [DecidableEq R] in
theorem computeSum_mono {f g : Str → Except Err (Val R)} (h : ∀ s v, f s = .ok v → g s = .ok v) {s : Str}
    {v : Option R} (hl : computeSum f s = .ok v) : computeSum g s = .ok v := by
  unfold computeSum at hl ⊢
  split at hl
  next h1 => rw [if_pos h1]; exact sumParts_mono h hl
  next h1 =>
    rw [if_neg h1]
    split at hl
    next h2 => rw [if_pos h2]; exact sumParts_mono h hl
    next h2 => rw [if_neg h2]; exact hl

omit [DecidableEq R] in
theorem productOf_mono {N : Numbers R} {f g : Str → Except Err (Val R)} (h : ∀ s v, f s = .ok v → g s = .ok v) :
    ∀ {l : List Term} {x : R}, productOf N f l = .ok x → productOf N g l = .ok x
  | [], x, hl => hl
  | [t], x, hl => by
    rw [productOf] at hl ⊢
    cases ht : f t.base with
    | error e => rw [ht] at hl; cases hl
    | ok v => rw [ht] at hl; rw [h _ _ ht]; exact hl
  | t :: u :: ts, x, hl => by
    rw [productOf] at hl ⊢
    cases ht : f t.base with
    | error e => rw [ht] at hl; cases hl
    | ok v =>
      rw [ht] at hl
      rw [h _ _ ht]
      cases v with
      | num y =>
        simp only at hl ⊢
        cases hr : productOf N f (u :: ts) with
        | error e => rw [hr] at hl; cases hl
        | ok z => rw [hr] at hl; rw [productOf_mono h hr]; exact hl
      | none => exact hl
      | text s => exact hl
      | list l => exact hl
      | single v => exact hl

omit [DecidableEq R] in
theorem resolveProduct_mono {N : Numbers R} {f g : Str → Except Err (Val R)} (h : ∀ s v, f s = .ok v → g s = .ok v)
    {s : Str} {v : Val R} (hl : resolveProduct N f s = .ok v) : resolveProduct N g s = .ok v := by
  unfold resolveProduct at hl ⊢
  split at hl
  next h1 =>
    rw [if_pos h1]
    cases he : exprOfString false (dropConfig 0 s) with
    | error e => rw [he] at hl; cases hl
    | ok ts =>
      rw [he] at hl
      simp only at hl ⊢
      cases hr : productOf N f ts with
      | error e => rw [hr] at hl; cases hl
      | ok z => rw [hr] at hl; rw [productOf_mono h hr]; exact hl
  next h1 => cases hl

theorem resolve_mono {N : Numbers R} {f g : Str → Except Err (Val R)} (h : ∀ s v, f s = .ok v → g s = .ok v)
    {s : Str} {v : Val R} (hl : resolve N f s = .ok v) : resolve N g s = .ok v := by
  unfold resolve at hl ⊢
  split at hl
  next h1 => rw [if_pos h1]; exact h _ _ hl
  next h1 =>
    rw [if_neg h1]
    split at hl
    next h2 =>
      rw [if_pos h2]
      cases hr : f (dropConfig 0 (stripBrackets s)) with
      | error e => rw [hr] at hl; cases hl
      | ok z => rw [hr] at hl; rw [h _ _ hr]; exact hl
    next h2 =>
      rw [if_neg h2]
      cases hr : computeSum f s with
      | error e => rw [hr] at hl; cases hl
      | ok z =>
        rw [hr] at hl
        rw [computeSum_mono h hr]
        cases z with
        | none => exact resolveProduct_mono h hl
        | some x =>
          simp only at hl ⊢
          split at hl
          next h0 => rw [if_pos h0]; exact resolveProduct_mono h hl
          next h0 => rw [if_neg h0]; exact hl

theorem evaluate_succ (E : Env R) : ∀ (n : Nat) (s : Str) (v : Val R), evaluate E n s = .ok v → evaluate E (n + 1) s = .ok v
  | 0, s, v, h => by rw [evaluate] at h; cases h
  | n + 1, s, v, h => by
    rw [evaluate] at h ⊢
    cases ht : truthyCast E.numbers s with
    | some x => rw [ht] at h; exact h
    | none =>
      rw [ht] at h
      simp only at h ⊢
      split at h
      next h1 => rw [if_pos h1]; exact h
      next h1 =>
        rw [if_neg h1]
        split at h
        next h2 => rw [if_pos h2]; exact h
        next h2 =>
          rw [if_neg h2]
          cases hr : E.reference.get? s with
          | some td =>
            obtain ⟨t, d⟩ := td
            rw [hr] at h
            simp only at h ⊢
            split at h
            next h3 => rw [if_pos h3]; exact h
            next h3 => rw [if_neg h3]; exact evaluate_succ E n d v h
          | none =>
            rw [hr] at h
            simp only at h ⊢
            cases hb : E.basetypes s with
            | some x => rw [hb] at h; exact h
            | none => rw [hb] at h; exact resolve_mono (evaluate_succ E n) h

theorem evaluate_mono {E : Env R} {n : Nat} {s : Str} {v : Val R} (h : evaluate E n s = .ok v) : ∀ m, n ≤ m →
    evaluate E m s = .ok v := by
  intro m hm
  induction hm with
  | refl => exact h
  | step _ ih => exact evaluate_succ E _ s v ih

/-- A value found once is the value. -/
theorem Evaluates.of {E : Env R} {n : Nat} {s : Str} {v : Val R} (h : evaluate E n s = .ok v) : Evaluates E s v :=
  ⟨n, evaluate_mono h⟩

/-- The value of a text is unique. -/
theorem Evaluates.unique {E : Env R} {s : Str} {v w : Val R} (h : Evaluates E s v) (h' : Evaluates E s w) : v = w := by
  obtain ⟨n, hn⟩ := h
  obtain ⟨m, hm⟩ := h'
  have := (hn (max n m) (by omega)).symm.trans (hm (max n m) (by omega))
  exact Except.ok.inj this

end

/-! ## C77: products -/

theorem prefixed_dot {d s : Str} (h : Prefixed ('o' :: 'n' :: 'f' :: 'i' :: 'g' :: '.' :: d) s) : '.' ∈ s := by
  cases h with | char _ h => cases h with | char _ h => cases h with | char _ h => cases h with | char _ h =>
    cases h with | char _ h => cases h with | char _ h => simp

theorem dropConfig_prefixed {d s : Str} (h : Prefixed d s) (hs : '.' ∉ s) : dropConfig 0 d = s := by
  induction h with
  | nil => rfl
  | @char c d s h ih =>
    rw [dropConfig, if_neg, ih (fun hm => hs (List.mem_cons_of_mem _ hm))]
    intro ht
    have hd : d.take 6 = ['o', 'n', 'f', 'i', 'g', '.'] := by
      have := congrArg List.tail ht
      simpa [configDot] using this
    have hd' : d = ['o', 'n', 'f', 'i', 'g', '.'] ++ d.drop 6 := by rw [← hd, List.take_append_drop]
    rw [hd'] at h
    exact hs (List.mem_cons_of_mem _ (prefixed_dot h))
  | @config d s h ih =>
    rw [← ih hs]
    simp [dropConfig, configDot]

theorem prefixed_mem {d s : Str} (h : Prefixed d s) {c : Char} (hc : c ∈ d) : c ∈ s ∨ c ∈ configDot := by
  induction h with
  | nil => cases hc
  | char c' h ih =>
    rcases List.mem_cons.1 hc with rfl | hc
    · exact .inl (by simp)
    · rcases ih hc with h | h
      · exact .inl (List.mem_cons_of_mem _ h)
      · exact .inr h
  | config h ih =>
    simp only [List.mem_cons] at hc
    rcases hc with rfl | rfl | rfl | rfl | rfl | rfl | rfl | hc
    · exact .inr (by decide)
    · exact .inr (by decide)
    · exact .inr (by decide)
    · exact .inr (by decide)
    · exact .inr (by decide)
    · exact .inr (by decide)
    · exact .inr (by decide)
    · exact ih hc

theorem mem_prefixed {d s : Str} (h : Prefixed d s) {c : Char} (hc : c ∈ s) : c ∈ d := by
  induction h with
  | nil => cases hc
  | char c' h ih =>
    rcases List.mem_cons.1 hc with rfl | hc
    · simp
    · exact List.mem_cons_of_mem _ (ih hc)
  | config h ih => simp [ih hc]

/-- Real powers. -/
def RealPowers (N : Numbers ℝ) : Prop := ∀ x e, N.pow x e = x ^ (e : ℝ)

theorem productOf_value {N : Numbers ℝ} (hN : RealPowers N) {f : Str → Except Err (Val ℝ)} {ρ : Str → ℝ}
    (h1 : f Symbolic.one = .ok (.num 1)) : ∀ {ts : List Term}, ts ≠ [] →
    (∀ t ∈ ts, t.base ≠ Symbolic.one → f t.base = .ok (.num (ρ t.base))) → productOf N f ts = .ok (value ρ ts)
  | [], h, _ => absurd rfl h
  | [t], _, h => by
    rw [productOf]
    by_cases hb : t.base = Symbolic.one
    · rw [hb, h1]
      simp only
      rw [hN]
      simp [value, Term.val, hb]
    · rw [h t (by simp) hb]
      simp only
      rw [hN]
      simp [value, Term.val, hb]
  | t :: u :: ts, _, h => by
    have ih := productOf_value hN h1 (ts := u :: ts) (by simp) (fun v hv => h v (by simp [List.mem_cons.1 hv]))
    rw [productOf]
    by_cases hb : t.base = Symbolic.one
    · rw [hb, h1]
      simp only [ih]
      rw [hN]
      simp [value, Term.val, hb]
    · rw [h t (by simp) hb]
      simp only [ih]
      rw [hN]
      simp [value, Term.val, hb]

theorem cast_one (N : Numbers ℝ) : cast N Symbolic.one = some 1 := by
  have : pyInt Symbolic.one = some 1 := by decide +kernel
  simp [cast, this]

open Classical in
/-- **C77**: a default value that is a product or quotient of powers of parameters, constants and integers has the value of
this expression. -/
theorem c77_product {E : Env ℝ} (hN : RealPowers E.numbers) {p d : Str} (x : Expr) (hp : DefinedBy E p d)
    (hd : Composite E d) (hx : x.Ok 1) (hpos : x.Pos) (hdx : Prefixed d x.text) (hop : '*' ∈ x.text ∨ '/' ∈ x.text)
    (hno : '+' ∉ x.text ∧ '-' ∉ x.text ∧ '.' ∉ x.text) {ρ : Str → ℝ} (hρ : Positive ρ)
    (hv : ∀ a ∈ x.names, Evaluates E a (.num (ρ a))) : Evaluates E p (.num (x.denote ρ id)) := by
  obtain ⟨r, hr, hne, hnames, -, hval⟩ := expression_names x hx hpos
  obtain ⟨n, hn⟩ : ∃ n, ∀ a ∈ x.names, evaluate E n a = .ok (.num (ρ a)) := by
    generalize x.names = l at hv
    induction l with
    | nil => exact ⟨0, by simp⟩
    | cons a l ih =>
      obtain ⟨n, hn⟩ := ih (fun b hb => hv b (by simp [hb]))
      obtain ⟨k, hk⟩ := hv a (by simp)
      refine ⟨max n k, fun b hb => ?_⟩
      rcases List.mem_cons.1 hb with rfl | hb
      · exact hk _ (by omega)
      · exact evaluate_mono (hn b hb) _ (by omega)
  refine Evaluates.defined hp (Evaluates.of (n := max n 1 + 1) ?_)
  have hmem : '*' ∈ d ∨ '/' ∈ d := hop.imp (mem_prefixed hdx) (mem_prefixed hdx)
  have hplus : '+' ∉ d := fun h => by
    rcases prefixed_mem hdx h with h | h
    · exact hno.1 h
    · revert h; decide
  have hminus : '-' ∉ d := fun h => by
    rcases prefixed_mem hdx h with h | h
    · exact hno.2.1 h
    · revert h; decide
  have hsum : computeSum (evaluate E (max n 1)) d = .ok none := by
    unfold computeSum
    rw [if_neg hplus, if_neg hminus]
  have hone : evaluate E (max n 1) Symbolic.one = .ok (.num 1) := by
    refine evaluate_mono (n := 1) ?_ _ (by omega)
    have : truthyCast E.numbers Symbolic.one = some 1 := by simp [truthyCast, cast_one]
    simp only [evaluate, this]
  have hprod := productOf_value hN hone hne (fun t ht hb => evaluate_mono (hn _ (hnames t ht hb)) _ (by omega))
  rw [evaluate_composite hd]
  have hres : resolve E.numbers (evaluate E (max n 1)) d = resolveProduct E.numbers (evaluate E (max n 1)) d := by
    rcases hmem with h | h
    · rw [resolve_sum h (by simp), hsum]
    · rw [resolve_sum h (by simp), hsum]
  rw [hres]
  unfold resolveProduct
  rw [if_pos hmem, dropConfig_prefixed hdx hno.2.2, hr]
  simp only [hprod, hval ρ hρ]

/-! ## C76: constants -/

theorem constantProduct_value {N : Numbers ℝ} (hN : RealPowers N) {known : Str → Bool} {f : Str → Except Err ℝ}
    {ρ : Str → ℝ} (hone : known Symbolic.one = false) : ∀ {ts : List Term},
    (∀ t ∈ ts, t.base ≠ Symbolic.one → known t.base = true ∧ f t.base = .ok (ρ t.base)) →
    constantProduct N known f ts = .ok (value ρ ts)
  | [], _ => by simp [constantProduct, value]
  | t :: ts, h => by
    have ih := constantProduct_value hN hone (ts := ts) (fun v hv => h v (by simp [hv]))
    rw [constantProduct, ih]
    simp only
    by_cases hb : t.base = Symbolic.one
    · rw [hb, if_neg (by simp [hone]), if_pos rfl]
      simp [value, Term.val, hb]
    · obtain ⟨h1, h2⟩ := h t (by simp) hb
      rw [if_pos h1, h2]
      simp only
      rw [hN]
      simp [value, Term.val, hb]

theorem constantProduct_mono {R : Type} [Field R] {N : Numbers R} {known : Str → Bool} {f g : Str → Except Err R}
    (h : ∀ s v, f s = .ok v → g s = .ok v) :
    ∀ {ts : List Term} {x : R}, constantProduct N known f ts = .ok x → constantProduct N known g ts = .ok x
  | [], x, hl => hl
  | t :: ts, x, hl => by
    rw [constantProduct] at hl ⊢
    cases hr : constantProduct N known f ts with
    | error e => rw [hr] at hl; cases hl
    | ok y =>
      rw [hr] at hl
      rw [constantProduct_mono h hr]
      simp only at hl ⊢
      split at hl
      next hk =>
        rw [if_pos hk]
        cases ht : f t.base with
        | error e => rw [ht] at hl; cases hl
        | ok z => rw [ht] at hl; rw [h _ _ ht]; exact hl
      next hk => rw [if_neg hk]; exact hl

theorem computeConstant_succ {R : Type} [Field R] {N : Numbers R} {defs : Dict Str Str} {types : Str → Option Ty} :
    ∀ (n : Nat) (s : Str) (x : R), computeConstant N defs types n s = .ok x → computeConstant N defs types (n + 1) s = .ok x
  | 0, s, x, h => by rw [computeConstant] at h; cases h
  | n + 1, s, x, h => by
    rw [computeConstant] at h ⊢
    cases hd : defs.get? s with
    | none => rw [hd] at h; exact h
    | some target =>
      rw [hd] at h
      simp only at h ⊢
      cases ht : types s with
      | none => rw [ht] at h; exact h
      | some t =>
        rw [ht] at h
        simp only at h ⊢
        split at h
        next ho =>
          rw [if_pos ho]
          cases he : exprOfString false target with
          | error e => rw [he] at h; cases h
          | ok ts => rw [he] at h; exact constantProduct_mono (computeConstant_succ n) h
        next ho => rw [if_neg ho]; exact h

theorem computeConstant_mono {R : Type} [Field R] {N : Numbers R} {defs : Dict Str Str} {types : Str → Option Ty} {n : Nat}
    {s : Str} {x : R} (h : computeConstant N defs types n s = .ok x) : ∀ m, n ≤ m →
    computeConstant N defs types m s = .ok x := by
  intro m hm
  induction hm with
  | refl => exact h
  | step _ ih => exact computeConstant_succ _ s x ih

/-- **C76**: a constant given by a number has this number as its value. -/
theorem c76_number {R : Type} [Field R] {N : Numbers R} {defs : Dict Str Str} {types : Str → Option Ty} {k s : Str} {x : R}
    (hk : defs.get? k = some s) (ht : types k = some .float) (ho : ∀ c ∈ s, c ≠ '*' ∧ c ≠ '/' ∧ c ≠ 'q')
    (hx : N.toFloat s = some x) : ConstantIs N defs types k x := by
  refine ⟨1, fun m hm => ?_⟩
  obtain ⟨m, rfl⟩ : ∃ k, m = k + 1 := ⟨m - 1, by omega⟩
  have hop : hasOperator s = false := by
    unfold hasOperator
    rw [Bool.or_eq_false_iff]
    refine ⟨?_, ?_⟩
    · rw [List.any_eq_false]
      intro c hc
      have := ho c hc
      simp [this.1, this.2.1]
    · rw [List.any_eq_false]
      intro t ht
      have hsuf := List.mem_tails _ _ |>.1 ht
      intro hpre
      have hq : 'q' ∈ t := (List.isPrefixOf_iff_prefix.1 hpre).subset (by simp)
      exact (ho 'q' (hsuf.subset hq)).2.2 rfl
  simp only [computeConstant, hk, ht, hop, convert, hx]
  rfl

open Classical in
/-- **C76**: a constant that is a product or quotient of powers of constants and numbers has the value of this expression. -/
theorem c76_expression {N : Numbers ℝ} (hN : RealPowers N) {defs : Dict Str Str} {types : Str → Option Ty} {k : Str} {t : Ty}
    (x : Expr) (hk : defs.get? k = some x.text) (ht : types k = some t) (hx : x.Ok 1) (hpos : x.Pos)
    (hop : '*' ∈ x.text ∨ '/' ∈ x.text) (h1 : defs.get? Symbolic.one = none) {ρ : Str → ℝ} (hρ : Positive ρ)
    (hv : ∀ a ∈ x.names, ConstantIs N defs types a (ρ a)) : ConstantIs N defs types k (x.denote ρ id) := by
  obtain ⟨r, hr, -, hnames, -, hval⟩ := expression_names x hx hpos
  obtain ⟨n, hn⟩ : ∃ n, ∀ a ∈ x.names, computeConstant N defs types n a = .ok (ρ a) := by
    generalize x.names = l at hv
    induction l with
    | nil => exact ⟨0, by simp⟩
    | cons a l ih =>
      obtain ⟨n, hn⟩ := ih (fun b hb => hv b (by simp [hb]))
      obtain ⟨k, hk⟩ := hv a (by simp)
      refine ⟨max n k, fun b hb => ?_⟩
      rcases List.mem_cons.1 hb with rfl | hb
      · exact hk _ (by omega)
      · exact computeConstant_mono (hn b hb) _ (by omega)
  refine ⟨n + 1, computeConstant_mono ?_⟩
  have ho : hasOperator x.text = true := by
    unfold hasOperator
    rw [Bool.or_eq_true]
    left
    rw [List.any_eq_true]
    rcases hop with h | h
    · exact ⟨_, h, by decide⟩
    · exact ⟨_, h, by decide⟩
  have hknown : ∀ a ∈ x.names, (defs.get? a).isSome = true := by
    intro a ha
    have := hn a ha
    cases n with
    | zero => rw [computeConstant] at this; cases this
    | succ n =>
      rw [computeConstant] at this
      cases hd : defs.get? a with
      | none => rw [hd] at this; cases this
      | some _ => rfl
  have hprod := constantProduct_value (known := fun k => (defs.get? k).isSome) (f := computeConstant N defs types n) hN
    (by simp [h1]) (fun t ht hb => ⟨hknown _ (hnames t ht hb), hn _ (hnames t ht hb)⟩)
  simp only [computeConstant, hk, ht, ho, hr, hprod, hval ρ hρ, if_true]

/-- **C76** fails for names that are not defined: they are left out without an error. -/
theorem c76_not_undefined : ∃ (defs : Dict Str Str) (types : Str → Option Ty),
    defs.get? (c! "A") = some (c! "2 * B") ∧ defs.get? (c! "B") = none ∧
      ConstantIs rationals defs types (c! "A") 2 :=
  ⟨[(c! "A", c! "2 * B")], fun _ => some .float, by decide, by decide, 2, computeConstant_mono (by decide +kernel)⟩

/-- **C76** fails for numbers with a negative decimal exponent within an expression: `1.0e-3 * C` is `-3 C`. -/
theorem c76_not_small : ∃ (defs : Dict Str Str) (types : Str → Option Ty),
    defs.get? (c! "A") = some (c! "1.0e-3 * C") ∧ defs.get? (c! "C") = some (c! "2.0") ∧
      ConstantIs rationals defs types (c! "A") (-6) :=
  ⟨[(c! "A", c! "1.0e-3 * C"), (c! "C", c! "2.0")], fun _ => some .float, by decide, by decide, 2,
    computeConstant_mono (by decide +kernel)⟩

end Eprem.Config
