import Verif.Model.Implement
import Mathlib.Data.List.Induction

/-!
# C133: custom implementations of operators and numpy functions
-/

namespace Eprem.Implement

/-! ## Specification -/

/-- What a request means: an operator, by its name, an alias or its callable, or a function of numpy. -/
def target (T : Table) : Req → Option (Nat ⊕ Nat)
  | .name s => (T.names s).map Sum.inl
  | .call c => some (if T.canon c then .inl c else .inr c)
  | .other => none

/-- The classes that share their implementations of this operation with this class are those with the same nearest
class with a dictionary. -/
def family (S : State) (c : Cls) : Nat ⊕ Nat → Option Cls
  | .inl _ => owner S.ops c
  | .inr _ => owner S.fns c

/-- The registrations of this operation for the family of this class. -/
def concerns (T : Table) (S : State) (c : Cls) (t : Nat ⊕ Nat) (e : Reg) : Bool :=
  decide (target T e.op = some t) && decide (family S e.cls t = family S c t)

/-- The last registration in the history that concerns this class and operation. -/
def lastReg (T : Table) (S : State) (c : Cls) (t : Nat ⊕ Nat) (es : List Reg) : Option Nat :=
  (es.reverse.find? (concerns T S c t)).map Reg.impl

/-- An object of a type that the lists of accepted types do not name. -/
def isForeign : Arg → Bool
  | .foreign _ => true
  | _ => false

/-- No class has any implementation yet. -/
def Fresh (S : State) : Prop :=
  (∀ c t, S.ops c = some t → ∀ k, t k = none) ∧ (∀ c t, S.fns c = some t → ∀ k, t k = none)

/-- The table holds exactly the values of its names. -/
def Table.WF (T : Table) : Prop := ∀ k, T.canon k = true ↔ ∃ s, T.names s = some k

/-! ## Lemmas -/

theorem owner_congr {d d' : Attr} (h : ∀ c, (d' c).isSome = (d c).isSome) : ∀ c, owner d' c = owner d c
  | [] => by simp [owner, h]
  | n :: b => by simp [owner, h, owner_congr h b]

theorem owner_isSome {d : Attr} : ∀ {c o}, owner d c = some o → (d o).isSome
  | [], o, h => by
    unfold owner at h; split at h
    · cases h; assumption
    · cases h
  | n :: b, o, h => by
    unfold owner at h; split at h
    · cases h; assumption
    · exact owner_isSome h

theorem assign_isSome {d d' : Attr} {c k f} (h : assign d c k f = .ok d') (x : Cls) :
    (d' x).isSome = (d x).isSome := by
  unfold assign at h; split at h
  · cases h
  · rename_i o _
    cases h
    by_cases hx : x = o
    · subst hx; simp
    · simp [hx]

theorem assign_owner {d d' : Attr} {c k f} (h : assign d c k f = .ok d') (x : Cls) : owner d' x = owner d x :=
  owner_congr (assign_isSome h) x

theorem assign_attr {d d' : Attr} {c k f} (h : assign d c k f = .ok d') (x : Cls) (j : Nat) :
    (attr d' x).bind (· j) = if j = k ∧ owner d c = owner d x then some f else (attr d x).bind (· j) := by
  have ho := assign_owner h x
  unfold attr
  rw [ho]
  unfold assign at h; split at h
  · cases h
  · rename_i o hoc
    cases h
    cases hx : owner d x with
    | none => simp [hoc]
    | some p =>
      by_cases hp : p = o
      · subst hp
        obtain ⟨t, ht⟩ := Option.isSome_iff_exists.1 (owner_isSome hx)
        by_cases hj : j = k
        · subst hj; simp [ht, hoc]
        · simp [ht, hj]
      · simp [hp, hoc, Ne.symm hp]

/-- The implementation that a class has for an operation. -/
def current (S : State) (c : Cls) : Nat ⊕ Nat → Option Nat
  | .inl k => (attr S.ops c).bind (· k)
  | .inr u => (attr S.fns c).bind (· u)

theorem assign_error {d : Attr} {c k f x} (h : assign d c k f = .error x) : owner d c = none := by
  unfold assign at h; split at h
  · assumption
  · cases h

theorem attr_none {d : Attr} {c} (h : owner d c = none) : attr d c = none := by simp [attr, h]

theorem step_family (T : Table) (S : State) (e : Reg) (c : Cls) (t) : family (step T S e) c t = family S c t := by
  unfold step implements
  rcases e with ⟨ec, er, ef⟩
  cases hr : resolve T er with
  | error x => simp [bind, Except.bind]
  | ok v =>
    cases v with
    | some k =>
      cases ha : assign S.ops ec k ef with
      | error x => simp [bind, Except.bind, ha]
      | ok d' => cases t <;> simp [bind, Except.bind, pure, Except.pure, ha, family, assign_owner ha]
    | none =>
      cases er with
      | name s => simp [bind, Except.bind, throw, throwThe, MonadExceptOf.throw]
      | other => simp [bind, Except.bind, throw, throwThe, MonadExceptOf.throw]
      | call u =>
        cases ha : assign S.fns ec u ef with
        | error x => simp [bind, Except.bind, ha]
        | ok d' => cases t <;> simp [bind, Except.bind, pure, Except.pure, ha, family, assign_owner ha]

theorem run_family (T : Table) : ∀ (es : List Reg) (S : State) (c : Cls) (t), family (run T S es) c t = family S c t
  | [], _, _, _ => rfl
  | e :: es, S, c, t => by
    show family (run T (step T S e) es) c t = _
    rw [run_family T es, step_family]

theorem step_current (T : Table) (S : State) (e : Reg) (c : Cls) (t) (hf : (family S c t).isSome) :
    current (step T S e) c t = if concerns T S c t e then some e.impl else current S c t := by
  unfold step implements concerns
  simp only [Bool.and_eq_true, decide_eq_true_eq]
  rcases e with ⟨ec, er, ef⟩
  cases er with
  | other => simp [resolve, bind, Except.bind, target]
  | name s =>
    cases hs : T.names s with
    | none => simp [resolve, hs, bind, Except.bind, target, throw, throwThe, MonadExceptOf.throw]
    | some k =>
      cases ha : assign S.ops ec k ef with
      | error x =>
        have hn := assign_error ha
        cases t with
        | inl j =>
          have : ¬ (none : Option Cls) = owner S.ops c := by
            intro h0; simp [family, ← h0] at hf
          simp [resolve, hs, bind, Except.bind, target, ha, family, hn, this]
        | inr u => simp [resolve, hs, bind, Except.bind, target, ha]
      | ok d' =>
        cases t with
        | inl j =>
          have hiff : ∀ a b : Nat, (a = b) = (b = a) := fun a b => propext eq_comm
          simp [resolve, hs, bind, Except.bind, pure, Except.pure, target, ha, family, current, assign_attr ha, hiff j]
        | inr u => simp [resolve, hs, bind, Except.bind, pure, Except.pure, target, ha, current]
  | call u =>
    cases hu : T.canon u with
    | true =>
      cases ha : assign S.ops ec u ef with
      | error x =>
        have hn := assign_error ha
        cases t with
        | inl j =>
          have : ¬ (none : Option Cls) = owner S.ops c := by
            intro h0; simp [family, ← h0] at hf
          simp [resolve, hu, bind, Except.bind, target, ha, family, hn, this]
        | inr v => simp [resolve, hu, bind, Except.bind, target, ha]
      | ok d' =>
        cases t with
        | inl j =>
          have hiff : ∀ a b : Nat, (a = b) = (b = a) := fun a b => propext eq_comm
          simp [resolve, hu, bind, Except.bind, pure, Except.pure, target, ha, family, current, assign_attr ha, hiff j]
        | inr v => simp [resolve, hu, bind, Except.bind, pure, Except.pure, target, ha, current]
    | false =>
      cases ha : assign S.fns ec u ef with
      | error x =>
        have hn := assign_error ha
        cases t with
        | inr j =>
          have : ¬ (none : Option Cls) = owner S.fns c := by
            intro h0; simp [family, ← h0] at hf
          simp [resolve, hu, bind, Except.bind, target, ha, family, hn, this]
        | inl v => simp [resolve, hu, bind, Except.bind, target, ha]
      | ok d' =>
        cases t with
        | inr j =>
          have hiff : ∀ a b : Nat, (a = b) = (b = a) := fun a b => propext eq_comm
          simp [resolve, hu, bind, Except.bind, pure, Except.pure, target, ha, family, current, assign_attr ha, hiff j]
        | inl v => simp [resolve, hu, bind, Except.bind, pure, Except.pure, target, ha, current]

theorem run_append (T : Table) (S : State) (es : List Reg) (e : Reg) :
    run T S (es ++ [e]) = step T (run T S es) e := by simp [run]

theorem concerns_run (T : Table) (es : List Reg) (S : State) (c : Cls) (t e) :
    concerns T (run T S es) c t e = concerns T S c t e := by
  unfold concerns; rw [run_family, run_family]

theorem run_current (T : Table) (S : State) (es : List Reg) (c : Cls) (t) (hf : (family S c t).isSome) :
    current (run T S es) c t = (lastReg T S c t es).or (current S c t) := by
  induction es using List.reverseRecOn with
  | nil => simp [run, lastReg]
  | append_singleton es e ih =>
    rw [run_append, step_current T _ e c t (by rw [run_family]; exact hf), concerns_run, ih]
    unfold lastReg
    rw [List.reverse_append]
    cases h : concerns T S c t e <;> simp [h]

theorem fresh_current {S : State} (h : Fresh S) (c t) : current S c t = none := by
  have key : ∀ d : Attr, (∀ c t, d c = some t → ∀ k, t k = none) → ∀ k, (attr d c).bind (· k) = none := by
    intro d hd k
    cases ha : attr d c with
    | none => rfl
    | some x =>
      unfold attr at ha
      cases ho : owner d c with
      | none => simp [ho] at ha
      | some o =>
        simp [ho] at ha
        simpa using hd o x ha k
  cases t with
  | inl k => exact key S.ops h.1 k
  | inr u => exact key S.fns h.2 u

theorem objectOperator_eq (T : Table) (S : State) (c : Cls) (r : Req) (k : Nat) (hk : resolve T r = .ok (some k))
    (args : List Arg) :
    objectOperator T S c r args = .ok (match current S c (.inl k) with
      | some f => .custom f args []
      | none => .notImplemented) := by
  unfold objectOperator hasImpl current
  cases ha : attr S.ops c with
  | none => simp [hk, bind, Except.bind, pure, Except.pure, ha]
  | some t => cases ht : t k <;> simp [hk, bind, Except.bind, pure, Except.pure, ha, ht]

/-! ## Theorems -/

/-- A concrete table: the operators 0 (`'add'`, with the alias `'addition'`) and 1 (`'sub'`). -/
def exTable : Table :=
  ⟨fun s => if s = "add" ∨ s = "addition" then some 0 else if s = "sub" then some 1 else none, fun c => c < 2⟩

/-- Concrete classes: 1 and 2, each with their own dictionaries, and 3 below 1 without. -/
def exState : State :=
  let d : Attr := fun c => if c = [1] ∨ c = [2] then some (fun _ => none) else none
  ⟨d, d⟩

theorem exState_fresh : Fresh exState := by
  constructor <;> intro c t h k <;> simp only [exState] at h <;> split at h <;> cases h <;> rfl

/-- C133: the implementation that an operator applies is the one registered last for the same operation, whichever of
its names, aliases or callables was used, in the family of the class; the other registrations do not matter, and
without any there is no implementation. -/
theorem c133_operator (T : Table) (S : State) (hS : Fresh S) (es : List Reg) (c : Cls) (r : Req) (k : Nat)
    (hr : target T r = some (.inl k)) (hc : (owner S.ops c).isSome) (args : List Arg) :
    objectOperator T (run T S es) c r args = .ok (match lastReg T S c (.inl k) es with
      | some f => .custom f args []
      | none => .notImplemented) := by
  have hk : resolve T r = .ok (some k) := by
    cases r with
    | other => cases hr
    | name s => simpa [resolve, target] using hr
    | call u =>
      cases hu : T.canon u <;> simp [target, hu] at hr
      subst hr; simp [resolve, hu]
  rw [objectOperator_eq T _ c r k hk, run_current T S es c (.inl k) hc, fresh_current hS]
  simp

/-- Class 1 registers an implementation by name and then by alias: an instance of class 3 below it applies the last. -/
example : objectOperator exTable (run exTable exState [⟨[1], .name "add", 10⟩, ⟨[2], .name "add", 11⟩,
    ⟨[1], .name "addition", 12⟩, ⟨[1], .call 1, 13⟩]) [3, 1] (.call 0) [.plain 5] = .ok (.custom 12 [.plain 5] []) := by
  decide +kernel

example : (owner exState.ops [3, 1]).isSome ∧ target exTable (.call 0) = some (.inl 0) := by decide +kernel

/-- C133: a method made by `unary`, `binary` or `doublet` for an operator applies the same implementation, with the
operands in the order of the expression, also where the instance is the second operand. -/
theorem c133_methods (T : Table) (hT : T.WF) (S : State) (hS : Fresh S) (es : List Reg) (c : Cls) (r : Req) (k : Nat)
    (hr : target T r = some (.inl k)) (hc : (owner S.ops c).isSome) (a b : Arg) :
    operatorMethod T (run T S es) c r [a, b] = .ok (match lastReg T S c (.inl k) es with
      | some f => .custom f [a, b] []
      | none => .notImplemented) ∧
    reverseMethod T (run T S es) c r a b = .ok (match lastReg T S c (.inl k) es with
      | some f => .custom f [b, a] []
      | none => .notImplemented) := by
  have hk : resolve T r = .ok (some k) ∧ T.canon k = true := by
    cases r with
    | other => cases hr
    | name s =>
      have : T.names s = some k := by simpa [target] using hr
      exact ⟨by simp [resolve, this], (hT k).2 ⟨s, this⟩⟩
    | call u =>
      cases hu : T.canon u <;> simp [target, hu] at hr
      subst hr; simp [resolve, hu]
  have h2 : target T (.call k) = some (.inl k) := by simp [target, hk.2]
  constructor
  · rw [← c133_operator T S hS es c (.call k) k h2 hc]; simp [operatorMethod, hk.1, bind, Except.bind]
  · rw [← c133_operator T S hS es c (.call k) k h2 hc]; simp [reverseMethod, operatorMethod, hk.1, bind, Except.bind]

example : exTable.WF := by
  intro k
  constructor
  · intro h
    have : k = 0 ∨ k = 1 := by simp [exTable] at h; omega
    rcases this with rfl | rfl
    · exact ⟨"add", by decide +kernel⟩
    · exact ⟨"sub", by decide +kernel⟩
  · rintro ⟨s, hs⟩
    simp only [exTable] at hs ⊢
    split at hs
    · cases hs; rfl
    · split at hs
      · cases hs; rfl
      · cases hs

/-- C133: a universal function of numpy applies the implementation registered last for it in the family of the class, to
the arguments as they are; without one it applies numpy's own operation to the data of all arguments (and gives `None`
for the method `at`).  In both cases `out` is replaced by its data.  With an argument or `out` of a foreign type it gives
`NotImplemented`. -/
theorem c133_ufunc (T : Table) (S : State) (hS : Fresh S) (es : List Reg) (c : Cls) (u : Nat) (hu : T.canon u = false)
    (hc : (owner S.fns c).isSome) (method : String) (args out : List Arg) :
    arrayUfunc T (run T S es) c u method args out = .ok (
      if (args ++ out).any isForeign then .notImplemented
      else match lastReg T S c (.inr u) es with
        | some f => .custom f args (out.map Arg.unwrap)
        | none => if method = "at" then .none u method (args.map Arg.unwrap) (out.map Arg.unwrap)
          else .numpy u method (args.map Arg.unwrap) (out.map Arg.unwrap)) := by
  have hcur := run_current T S es c (.inr u) hc
  rw [fresh_current hS, Option.or_none] at hcur
  have hacc : (!((args ++ out).all Arg.accepted)) = (args ++ out).any isForeign := by
    rw [List.not_all_eq_any_not]
    congr 1
    funext x
    cases x <;> rfl
  unfold arrayUfunc
  rw [hacc]
  cases hx : (args ++ out).any isForeign
  · simp only [Bool.false_eq_true, if_false]
    unfold hasImpl
    rw [← hcur]
    simp only [current]
    cases ha : attr (run T S es).fns c with
    | none => by_cases hm : method = "at" <;> simp [resolve, hu, ha, hm, bind, Except.bind, pure, Except.pure]
    | some t =>
      cases ht : t u <;> by_cases hm : method = "at" <;>
        simp [resolve, hu, ha, ht, hm, bind, Except.bind, pure, Except.pure]
  · rfl

example : arrayUfunc exTable (run exTable exState [⟨[1], .call 7, 20⟩]) [3, 1] 7 "__call__" [.obj [1] 4] [.obj [1] 5]
    = .ok (.custom 20 [.obj [1] 4] [.plain 5]) := by decide +kernel
example : arrayUfunc exTable (run exTable exState [⟨[1], .call 7, 20⟩]) [2] 7 "at" [.obj [1] 4, .plain 2] []
    = .ok (.none 7 "at" [.plain 4, .plain 2] []) := by decide +kernel

/-- C133: a registration fails, and changes nothing, exactly if the operation is neither an operator nor a callable
(`TypeError`) or the class and its bases have no dictionary for it (`NotImplementedError`). -/
theorem c133_register (T : Table) (S : State) (c : Cls) (r : Req) (f : Nat) :
    (∀ x, implements T S c r f = .error x ↔
      (target T r = none ∧ x = .type) ∨ (∃ t, target T r = some t ∧ family S c t = none ∧ x = .notImplemented)) := by
  intro x
  have ha : ∀ d : Attr, ∀ k, (∀ y, assign d c k f = .error y ↔ (owner d c = none ∧ y = .notImplemented)) := by
    intro d k y
    unfold assign
    cases owner d c <;> simp [eq_comm]
  have hb : ∀ (d : Attr) (k) (g : Attr → State), ((do return g (← assign d c k f)) : Except Err State) = .error x ↔
      (owner d c = none ∧ x = .notImplemented) := by
    intro d k g
    rw [← ha d k x]
    cases assign d c k f <;> simp [bind, Except.bind, pure, Except.pure]
  unfold implements
  cases r with
  | other => simp [resolve, bind, Except.bind, target, eq_comm]
  | name s =>
    cases hs : T.names s with
    | none => simp [resolve, hs, bind, Except.bind, target, throw, throwThe, MonadExceptOf.throw, eq_comm]
    | some k =>
      have := hb S.ops k (fun d => { S with ops := d })
      simpa [resolve, hs, bind, Except.bind, target, family] using this
  | call u =>
    cases hu : T.canon u with
    | true =>
      have := hb S.ops u (fun d => { S with ops := d })
      simpa [resolve, hu, bind, Except.bind, target, family] using this
    | false =>
      have := hb S.fns u (fun d => { S with fns := d })
      simpa [resolve, hu, bind, Except.bind, target, family] using this

example : implements exTable exState [2] (.name "no such") 1 = .error .type :=
  (c133_register _ _ _ _ _ _).2 (Or.inl (by decide +kernel))
example : implements exTable exState [9] (.name "add") 1 = .error .notImplemented :=
  (c133_register _ _ _ _ _ _).2 (Or.inr ⟨.inl 0, by decide +kernel⟩)

/-- C133: classes with dictionaries of their own never see the registrations of one another: only registrations for
classes of the same family matter. -/
theorem c133_independent_partial (T : Table) (S : State) (hS : Fresh S) (es : List Reg) (c : Cls) (r : Req) (k : Nat)
    (hr : target T r = some (.inl k)) (hc : (owner S.ops c).isSome) (args : List Arg)
    (hes : ∀ e ∈ es, owner S.ops e.cls ≠ owner S.ops c) :
    objectOperator T (run T S es) c r args = .ok .notImplemented := by
  rw [c133_operator T S hS es c r k hr hc]
  have : lastReg T S c (.inl k) es = none := by
    unfold lastReg
    rw [Option.map_eq_none_iff, List.find?_eq_none]
    intro e he
    simp [concerns, family, hes e (List.mem_reverse.1 he)]
  rw [this]

example : ∀ e ∈ [Reg.mk [1] (.name "add") 10, Reg.mk [3, 1] (.name "add") 10],
    owner exState.ops e.cls ≠ owner exState.ops [2] := by decide +kernel

/-- What is missing: a class below without dictionaries of its own registers for its base too, and for every other class
below that base. -/
theorem c133_independent_violated :
    objectOperator exTable (run exTable exState [⟨[3, 1], .name "add", 10⟩]) [1] (.name "add") [] = .ok (.custom 10 [] [])
    ∧ objectOperator exTable (run exTable exState [⟨[3, 1], .name "add", 10⟩]) [4, 1] (.name "add") []
      = .ok (.custom 10 [] []) := by decide +kernel

/-- What is missing: asked directly for a function that is implemented but is no operator, `__object_operator__` gives
`KeyError` instead of applying the implementation. -/
theorem c133_object_operator_violated :
    objectOperator exTable (run exTable exState [⟨[1], .call 7, 20⟩]) [1] (.call 7) [] = .error .key := by decide +kernel

end Eprem.Implement
