import Verif.Model.Exceptions
import Verif.Lemmas.PyDict

/-!
# Substitutes for exceptions (C61)
-/

namespace Eprem.Exceptions

open Eprem Eprem.Symbolic

variable {κ α β γ : Type} [DecidableEq κ]

/-- The value registered last for a class of exceptions. -/
def registered (calls : List (κ × Option γ)) (e : κ) : Option (Option γ) :=
  (calls.reverse.find? (fun p => p.1 = e)).map Prod.snd

theorem catchAll_get (calls : List (κ × Option γ)) (e : κ) : (catchAll calls).get? e = registered calls e := by
  have key : ∀ (l : List (κ × Option γ)) (d : Dict κ (Option γ)),
      (l.foldl (fun d p => d.set p.1 p.2) d).get? e = ((l.reverse.find? (fun p => p.1 = e)).map Prod.snd).or (d.get? e) := by
    intro l
    induction l with
    | nil => intro d; rfl
    | cons p l ih =>
      intro d
      rw [List.foldl_cons, ih, List.reverse_cons, List.find?_append, Dict.get?_set]
      cases l.reverse.find? (fun p => decide (p.1 = e)) with
      | some q => simp
      | none =>
        by_cases h : p.1 = e
        · simp [h]
        · simp [h, Ne.symm h]
  have := key calls []
  unfold catchAll
  rw [this]
  simp [registered, Dict.get?]

theorem catchAll_keys (calls : List (κ × Option γ)) (c : κ) : c ∈ (catchAll calls).keys ↔ ∃ p ∈ calls, p.1 = c := by
  rw [← Dict.get?_isSome]
  constructor
  · rintro ⟨v, hv⟩
    rw [catchAll_get] at hv
    unfold registered at hv
    obtain ⟨p, hp, -⟩ := Option.map_eq_some_iff.1 hv
    exact ⟨p, List.mem_reverse.1 (List.mem_of_find?_eq_some hp), by simpa using List.find?_some hp⟩
  · rintro ⟨p, hp, hc⟩
    have : (calls.reverse.find? (fun p => decide (p.1 = c))).isSome := by
      rw [List.find?_isSome]; exact ⟨p, List.mem_reverse.2 hp, by simpa using hc⟩
    obtain ⟨q, hq⟩ := Option.isSome_iff_exists.1 this
    exact ⟨q.2, by rw [catchAll_get, registered, hq]; rfl⟩

variable {isSub : κ → κ → Bool} {f : List α → Dict Str α → Except κ β} {calls : List (κ × Option γ)} {args : List α}
  {kwargs : Dict Str α}

/-- **C61**: a call that succeeds is not affected. -/
theorem c61_result {x : β} (h : f args kwargs = .ok x) : compute isSub f (catchAll calls) args kwargs = .ok (.result x) := by
  simp only [compute, h]

/-- **C61**: an exception of a registered class is replaced by the value registered last for this class. -/
theorem c61_substitute {e : κ} {x : γ} (hrefl : isSub e e = true) (h : f args kwargs = .error e)
    (hr : registered calls e = some (some x)) : compute isSub f (catchAll calls) args kwargs = .ok (.substitute x) := by
  have hk : (catchAll calls).keys.any (fun c => isSub e c) = true := by
    rw [List.any_eq_true]
    exact ⟨e, Dict.get?_isSome.1 ⟨_, by rw [catchAll_get, hr]⟩, hrefl⟩
  simp only [compute, h, hk, catchAll_get, hr, if_true]

/-- **C61**: with `Ellipsis` as the registered value, the arguments are returned: a single one by itself, several as a tuple,
keywords as a dictionary, or both. -/
theorem c61_arguments {e : κ} (hrefl : isSub e e = true) (h : f args kwargs = .error e) (hr : registered calls e = some none) :
    (∀ x, args = [x] → kwargs = [] → compute isSub f (catchAll calls) args kwargs = .ok (.argument x)) ∧
    (args.length ≠ 1 → kwargs = [] → compute isSub f (catchAll calls) args kwargs = .ok (.arguments args)) ∧
    (args = [] → kwargs ≠ [] → compute isSub f (catchAll calls) args kwargs = .ok (.keywords kwargs)) ∧
    (args ≠ [] → kwargs ≠ [] → compute isSub f (catchAll calls) args kwargs = .ok (.both args kwargs)) := by
  have hk : (catchAll calls).keys.any (fun c => isSub e c) = true := by
    rw [List.any_eq_true]
    exact ⟨e, Dict.get?_isSome.1 ⟨_, by rw [catchAll_get, hr]⟩, hrefl⟩
  have key : compute isSub f (catchAll calls) args kwargs = .ok (echo args kwargs) := by
    simp only [compute, h, hk, catchAll_get, hr, if_true]
  rw [key]
  refine ⟨?_, ?_, ?_, ?_⟩
  · rintro x rfl rfl; rfl
  · rintro hl rfl
    match args, hl with
    | [], _ => rfl
    | _ :: _ :: _, _ => rfl
  · rintro rfl hk
    simp [echo, hk]
  · intro ha hk
    simp [echo, ha, hk]

/-- **C61**: any other exception is passed on, if it is no subclass of a registered class. -/
theorem c61_other {e : κ} (h : f args kwargs = .error e) (hr : ∀ p ∈ calls, isSub e p.1 = false) :
    compute isSub f (catchAll calls) args kwargs = .error (.own e) := by
  have hk : (catchAll calls).keys.any (fun c => isSub e c) = false := by
    rw [List.any_eq_false]
    intro c hc
    obtain ⟨p, hp, rfl⟩ := (catchAll_keys calls c).1 hc
    simp [hr p hp]
  simp only [compute, h, hk]
  rfl

/-- **C61** fails for subclasses of registered classes that are not registered themselves: `KeyError` is raised, and neither
is the registered value returned nor the exception passed on. -/
theorem c61_not_subclass {e c : κ} {x : Option γ} (h : f args kwargs = .error e) (hc : (c, x) ∈ calls) (hsub : isSub e c = true)
    (hr : ∀ p ∈ calls, p.1 ≠ e) : compute isSub f (catchAll calls) args kwargs = .error .key := by
  have hk : (catchAll calls).keys.any (fun c => isSub e c) = true := by
    rw [List.any_eq_true]
    exact ⟨c, (catchAll_keys calls c).2 ⟨_, hc, rfl⟩, hsub⟩
  have hn : registered calls e = none := by
    unfold registered
    rw [Option.map_eq_none_iff, List.find?_eq_none]
    intro p hp
    simpa using hr p (List.mem_reverse.1 hp)
  simp only [compute, h, hk, catchAll_get, hn, if_true]

/-! `invert` of the documentation: classes `TypeError`, `ZeroDivisionError`, its base class `ArithmeticError`, and
`ValueError`. -/

/-- Some classes of exceptions. -/
inductive Demo | type | zeroDivision | arithmetic | value
  deriving DecidableEq

/-- Subclasses among them. -/
def Demo.below : Demo → Demo → Bool
  | .zeroDivision, .arithmetic => true
  | a, b => a = b

/-- The function that inverts positive numbers. -/
def invert : List Int → Dict Str Int → Except Demo Rat
  | [n], [] => if n < 0 then .error .value else if n = 0 then .error .zeroDivision else .ok (1 / n)
  | _, _ => .error .type

example : invert [2] [] = .ok (1 / 2) := by decide +kernel
example : registered (γ := Str) [(Demo.type, none), (.zeroDivision, some ['B', 'a', 'd'])] Demo.zeroDivision = some (some ['B', 'a', 'd']) := by decide
example : compute Demo.below invert (catchAll (γ := Str) [(Demo.type, none), (.zeroDivision, some ['B', 'a', 'd'])]) [0] [] =
    .ok (.substitute ['B', 'a', 'd']) :=
  c61_substitute (e := .zeroDivision) (by decide) (by decide) (by decide)
example : compute Demo.below invert (catchAll (γ := Str) [(Demo.type, none)]) [1, 2] [] = .ok (.arguments [1, 2]) :=
  (c61_arguments (e := .type) (by decide) (by decide) (by decide)).2.1 (by decide) rfl
example : compute Demo.below invert (catchAll (γ := Str) [(Demo.type, none)]) [-1] [] = .error (.own .value) :=
  c61_other (by decide) (by decide)
example : compute Demo.below invert (catchAll (γ := Str) [(Demo.arithmetic, some [])]) [0] [] = .error .key :=
  c61_not_subclass (c := .arithmetic) (x := some []) (e := .zeroDivision) (by decide) (by decide) (by decide) (by decide)

/-! ## `convert` -/

/-- **C61**, `convert`: a call that succeeds is not affected, exceptions of the expected class and its subclasses are
replaced by the given exception or value, and all others are passed on. -/
theorem c61_convert {ι : Type} (isSub : κ → κ → Bool) (expected : κ) (r : Replacement κ β) (f : ι → Except κ β) (x : ι) :
    (∀ y, f x = .ok y → convert isSub expected r f x = .ok y) ∧
    (∀ e, f x = .error e → isSub e expected = true → ∀ e', r = .raise e' → convert isSub expected r f x = .error e') ∧
    (∀ e, f x = .error e → isSub e expected = true → ∀ y, r = .value y → convert isSub expected r f x = .ok y) ∧
    (∀ e, f x = .error e → isSub e expected = false → convert isSub expected r f x = .error e) := by
  refine ⟨?_, ?_, ?_, ?_⟩
  · intro y h; simp only [convert, h]
  · rintro e h hs e' rfl; simp only [convert, h, hs, if_true]
  · rintro e h hs y rfl; simp only [convert, h, hs, if_true]
  · intro e h hs; simp only [convert, h, hs]; rfl

example : convert Demo.below Demo.arithmetic (.value 0) (fun n => invert [n] []) 0 = .ok 0 :=
  (c61_convert _ _ _ _ _).2.2.1 .zeroDivision (by decide) (by decide) 0 rfl

end Eprem.Exceptions
