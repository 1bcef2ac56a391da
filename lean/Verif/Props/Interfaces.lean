import Verif.Model.Interfaces
import Verif.Props.Datafile

/-!
# The interfaces to the arrays (C81) and axes (C82) of a file
-/

namespace Eprem.Datafile

open Eprem
open Eprem.Symbolic (Str)

variable {α β : Type} {arrays : Dict Str (Arr α)} {make : Str → Arr α → Except Exc β}

/-! ## C81 -/

/-- The array of the file with this name, converted; `KeyError` without it. -/
def Reads (arrays : Dict Str (Arr α)) (make : Str → Arr α → Except Exc β) (name : Str) (r : Except Exc (Option β)) : Prop :=
  (arrays.get? name = none ∧ r = .error .key) ∨ ∃ a, arrays.get? name = some a ∧
    ((∃ x, make name a = .ok x ∧ r = .ok (some x)) ∨ ∃ e, make name a = .error e ∧ r = .error e)

/-- Does the file have this array? -/
def Has (arrays : Dict Str (Arr α)) (name : Str) : Prop := ∃ a, arrays.get? name = some a

/-- The answer that the file determines, without any history. -/
def Right (arrays : Dict Str (Arr α)) (make : Str → Arr α → Except Exc β) : Access → Answer β → Prop
  | .hasdist, a => ∃ b : Bool, a = .flag b ∧ (b = true ↔ Has arrays "Dist".toList)
  | .hasflux, a => ∃ b : Bool, a = .flag b ∧ (b = true ↔ Has arrays "flux".toList)
  | .f, a => ∃ r, a = .value r ∧ (Has arrays "flux".toList ∧ r = .ok none ∨
      ¬ Has arrays "flux".toList ∧ Reads arrays make "Dist".toList r)
  | .flux, a => ∃ r, a = .value r ∧ (¬ Has arrays "flux".toList ∧ r = .ok none ∨
      Has arrays "flux".toList ∧ Reads arrays make "flux".toList r)
  | .simple p, a => ∃ r, a = .value r ∧ (simple.get? p = none ∧ r = .error .key ∨
      ∃ name, simple.get? p = some name ∧ Reads arrays make name r)

/-- The caches agree with the file. -/
structure AInv (arrays : Dict Str (Arr α)) (make : Str → Arr α → Except Exc β) (s : Arrays β) : Prop where
  dist : ∀ b, s.hasdist = some b → b = (arrays.get? "Dist".toList).isSome
  hasflux : ∀ b, s.hasflux = some b → b = (arrays.get? "flux".toList).isSome
  f : ∀ x, s.f = some x → arrays.get? "flux".toList = none ∧ create arrays make "Dist".toList = .ok x
  flux : ∀ x, s.flux = some x → (arrays.get? "flux".toList).isSome = true ∧ create arrays make "flux".toList = .ok x
  rest : ∀ p x, s.quantities.get? p = some x → ∃ name, simple.get? p = some name ∧ create arrays make name = .ok x

theorem isSome_iff (name : Str) : (arrays.get? name).isSome = true ↔ Has arrays name := by
  unfold Has
  cases arrays.get? name <;> simp

theorem reads_ok {name : Str} {x : β} (h : create arrays make name = .ok x) : Reads arrays make name (.ok (some x)) := by
  unfold create at h
  cases ha : arrays.get? name with
  | none => rw [ha] at h; cases h
  | some a => rw [ha] at h; exact .inr ⟨a, ha, .inl ⟨x, h, rfl⟩⟩

theorem reads_error {name : Str} {e : Exc} (h : create arrays make name = .error e) : Reads arrays make name (.error e) := by
  unfold create at h
  cases ha : arrays.get? name with
  | none => rw [ha] at h; cases h; exact .inl ⟨ha, rfl⟩
  | some a => rw [ha] at h; exact .inr ⟨a, ha, .inr ⟨e, h, rfl⟩⟩

theorem hasflux_does {s : Arrays β} (h : AInv arrays make s) : (s.getHasflux arrays).1 = (arrays.get? "flux".toList).isSome ∧
    AInv arrays make (s.getHasflux arrays).2 := by
  unfold Arrays.getHasflux
  cases hb : s.hasflux with
  | some b => exact ⟨h.hasflux b hb, h⟩
  | none => exact ⟨rfl, ⟨h.dist, fun b hb => by cases hb; rfl, h.f, h.flux, h.rest⟩⟩

theorem access_does {s : Arrays β} (h : AInv arrays make s) (a : Access) :
    Right arrays make a (s.access arrays make a).1 ∧ AInv arrays make (s.access arrays make a).2 := by
  cases a with
  | hasdist =>
    simp only [Arrays.access, Arrays.getHasdist]
    cases hb : s.hasdist with
    | some b => exact ⟨⟨b, rfl, by rw [h.dist b hb, isSome_iff]⟩, h⟩
    | none => exact ⟨⟨_, rfl, isSome_iff _⟩, ⟨fun b hb => by cases hb; rfl, h.hasflux, h.f, h.flux, h.rest⟩⟩
  | hasflux =>
    obtain ⟨h1, h2⟩ := hasflux_does h
    exact ⟨⟨_, rfl, by rw [h1, isSome_iff]⟩, h2⟩
  | f =>
    simp only [Arrays.access, Arrays.getF]
    cases hf : s.f with
    | some x =>
      obtain ⟨h1, h2⟩ := h.f x hf
      exact ⟨⟨_, rfl, .inr ⟨by unfold Has; rw [h1]; simp, reads_ok h2⟩⟩, h⟩
    | none =>
      obtain ⟨h1, h2⟩ := hasflux_does h
      generalize s.getHasflux arrays = r at h1 h2
      obtain ⟨b, s'⟩ := r
      simp only at h1 h2
      cases b with
      | true => exact ⟨⟨_, rfl, .inl ⟨(isSome_iff _).1 h1.symm, rfl⟩⟩, h2⟩
      | false =>
        have hno : ¬ Has arrays "flux".toList := by rw [← isSome_iff, ← h1]; simp
        simp only
        cases hc : create arrays make "Dist".toList with
        | error e => exact ⟨⟨_, rfl, .inr ⟨hno, reads_error hc⟩⟩, h2⟩
        | ok x =>
          refine ⟨⟨_, rfl, .inr ⟨hno, reads_ok hc⟩⟩, h2.dist, h2.hasflux, fun y hy => ?_, h2.flux, h2.rest⟩
          cases hy
          exact ⟨by simpa using h1.symm, hc⟩
  | flux =>
    simp only [Arrays.access, Arrays.getFlux]
    cases hf : s.flux with
    | some x =>
      obtain ⟨h1, h2⟩ := h.flux x hf
      exact ⟨⟨_, rfl, .inr ⟨(isSome_iff _).1 h1, reads_ok h2⟩⟩, h⟩
    | none =>
      obtain ⟨h1, h2⟩ := hasflux_does h
      generalize s.getHasflux arrays = r at h1 h2
      obtain ⟨b, s'⟩ := r
      simp only at h1 h2
      cases b with
      | false => exact ⟨⟨_, rfl, .inl ⟨by rw [← isSome_iff, ← h1]; simp, rfl⟩⟩, h2⟩
      | true =>
        have hyes := (isSome_iff (arrays := arrays) _).1 h1.symm
        simp only
        cases hc : create arrays make "flux".toList with
        | error e => exact ⟨⟨_, rfl, .inr ⟨hyes, reads_error hc⟩⟩, h2⟩
        | ok x =>
          refine ⟨⟨_, rfl, .inr ⟨hyes, reads_ok hc⟩⟩, h2.dist, h2.hasflux, h2.f, fun y hy => ?_, h2.rest⟩
          cases hy
          exact ⟨h1.symm, hc⟩
  | simple p =>
    simp only [Arrays.access, Arrays.getSimple]
    cases hq : s.quantities.get? p with
    | some x =>
      obtain ⟨name, h1, h2⟩ := h.rest p x hq
      exact ⟨⟨_, rfl, .inr ⟨name, h1, reads_ok h2⟩⟩, h⟩
    | none =>
      simp only
      cases hn : simple.get? p with
      | none => exact ⟨⟨_, rfl, .inl ⟨hn, rfl⟩⟩, h⟩
      | some name =>
        simp only
        cases hc : create arrays make name with
        | error e => exact ⟨⟨_, rfl, .inr ⟨name, hn, reads_error hc⟩⟩, h⟩
        | ok x =>
          refine ⟨⟨_, rfl, .inr ⟨name, hn, reads_ok hc⟩⟩, h.dist, h.hasflux, h.f, h.flux, fun q y hy => ?_⟩
          simp only [Dict.get?_set] at hy
          by_cases hqp : p = q
          · rw [if_pos hqp] at hy
            cases hy
            exact ⟨name, by rw [← hqp, hn], hc⟩
          · rw [if_neg hqp] at hy
            exact h.rest q y hy

theorem after_inv (arrays : Dict Str (Arr α)) (make : Str → Arr α → Except Exc β) (history : List Access) :
    AInv arrays make (Arrays.after arrays make history) := by
  unfold Arrays.after
  have : ∀ (l : List Access) (s : Arrays β), AInv arrays make s →
      AInv arrays make (l.foldl (fun s a => (s.access arrays make a).2) s) := by
    intro l
    induction l with
    | nil => intro s h; exact h
    | cons a l ih => intro s h; exact ih _ (access_does h a).2
  exact this history {} ⟨by simp, by simp, by simp, by simp, by simp⟩

/-- **C81**: after every history of accesses, each property has the value that the file determines: every quantity is read
from its own variable of the file, the flux is available exactly if the file has it, and the distribution if the file has no
flux. -/
theorem c81_access (arrays : Dict Str (Arr α)) (make : Str → Arr α → Except Exc β) (history : List Access) (a : Access) :
    Right arrays make a ((Arrays.after arrays make history).access arrays make a).1 :=
  (access_does (after_inv arrays make history) a).1

/-- **C81**: the distribution and the flux are never both available. -/
theorem c81_exclusive (arrays : Dict Str (Arr α)) (make : Str → Arr α → Except Exc β) (h1 h2 : List Access) {x y : β}
    (hf : ((Arrays.after arrays make h1).access arrays make .f).1 = .value (.ok (some x)))
    (hx : ((Arrays.after arrays make h2).access arrays make .flux).1 = .value (.ok (some y))) : False := by
  obtain ⟨r, e1, k1⟩ := c81_access arrays make h1 .f
  obtain ⟨r', e2, k2⟩ := c81_access arrays make h2 .flux
  rw [hf] at e1
  rw [hx] at e2
  cases e1
  cases e2
  rcases k1 with ⟨_, k⟩ | ⟨k, _⟩
  · cases k
  · rcases k2 with ⟨_, k'⟩ | ⟨k', _⟩
    · cases k'
    · exact k k'

/-- **C81 is violated**: `hasdist` does not mean that the distribution is available; a file with both arrays gives only the
flux. -/
theorem c81_not_hasdist (arrays : Dict Str (Arr α)) (make : Str → Arr α → Except Exc β) (history : List Access)
    (h : Has arrays "flux".toList) : ((Arrays.after arrays make history).access arrays make .f).1 = .value (.ok none) := by
  obtain ⟨r, e, k | k⟩ := c81_access arrays make history .f
  · rw [e, k.2]
  · exact absurd h k.1

/-- **C81**: different quantities are read from different variables of the file. -/
theorem c81_own {p q n : Str} (hp : Dict.get? simple p = some n) (hq : Dict.get? simple q = some n) : p = q := by
  have key : ∀ e ∈ simple, ∀ e' ∈ simple, e.2 = e'.2 → e.1 = e'.1 := by decide
  exact key (p, n) (Dict.mem_of_get? hp) (q, n) (Dict.mem_of_get? hq) rfl

/-- **C81**: every quantity that a view knows is available: by one of the properties, as distribution or flux, as the numbers
of the shells (an axis), or it is the offset of the longitude, which is not used. -/
theorem c81_covers {n : Str} (hn : n ∈ arrayNames) (h : n ≠ "phiOffset".toList ∧ n ≠ "shell".toList ∧ n ≠ "Dist".toList ∧
    n ≠ "flux".toList) : ∃ p, Dict.get? simple p = some n := by
  have key : ∀ n ∈ arrayNames, n ≠ "phiOffset".toList → n ≠ "shell".toList → n ≠ "Dist".toList → n ≠ "flux".toList →
      ∃ e ∈ simple, Dict.get? simple e.1 = some n := by decide
  obtain ⟨e, _, he⟩ := key n hn h.1 h.2.1 h.2.2.1 h.2.2.2
  exact ⟨e.1, he⟩

/-- **C81**: a view knows every quantity that one of the properties reads. -/
theorem c81_known {p n : Str} (h : Dict.get? simple p = some n) : n ∈ arrayNames := by
  have key : ∀ e ∈ simple, e.2 ∈ arrayNames := by decide
  exact key (p, n) (Dict.mem_of_get? h)

example : Dict.get? simple "r".toList = some "R".toList ∧ "egrid".toList ∈ arrayNames := by decide

/-- a file with a distribution only -/
example : let arrays : Dict Str (Arr Nat) := [("Dist".toList, ⟨7, none, []⟩)]
    let make := fun (_ : Str) (a : Arr Nat) => (Except.ok a.data : Except Exc Nat)
    ((Arrays.after arrays make [.flux, .hasdist, .f]).access arrays make .f).1 = .value (.ok (some 7)) ∧
    ((Arrays.after arrays make [.flux, .hasdist, .f]).access arrays make .flux).1 = .value (.ok none) := ⟨rfl, rfl⟩

/-- a file with both -/
example : let arrays : Dict Str (Arr Nat) := [("Dist".toList, ⟨7, none, []⟩), ("flux".toList, ⟨8, none, []⟩)]
    let make := fun (_ : Str) (a : Arr Nat) => (Except.ok a.data : Except Exc Nat)
    ((Arrays.after arrays make []).access arrays make .hasdist).1 = .flag true ∧
    ((Arrays.after arrays make [.hasdist]).access arrays make .f).1 = .value (.ok none) := ⟨rfl, rfl⟩

/-! ## C82 -/

/-- The file has all the variables that define axes. -/
def Complete (arrays : Dict Str (Arr α)) : Prop :=
  ∀ n ∈ ["time".toList, "shell".toList, "mass".toList, "charge".toList, "egrid".toList, "mu".toList], Has arrays n

/-- **C82**: in a complete file, every name that the iteration gives can be looked up, and gives an axis; their number is the
length; and other names give no axis. -/
theorem c82_axes (h : Complete arrays) : (∀ n ∈ axesIter, ∃ vs, axesGet arrays n = .ok (.axis vs)) ∧ axesIter.Nodup ∧
    axesIter.length = axesLen ∧ ∀ n vs, axesGet arrays n = .ok (.axis vs) → n ∈ axesIter := by
  refine ⟨?_, by decide, rfl, ?_⟩
  · intro n hn
    have hs : ∀ n ∈ ["time".toList, "shell".toList, "mass".toList, "charge".toList, "egrid".toList, "mu".toList],
        (arrays.get? n).isSome = true := fun n hn => (isSome_iff n).2 (h n hn)
    simp only [List.forall_mem_cons, List.not_mem_nil, false_imp_iff, implies_true, and_true] at hs
    obtain ⟨h1, h2, h3, h4, h5, h6⟩ := hs
    simp only [axesIter, axisNames, List.mem_cons, List.not_mem_nil, or_false] at hn
    rcases hn with rfl | rfl | rfl | rfl | rfl
    · refine ⟨["time".toList], ?_⟩
      simp only [axesGet, show axisVariables.get? "time".toList = some ["time".toList] by decide]
      simp only [List.all_cons, List.all_nil, h1, Bool.and_self, if_true]
    · refine ⟨["shell".toList], ?_⟩
      simp only [axesGet, show axisVariables.get? "shell".toList = some ["shell".toList] by decide]
      simp only [List.all_cons, List.all_nil, h2, Bool.and_self, if_true]
    · refine ⟨["mass".toList, "charge".toList], ?_⟩
      simp only [axesGet, show axisVariables.get? "species".toList = some ["mass".toList, "charge".toList] by decide]
      simp only [List.all_cons, List.all_nil, h3, h4, Bool.and_self, if_true]
    · refine ⟨["egrid".toList], ?_⟩
      simp only [axesGet, show axisVariables.get? "energy".toList = some ["egrid".toList] by decide]
      simp only [List.all_cons, List.all_nil, h5, Bool.and_self, if_true]
    · refine ⟨["mu".toList], ?_⟩
      simp only [axesGet, show axisVariables.get? "mu".toList = some ["mu".toList] by decide]
      simp only [List.all_cons, List.all_nil, h6, Bool.and_self, if_true]
  · intro n vs hg
    unfold axesGet at hg
    cases hv : axisVariables.get? n with
    | none =>
      rw [hv] at hg
      simp only at hg
      by_cases ho : n ∈ otherAttributes
      · rw [if_pos ho] at hg; cases hg
      · rw [if_neg ho] at hg; cases hg
    | some ws =>
      have hk : n ∈ Dict.keys axisVariables := (Dict.get?_isSome).1 ⟨ws, hv⟩
      have : Dict.keys axisVariables = axesIter := by decide
      rwa [this] at hk

/-- **C82 is violated**: names that are not axes can be looked up, and then give something else. -/
theorem c82_not_keys (arrays : Dict Str (Arr α)) : axesGet arrays "view".toList = .ok .other ∧
    axesContains arrays "view".toList = true ∧ "view".toList ∉ axesIter := by
  refine ⟨rfl, rfl, by decide⟩

/-- **C82 is violated**: where a variable is missing, the iteration and the length include an axis that cannot be looked up. -/
theorem c82_not_missing (h : ¬ Has arrays "mu".toList) : "mu".toList ∈ axesIter ∧ axesGet arrays "mu".toList = .error .key := by
  refine ⟨by decide, ?_⟩
  simp only [axesGet, show axisVariables.get? "mu".toList = some ["mu".toList] by decide]
  have : (arrays.get? "mu".toList).isSome = false := by
    rw [← Bool.not_eq_true, isSome_iff]
    exact h
  simp only [List.all_cons, List.all_nil, this, Bool.and_true, Bool.false_eq_true, if_false]

example : Complete (α := Nat) (["time".toList, "shell".toList, "mass".toList, "charge".toList, "egrid".toList, "mu".toList].map
    (fun n => (n, ⟨0, none, []⟩))) := by
  intro n hn
  rw [← isSome_iff]
  revert n
  decide

end Eprem.Datafile
