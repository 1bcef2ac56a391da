import Verif.Model.Names

/-!
# Names of observables: what a user relies on
-/

namespace Eprem.Observable

open Eprem Eprem.Metric

/-- `k` is the name `c` of a row of the table of names, or one of its aliases. -/
def NameOf (k c : Name) : Prop := ∃ p ∈ metadata, p.1 = c ∧ (k = c ∨ k ∈ p.2)

/-- The two rows of the table of names that are not observables. -/
def notObserved : List Name := [c! "phiOffset", c! "shell"]

/-- The order in which python iterates over a set: all members, each once. -/
def Iterates (order : Finset Name → List Name) : Prop := ∀ g, (∀ a, a ∈ order g ↔ a ∈ g) ∧ (order g).Nodup

/-- What a user does with the names of an observer. -/
inductive Use
  | get (key : Name)
  | has (key : Name)

/-- The state after some uses. -/
noncomputable def afterUses {A κ ν : Type} (build : Name → Except QErr (Quantity A κ ν)) :
    List Use → Names A κ ν → Names A κ ν
  | [], st => st
  | .get k :: us, st => afterUses build us (st.observe build k).1
  | .has k :: us, st => afterUses build us (st.observeContains build k).1

/-- A new observer. -/
def noNames {A κ ν : Type} : Names A κ ν := ⟨([] : List _), 0⟩

end Eprem.Observable
