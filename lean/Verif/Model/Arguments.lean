import Verif.Model.Aliased

/-!
# Arguments of an observation

A model of `Arguments` in `observable/_objects.py`: the indices and the assumptions that an observation passes to the observing
functions.
-/

namespace Eprem.Arguments

open Eprem Eprem.Aliased

/-- Names of arguments. -/
abbrev Name := List Char

/-- The names of the axes, in the order of `indices` (`_objects.py` 237-243). -/
def axisNames : List Name := ["time".toList, "shell".toList, "species".toList, "energy".toList, "mu".toList]

/-- What an item of `axes(…)` holds: nothing, an index, or an assumption or default. -/
inductive Slot (I V : Type)
  | empty
  | index (i : I)
  | value (v : V)
  deriving DecidableEq

/-- An `Arguments` object (`_objects.py` 169-183), whose groups of aliases are `reference.ALIASES | parameter.ALIASES`; the last
two fields are `_indices` and `_assumptions`.  `W` is the type of converted assumptions. -/
structure Arguments (I V W : Type) where
  given : Name → Option I
  extra : List (Name × V)
  groups : List (Finset Name)
  cachedIndices : Option (Dict Name (Slot I V))
  cachedAssumptions : Option (AMap Name W)

variable {I V W X : Type}

/-- `Arguments(indices, **assumptions)` (`_objects.py` 169-183). -/
def create (given : Name → Option I) (extra : List (Name × V)) (groups : List (Finset Name)) : Arguments I V W :=
  ⟨given, extra, groups, none, none⟩

/-- The object as an aliased mapping (`_objects.py` 175). -/
def Arguments.mapping (u : Arguments I V W) : AMap Name V := .ofGroups u.extra u.groups

/-- `time`, `shell`, `species`, `energy`, `mu` (`_objects.py` 246-269). -/
def Arguments.axisIndex (u : Arguments I V W) (name : Name) : Slot I V :=
  match u.given name with
  | some i => .index i
  | none => .empty

/-- `indices` (`_objects.py` 233-244). -/
def Arguments.indices (u : Arguments I V W) : Arguments I V W × Dict Name (Slot I V) :=
  match u.cachedIndices with
  | some d => (u, d)
  | none =>
    let d := axisNames.map (fun n => (n, u.axisIndex n))
    ({ u with cachedIndices := some d }, d)

/-- One optional name in `axes` (`_objects.py` 212-214). -/
def optionalStep (m : AMap Name V) (d : Dict Name (Slot I V)) (key : Name) : Dict Name (Slot I V) :=
  match m.getItem key with
  | .ok v => d.set key (.value v)
  | .error _ => d

/-- `self.get(key, default)`. -/
def getOr (m : AMap Name V) (key : Name) (default : V) : V :=
  match m.getItem key with
  | .ok v => v
  | .error _ => default

/-- One name with a default in `axes` (`_objects.py` 215-216). -/
def extraStep (m : AMap Name V) (d : Dict Name (Slot I V)) (p : Name × V) : Dict Name (Slot I V) :=
  d.set p.1 (.value (getOr m p.1 p.2))

/-- `axes(optional, **extra)` (`_objects.py` 185-217). -/
def Arguments.axes (u : Arguments I V W) (optional : List Name) (extra : List (Name × V)) :
    Arguments I V W × Dict Name (Slot I V) :=
  let (u, d) := u.indices
  (u, extra.foldl (extraStep u.mapping) (optional.foldl (optionalStep u.mapping) d))

/-- The loop of `assumptions` (`_objects.py` 222-228): the first value that cannot be converted fails. -/
def convertAll (convert : V → Except X W) : List (Name × V) → Except X (List (Name × W))
  | [] => .ok []
  | p :: r => match convert p.2 with
    | .error e => .error e
    | .ok w => match convertAll convert r with
      | .error e => .error e
      | .ok l => .ok ((p.1, w) :: l)

/-- `assumptions` (`_objects.py` 219-231). -/
def Arguments.assumptions (convert : V → Except X W) (u : Arguments I V W) : Arguments I V W × Except X (AMap Name W) :=
  match u.cachedAssumptions with
  | some m => (u, .ok m)
  | none => match convertAll convert u.extra with
    | .error e => (u, .error e)
    | .ok l =>
      let m := AMap.ofGroups l u.groups
      ({ u with cachedAssumptions := some m }, .ok m)

/-- What a program asks of one object. -/
inductive Ask (V : Type)
  | indices
  | axes (optional : List Name) (extra : List (Name × V))
  | assumptions

/-- What it gets. -/
inductive Answer (I V W X : Type)
  | items (d : Dict Name (Slot I V))
  | converted (m : Except X (AMap Name W))

/-- One request. -/
def ask (convert : V → Except X W) (u : Arguments I V W) : Ask V → Arguments I V W × Answer I V W X
  | .indices => (u.indices.1, .items u.indices.2)
  | .axes o e => ((u.axes o e).1, .items (u.axes o e).2)
  | .assumptions => ((u.assumptions convert).1, .converted (u.assumptions convert).2)

/-- A sequence of requests. -/
def askAll (convert : V → Except X W) (u : Arguments I V W) : List (Ask V) → Arguments I V W × List (Answer I V W X)
  | [] => (u, [])
  | a :: r => ((askAll convert (ask convert u a).1 r).1, (ask convert u a).2 :: (askAll convert (ask convert u a).1 r).2)

end Eprem.Arguments
