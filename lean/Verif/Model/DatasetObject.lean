import Verif.Model.Observer

/-!
# The observers of a dataset object

A model of the cached listings of `Dataset` in `eprem.py`, for a directory that may change between requests.
-/

namespace Eprem.Observer

open Eprem Eprem.Config
open Eprem.Symbolic (Str)

/-- The orders of the sets of prefixes, which do not change while a program runs: of the union in `_get_observer_id`, of
`Stream.prefixes` and of `Point.prefixes` (`eprem.py` 146, 177, 413). -/
structure Orders where
  all : List Str
  streams : List Str
  points : List Str

/-- The caches of a `Dataset` (`eprem.py` 328-330). -/
structure Caches where
  observers : Option (Dict Id Str)
  streams : Option (Dict Id Str)
  points : Option (Dict Id Str)

/-- The listings that can be asked for. -/
inductive Listing
  | observers | streams | points
  deriving DecidableEq

/-- `dataset.streams` (`eprem.py` 343-357). -/
def getStreams (O : Orders) (c : Caches) (dir : List Str) : Caches × Except OErr (Dict Id Str) :=
  match c.streams with
  | some d => (c, .ok d)
  | none => match observers O.all O.streams dir with
    | .error e => (c, .error e)
    | .ok d => ({ c with streams := some d }, .ok d)

/-- `dataset.points` (`eprem.py` 359-373). -/
def getPoints (O : Orders) (c : Caches) (dir : List Str) : Caches × Except OErr (Dict Id Str) :=
  match c.points with
  | some d => (c, .ok d)
  | none => match observers O.all O.points dir with
    | .error e => (c, .error e)
    | .ok d => ({ c with points := some d }, .ok d)

/-- `{**a, **b}`. -/
def union (a b : Dict Id Str) : Dict Id Str := b.foldl (fun d p => d.set p.1 p.2) a

/-- `dataset.observers` (`eprem.py` 336-341). -/
def getObservers (O : Orders) (c : Caches) (dir : List Str) : Caches × Except OErr (Dict Id Str) :=
  match c.observers with
  | some d => (c, .ok d)
  | none => match getStreams O c dir with
    | (c, .error e) => (c, .error e)
    | (c, .ok s) => match getPoints O c dir with
      | (c, .error e) => (c, .error e)
      | (c, .ok p) => ({ c with observers := some (union s p) }, .ok (union s p))

/-- One request, with the entries of the directory at that time. -/
def request (O : Orders) (c : Caches) (r : Listing × List Str) : Caches × Except OErr (Dict Id Str) :=
  match r.1 with
  | .observers => getObservers O c r.2
  | .streams => getStreams O c r.2
  | .points => getPoints O c r.2

/-- The caches after some requests. -/
def requests (O : Orders) (c : Caches) (l : List (Listing × List Str)) : Caches :=
  l.foldl (fun c r => (request O c r).1) c

/-- A new `Dataset` (`eprem.py` 317-330). -/
def newDataset : Caches := ⟨none, none, none⟩

end Eprem.Observer
