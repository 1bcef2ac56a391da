import Verif.Model.Aliased

/-!
# Model of the views of an aliased mapping (`src/eprempy/aliased.py`)

`keys()`, `values()` and `items()` of an aliased mapping, on the one hand over its names and on the other
hand (`aliased=True`) over its groups; the comparisons and merges that go through them; and the conversions
of a mapping that go through its names.  The iteration order of a group, which CPython leaves unspecified,
is the parameter `order`.
-/

namespace Eprem.Aliased

variable {κ ν : Type} [DecidableEq κ]

/-- The iterable inside `_flat_keys()` (`aliased.py` 617-620): the names of every group, group by group. -/
def AMap.names (order : Finset κ → List κ) (m : AMap κ ν) : List κ := m.dict.keys.flatMap order

/-- `MappingView.__init__` (`aliased.py` 396-404) of a view on the mapping `m`: a view on names keeps the
list of the names at the time of its creation, a view on groups keeps the keys view of the dictionary
`as_dict`, which is live. -/
inductive View (κ : Type)
  | byName (ks : List κ)
  | byGroup

/-- `keys(aliased)`, `values(aliased)` or `items(aliased)` (`aliased.py` 396-404, 802-812): what the view
keeps. -/
def AMap.view (order : Finset κ → List κ) (m : AMap κ ν) (aliased : Bool) : View κ :=
  if aliased then .byGroup else .byName (m.names order)

/-- `len(view)` when the mapping has the state `m` (`aliased.py` 406-408). -/
def View.len (w : View κ) (m : AMap κ ν) : Nat :=
  match w with
  | .byName ks => ks.length
  | .byGroup => m.dict.keys.length

/-- What iterating over a view of keys gives: a name, or a group. -/
inductive VKey (κ : Type)
  | name (k : κ)
  | group (g : Finset κ)

/-- `list(keys view)` when the mapping has the state `m` (`aliased.py` 424-426). -/
def View.keys (w : View κ) (m : AMap κ ν) : List (VKey κ) :=
  match w with
  | .byName ks => ks.map .name
  | .byGroup => m.dict.keys.map .group

/-- `self._mapping[key]` for a name or a group (`aliased.py` 640-677). -/
def AMap.getVKey (m : AMap κ ν) : VKey κ → Except Err ν
  | .name k => m.getItem k
  | .group g => m.getGroup g

/-- `list(values view)` when the mapping has the state `m` (`aliased.py` 432-435). -/
def View.values (w : View κ) (m : AMap κ ν) : Except Err (List ν) := (w.keys m).mapM m.getVKey

/-- `list(items view)` when the mapping has the state `m` (`aliased.py` 441-444). -/
def View.items (w : View κ) (m : AMap κ ν) : Except Err (List (VKey κ × ν)) :=
  (w.keys m).mapM (fun k => (m.getVKey k).map (fun v => (k, v)))

/-- `k in view` for a keys view (`aliased.py` 421; `collections.abc.KeysView.__contains__` is
`key in self._mapping`) and a name `k`. -/
def View.hasKey (_ : View κ) (m : AMap κ ν) (k : κ) : Bool := m.contains k

/-- `(k, v) in view` for an items view (`aliased.py` 438; `collections.abc.ItemsView.__contains__` reads
`self._mapping[k]`, is false when that raises `KeyError`, and compares otherwise) and a name `k`. -/
def View.hasItem [DecidableEq ν] (_ : View κ) (m : AMap κ ν) (k : κ) (v : ν) : Bool :=
  match m.getItem k with
  | .ok x => decide (x = v)
  | .error _ => false

/-- The loop of `collections.abc.ValuesView.__contains__` (`aliased.py` 429): the keys of the mapping itself
are read one after the other until a value is equal to `v`. -/
def anyValue [DecidableEq ν] (m : AMap κ ν) (v : ν) : List κ → Except Err Bool
  | [] => .ok false
  | k :: ks => match m.getItem k with
    | .error e => .error e
    | .ok x => if x = v then .ok true else anyValue m v ks

/-- `v in view` for a values view (`aliased.py` 429, 634-635): the names of the mapping are those of its
current state, not those the view keeps. -/
def View.hasValue [DecidableEq ν] (order : Finset κ → List κ) (_ : View κ) (m : AMap κ ν) (v : ν) :
    Except Err Bool := anyValue m v (m.names order)

/-- `collections.abc.Set.__eq__` between two fresh items views on names (`aliased.py` 766-772): equal
lengths, and every item of the first is an item of the second.  Equal groups of the two mappings may iterate
in different orders. -/
def AMap.eq [DecidableEq ν] (order order' : Finset κ → List κ) (m n : AMap κ ν) : Except Err Bool :=
  if (m.names order).length ≠ (n.names order').length then .ok false
  else match (m.view order false).items m with
    | .error e => .error e
    | .ok l => .ok (l.all (fun p => match p.1 with
      | .name k => (n.view order' false).hasItem n k p.2
      | .group _ => false))

/-- `m | d` for a standard mapping `d` (`aliased.py` 774-784, 302-313): the groups of `m` with their values,
then the items of `d`, are the user mapping of a new aliased mapping.  Group keys are passed as tuples of
names, which `Group` turns into the same set. -/
def AMap.orPlain (order : Finset κ → List κ) (m : AMap κ ν) (d : Dict κ ν) : AMap κ ν :=
  AMap.ofMapping (m.dict.map (fun p => (Key.tuple (order p.1), p.2)) ++ d.map (fun p => (Key.name p.1, p.2)))

/-- `flat` (`aliased.py` 622-625): the items of a standard dictionary with every name of the mapping. -/
def AMap.toFlat (order : Finset κ → List κ) (m : AMap κ ν) : Except Err (Dict κ ν) :=
  ((m.names order).mapM (fun k => (m.getItem k).map (fun v => (k, v)))).map Dict.ofItems

/-- `freeze()` (`aliased.py` 1004-1006). -/
def MutMap.freeze (m : MutMap κ ν) : AMap κ ν := m.toAMap.copy

/-- `freeze(groups=True)` (`aliased.py` 1007-1008): `{**self, **grouped}` is a standard dictionary with every
name of the mapping and every name of a group of keys, all read through `self[...]`. -/
def MutMap.freezeGroups (order : Finset κ → List κ) (m : MutMap κ ν) : Except Err (AMap κ (Read ν)) :=
  match m.groups.keys.mapM (fun k => (m.read k).map (fun v => (k, v))) with
  | .error e => .error e
  | .ok grouped =>
    match (m.toAMap.names order).mapM (fun k => (m.read k).map (fun v => (k, v))) with
    | .error e => .error e
    | .ok own => .ok (AMap.ofMapping ((Dict.ofItems (own ++ grouped)).map (fun p => (Key.name p.1, p.2))))

end Eprem.Aliased
