import Mathlib.Data.Finset.Card
import Mathlib.Data.Finset.Union
import Verif.Model.PyDict

/-!
# Model of `src/eprempy/aliased.py`

A `Group` is a finite set of names (`Finset κ`); its iteration order, which CPython leaves unspecified,
is a parameter where it matters (`Groups._merge`).  Two `Group`s are the same dictionary key when they
are equal as sets: CPython also compares `hash(tuple(set))` first, so two equal groups that happen to
iterate in different orders could be stored twice; that cannot happen where the model is used below,
because the stored group object itself is passed back (`_resolve`) or the new group contains a name that
no stored group has.
-/

namespace Eprem.Aliased

variable {κ ν : Type} [DecidableEq κ]

/-- Exceptions of `aliased.py`. -/
inductive Err
  | keyError | typeError | valueError
  deriving DecidableEq, Repr

/-! ## Mappings -/

/-- `Mapping` (`aliased.py` 447-570): the dictionary keyed by groups and the flattened look-up table
from each alias to its group. -/
structure AMap (κ ν : Type) where
  dict : Dict (Finset κ) ν
  flat : κ → Option (Finset κ)

/-- `{alias: key for key in self.as_dict for alias in key}` (`aliased.py` 596 and 898-902): a later group
overrides an earlier one. -/
def flatOf (d : Dict (Finset κ) ν) (a : κ) : Option (Finset κ) :=
  (d.reverse.find? (fun p => decide (a ∈ p.1))).map Prod.fst

/-- A mapping whose look-up table has just been computed (`aliased.py` 595-596, 898-902). -/
def AMap.ofDict (d : Dict (Finset κ) ν) : AMap κ ν := ⟨d, flatOf d⟩

/-- `_resolve(key)` for a name (`aliased.py` 649-653). -/
def AMap.resolve (m : AMap κ ν) (k : κ) : Option (Finset κ) := m.flat k

/-- `__contains__` (`aliased.py` 627-632). -/
def AMap.contains (m : AMap κ ν) (k : κ) : Bool := (m.resolve k).isSome

/-- `_flat_keys` and `__len__` (`aliased.py` 617-620, 637-638): the list of the aliases of all groups;
its length. -/
def AMap.len (m : AMap κ ν) : Nat := (m.dict.map (fun p => p.1.card)).sum

/-- `alias in self._flat_keys()` (`aliased.py` 617-620). -/
def AMap.inFlatKeys (m : AMap κ ν) (a : κ) : Bool := m.dict.any (fun p => decide (a ∈ p.1))

/-- `Mapping.__getitem__` for a name (`aliased.py` 640-647). -/
def AMap.getItem (m : AMap κ ν) (k : κ) : Except Err ν :=
  match m.resolve k with
  | some g => match m.dict.get? g with
    | some v => .ok v
    | none => .error .keyError
  | none => .error .keyError

/-- `Mapping.__getitem__` for a `Group` (`aliased.py` 640-677): the stored group equal to it. -/
def AMap.getGroup (m : AMap κ ν) (g : Finset κ) : Except Err ν :=
  match m.dict.get? g with
  | some v => .ok v
  | none => .error .keyError

/-- `Mapping.alias(key, include=True)` (`aliased.py` 749-763). -/
def AMap.aliases (m : AMap κ ν) (k : κ) : Option (Finset κ) := m.resolve k

/-! ### Construction -/

/-- A key of a user mapping: a name, or a tuple of names. -/
inductive Key (κ : Type)
  | name (k : κ)
  | tuple (ks : List κ)

/-- `Group(key)` (`aliased.py` 31-41). -/
def Key.group : Key κ → Finset κ
  | .name k => {k}
  | .tuple ks => ks.toFinset

/-- The step of `_build_from_aliases` (`aliased.py` 306-312): a single name that belongs to an existing
group updates that group; anything else becomes a new group. -/
def buildStep (out : Dict (Finset κ) ν) (p : Key κ × ν) : Dict (Finset κ) ν :=
  match p.1 with
  | .name k =>
    match out.find? (fun q => decide (k ∈ q.1)) with
    | some q => out.set q.1 p.2
    | none => out.set {k} p.2
  | .tuple ks => out.set ks.toFinset p.2

/-- `_build_from_aliases` (`aliased.py` 302-313). -/
def buildFromAliases (mapping : List (Key κ × ν)) : Dict (Finset κ) ν := mapping.foldl buildStep []

/-- `Mapping(mapping)` for a user mapping `{name or tuple of names: value}` (`aliased.py` 574-596). -/
def AMap.ofMapping (mapping : List (Key κ × ν)) : AMap κ ν := .ofDict (buildFromAliases mapping)

/-- `_build_from_key` with interior aliases (`aliased.py` 239-275, 316-368): each item is a name, its
interior aliases and the rest of the interior mapping. -/
def AMap.ofInterior (items : List (κ × List κ × ν)) : AMap κ ν :=
  .ofDict (Dict.ofItems (items.map (fun p => (insert p.1 p.2.1.toFinset, p.2.2))))

/-- `Groups.get(x)` for a name (`aliased.py` 201-214): the first group that contains it. -/
def groupsGet (gs : List (Finset κ)) (x : κ) : Option (Finset κ) := gs.find? (fun g => decide (x ∈ g))

/-- `_build_from_key` with an instance of `Groups` (`aliased.py` 266-271, 316-368). -/
def AMap.ofGroups (items : List (κ × ν)) (gs : List (Finset κ)) : AMap κ ν :=
  .ofDict (Dict.ofItems (items.map (fun p => (insert p.1 ((groupsGet gs p.1).getD ∅), p.2))))

/-- `Mapping(m)` for an aliased mapping `m` (`aliased.py` 598-601), and `copy` (`aliased.py` 814-816). -/
def AMap.copy (m : AMap κ ν) : AMap κ ν := .ofDict (Dict.ofItems m.dict)

/-- `Mapping.__or__` of two aliased mappings (`aliased.py` 773-782). -/
def AMap.or (m n : AMap κ ν) : AMap κ ν := .ofDict (Dict.ofItems (m.dict ++ n.dict))

/-! ### Mutation -/

/-- `MutableMapping.__setitem__` (`aliased.py` 884-888, 898-902) for a name. -/
def AMap.setItem (m : AMap κ ν) (k : κ) (v : ν) : AMap κ ν :=
  let resolved := (m.resolve k).getD {k}
  .ofDict (m.dict.set resolved v)

/-- `MutableMapping.__delitem__` (`aliased.py` 890-896, 898-902). -/
def AMap.delItem (m : AMap κ ν) (k : κ) : Except Err (AMap κ ν) :=
  match m.resolve k with
  | none => .error .keyError
  | some g => .ok (.ofDict (m.dict.del g))

/-- One iteration of `MutableMapping.alias` (`aliased.py` 920-932).  `del self[key]` resolves `key`
through the look-up table as it was before the new group was stored. -/
def AMap.aliasOne (m : AMap κ ν) (k a : κ) : Except Err (AMap κ ν) :=
  if m.inFlatKeys a then
    -- `super().alias(key)` (line 923) raises `TypeError` first if `key` is unknown
    match m.resolve k with
    | none => .error .typeError
    | some _ => .error .keyError
  else match m.resolve k with
    | none => .error .typeError
    | some g =>
      let updated := insert a g
      match m.getItem k with
      | .error e => .error e
      | .ok v => AMap.delItem ⟨m.dict.set updated v, m.flat⟩ k

/-- The loop of `MutableMapping.alias(key, *aliases)` (`aliased.py` 904-932): the state reached, and the
exception if one was raised. -/
def AMap.aliasLoop (m : AMap κ ν) (k : κ) : List κ → AMap κ ν × Option Err
  | [] => (m, none)
  | a :: as =>
    if a = k then m.aliasLoop k as
    else match m.aliasOne k a with
      | .error e => (m, some e)
      | .ok m' => m'.aliasLoop k as

/-- `MutableMapping.alias(key, *aliases)` (`aliased.py` 904-932).  Without aliases it only reads the
group of `key` (`TypeError` if it is unknown). -/
def AMap.alias (m : AMap κ ν) (k : κ) (as : List κ) : AMap κ ν × Option Err :=
  if as = [] then (m, if m.resolve k = none then some .typeError else none) else m.aliasLoop k as

/-- `MutableMapping` (`aliased.py` 819-865) with its named groups of keys. -/
structure MutMap (κ ν : Type) extends AMap κ ν where
  groups : Dict κ (List κ)

/-- What a read of a mutable mapping gives: a value, or the values of a named group of keys. -/
inductive Read (ν : Type)
  | one (v : ν)
  | many (vs : List ν)
  deriving DecidableEq

/-- `MutableMapping.__getitem__` (`aliased.py` 876-882). -/
def MutMap.read (m : MutMap κ ν) (k : κ) : Except Err (Read ν) :=
  match m.groups.get? k with
  | some ks => (ks.mapM (fun k => m.toAMap.getItem k)).map .many
  | none => (m.toAMap.getItem k).map .one

/-- `MutableMapping.group(name, *keys)` with at least one key (`aliased.py` 934-993). -/
def MutMap.group (m : MutMap κ ν) (name : κ) (ks : List κ) : Except Err (MutMap κ ν) :=
  if m.toAMap.contains name then .error .valueError
  else .ok { m with groups := m.groups.set name ks }

/-- `__setitem__` leaves the named groups alone (`aliased.py` 884-888). -/
def MutMap.setItem (m : MutMap κ ν) (k : κ) (v : ν) : MutMap κ ν := ⟨m.toAMap.setItem k v, m.groups⟩

/-- `MutableMapping.__setitem__` with a tuple of names as key (`aliased.py` 884-888): a tuple is never in
the look-up table, so it becomes a new group. -/
def AMap.setTuple (m : AMap κ ν) (ks : List κ) (v : ν) : AMap κ ν :=
  .ofDict (m.dict.set ks.toFinset v)

/-! ## Collections of groups -/

/-- `Groups._search` (`aliased.py` 166-170): the first group of this instance found through a member.
`order` gives the iteration order of a group. -/
def groupsSearch (order : Finset κ → List κ) (gs : List (Finset κ)) (g : Finset κ) : Option (Finset κ) :=
  (order g).findSome? (groupsGet gs)

/-- The loop of `Groups._merge` (`aliased.py` 153-164): `these` is the list being changed, `gs` the
instance's own list, which is searched throughout. -/
def mergeGroupsLoop (order : Finset κ → List κ) (gs : List (Finset κ)) :
    List (Finset κ) → List (Finset κ) → Except Err (List (Finset κ))
  | these, [] => .ok these
  | these, g :: others =>
    match groupsSearch order gs g with
    | some found =>
      if found ∈ these then mergeGroupsLoop order gs (these.erase found ++ [found ∪ g]) others
      else .error .valueError
    | none => mergeGroupsLoop order gs (these ++ [g]) others

/-- `Groups.merge(others)` for another collection of groups (`aliased.py` 146-164). -/
def mergeGroups (order : Finset κ → List κ) (gs others : List (Finset κ)) : Except Err (List (Finset κ)) :=
  mergeGroupsLoop order gs gs others

/-- `Groups.add` (`aliased.py` 172-179). -/
def groupsAdd (gs : List (Finset κ)) (g : Finset κ) : Except Err (List (Finset κ)) :=
  if gs.any (fun h => decide (¬ Disjoint g h)) then .error .valueError else .ok (gs ++ [g])

/-- `Groups.discard` for a name (`aliased.py` 181-184). -/
def groupsDiscard (gs : List (Finset κ)) (x : κ) : List (Finset κ) :=
  match groupsGet gs x with
  | some g => gs.erase g
  | none => gs

/-! ## Name maps -/

/-- The alias definitions of a `NameMap` (`aliased.py` 1018-1028): a mapping from names to aliases (given
directly or inside an interior mapping), or an iterable of groups of names. -/
inductive Defs (κ : Type)
  | mapping (d : List (κ × List κ))
  | iterable (l : List (List κ))

/-- `NameMap._get_names` (`aliased.py` 1052-1070). -/
def getNames (defs : Defs κ) (refs : Option (List κ)) : Except Err (List κ) :=
  match refs, defs with
  | some r, _ => .ok r
  | none, .mapping d => .ok (d.map Prod.fst)
  | none, .iterable _ => .error .typeError

/-- `NameMap._get_aliases` (`aliased.py` 1090-1121). -/
def getAliases (names : List κ) : Defs κ → List (κ × List κ)
  | .mapping d => d.map (fun p => (p.1, p.2.filter (fun i => decide (i ≠ p.1))))
  | .iterable l =>
    Dict.ofItems (l.flatMap (fun v => (names.filter (fun k => decide (k ∈ v))).map (fun k => (k, v))))

/-- The loop over the updates (`aliased.py` 1086-1087). -/
def applyUpdates (m : AMap κ κ) : List (κ × List κ) → Except Err (AMap κ κ)
  | [] => .ok m
  | (k, as) :: us =>
    match m.alias k as with
    | (_, some e) => .error e
    | (m', none) => applyUpdates m' us

/-- `NameMap._build_mapping` (`aliased.py` 1072-1088). -/
def nameMap (defs : Defs κ) (refs : Option (List κ)) : Except Err (AMap κ κ) :=
  match getNames defs refs with
  | .error e => .error e
  | .ok names =>
    let identity := Dict.ofItems (names.map (fun n => (n, n)))
    let m := AMap.ofMapping (identity.map (fun p => (Key.name p.1, p.2)))
    match applyUpdates m (getAliases names defs) with
    | .error e => .error e
    | .ok m' => .ok m'.copy

end Eprem.Aliased
