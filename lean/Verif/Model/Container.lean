import Mathlib.Algebra.Order.Group.Abs
import Verif.Model.PyDict
import Verif.Model.Symbolic

/-!
# Model of `src/eprempy/container.py`

Items and keys are values of arbitrary types with decidable equality (Python's
`==`); numbers are elements of an arbitrary linearly ordered group or field, so
floating-point rounding and `nan` are outside the model.
-/

namespace Eprem.Container

variable {α κ ν : Type}

/-- Exceptions of `container.py`. -/
inductive Err
  | mergeError | injectiveType | nonInvertible | keyError | tableKey | tableLookup
  | ambiguousRequest | missingValue | ambiguousValue | typeError
  deriving DecidableEq, Repr

/-! ## `unique` -/

/-- The loop of `unique` (`container.py` 50-54). -/
def uniqueLoop [DecidableEq α] : List α → List α → List α
  | coll, [] => coll
  | coll, x :: xs => if x ∈ coll then uniqueLoop coll xs else uniqueLoop (coll ++ [x]) xs

/-- `unique(*items)` / `unique(items)` (`container.py` 32-54); the choice between the two spellings
only selects `items`. -/
def unique [DecidableEq α] (items : List α) : List α := uniqueLoop [] items

/-! ## `Graph` -/

/-- `Graph.connections` (`container.py` 362): a `dict` from ordered pairs of nodes to weights. -/
abbrev Graph (κ 𝕜 : Type) := Dict (κ × κ) 𝕜

/-- One edge of the loop of `add_connection` (`container.py` 423-425): stored only if absent. -/
def addEdge {𝕜 : Type} [DecidableEq κ] (g : Graph κ 𝕜) (e : κ × κ) (w : 𝕜) : Graph κ 𝕜 :=
  match g.get? e with
  | some _ => g
  | none => g.set e w

/-- `Graph.add_connection` (`container.py` 413-425) with a numerical weight. -/
def addConnection {𝕜 : Type} [DecidableEq κ] [DecidableEq 𝕜] [Zero 𝕜] [One 𝕜] [Div 𝕜]
    (g : Graph κ 𝕜) (start stop : κ) (w : 𝕜) : Graph κ 𝕜 :=
  let inverse := if w = 0 then w else 1 / w
  addEdge (addEdge g (start, stop) w) (stop, start) inverse

/-- `Graph.__init__` (`container.py` 352-366): connections are added one by one. -/
def Graph.build {𝕜 : Type} [DecidableEq κ] [DecidableEq 𝕜] [Zero 𝕜] [One 𝕜] [Div 𝕜]
    (base : List ((κ × κ) × 𝕜)) : Graph κ 𝕜 :=
  base.foldl (fun g c => addConnection g c.1.1 c.1.2 c.2) []

/-- `Graph.get_weight` (`container.py` 405-411). -/
def getWeight {𝕜 : Type} [DecidableEq κ] (g : Graph κ 𝕜) (start stop : κ) : Except Err 𝕜 :=
  match g.get? (start, stop) with
  | some w => .ok w
  | none => .error .keyError

/-- `Graph.get_adjacencies` (`container.py` 385-403). -/
def getAdjacencies {𝕜 : Type} [DecidableEq κ] (g : Graph κ 𝕜) (node : κ) : Dict κ 𝕜 :=
  if node ∈ g.keys.flatMap (fun e => [e.1, e.2]) then
    (g.filter (fun p => p.1.1 = node)).map (fun p => (p.1.2, p.2))
  else []

/-! ## `Table` -/

/-- `Table._entries` (`container.py` 518). -/
abbrev Table (κ ν : Type) := List (Dict κ ν)

/-- `key in Table.keys` (`container.py` 568-574): the key is in every entry.  An empty table has no
keys (Python raises `IndexError` there; every look-up that reads `keys` fails either way). -/
def isKey [DecidableEq κ] (t : Table κ ν) (k : κ) : Bool :=
  match t with
  | [] => false
  | e :: es => decide (k ∈ e.keys) && es.all (fun e => decide (k ∈ e.keys))

/-- `Table.__getitem__` (`container.py` 576-581). -/
def column [DecidableEq κ] (t : Table κ ν) (k : κ) : Except Err (List ν) :=
  if isKey t k then .ok (t.filterMap (·.get? k)) else .error .tableKey

/-- `Table.get` (`container.py` 583-589). -/
def columnD [DecidableEq κ] (t : Table κ ν) (k : κ) (dflt : ν) : List ν :=
  if isKey t k then t.filterMap (·.get? k) else t.map (fun e => (e.get? k).getD dflt)

/-- The rows collected by `Table.find` (`container.py` 597). -/
def found [DecidableEq κ] [DecidableEq ν] (t : Table κ ν) (v : ν) : Table κ ν :=
  t.filter (fun e => decide (v ∈ e.values))

/-- `Table.find(value)` (`container.py` 591-600). -/
def find [DecidableEq κ] [DecidableEq ν] (t : Table κ ν) (v : ν) : Except Err (Table κ ν) :=
  if found t v = [] then .error .missingValue else .ok (found t v)

/-- `Table.find(value, unique=True)` (`container.py` 591-604). -/
def findUnique [DecidableEq κ] [DecidableEq ν] (t : Table κ ν) (v : ν) : Except Err (Dict κ ν) :=
  match found t v with
  | [] => .error .missingValue
  | [e] => .ok e
  | _ :: _ :: _ => .error .ambiguousValue

/-- The loop of `Table.__call__` (`container.py` 652-671).  `total` is `len(request)`, `n` is the
value of `n_checked`, `subset` the rows left so far. -/
def callLoop [DecidableEq κ] [DecidableEq ν] (t : Table κ ν) (strict : Bool) (total : Nat) :
    Nat → List (κ × ν) → Table κ ν → Except Err (Dict κ ν)
  | _, [], subset =>
    match strict, subset with
    | true, [e] => .ok e
    | _, _ => .error .tableLookup
  | n, (k, v) :: rest, subset =>
    match column t k with
    | .error e => .error e
    | .ok col =>
      let subset' := subset.filter (fun e => decide (e.get? k = some v))
      if strict then callLoop t strict total (n + 1) rest subset'
      else if col.count v > n ∧ total = n then .error .ambiguousRequest
      else match subset' with
        | [e] => .ok e
        | _ => callLoop t strict total (n + 1) rest subset'

/-- `Table.__call__(strict, **request)` (`container.py` 606-671). -/
def call [DecidableEq κ] [DecidableEq ν] (t : Table κ ν) (strict : Bool) (request : List (κ × ν)) :
    Except Err (Dict κ ν) :=
  callLoop t strict request.length 1 request t

/-! ## `Bijection` -/

/-- `Bijection.__init__` (`container.py` 714-728) on an existing dictionary.  `len(set(values))` is
the number of distinct values. -/
def Bijection.mk? [DecidableEq ν] (d : Dict κ ν) : Except Err (Dict κ ν) :=
  let nKeys := d.length
  let nValues := (unique (Dict.values d)).length
  if nKeys > nValues then .error .injectiveType
  else if nKeys ≠ nValues then .error .nonInvertible
  else .ok d

/-- `Bijection.invert` (`container.py` 742-744). -/
def Bijection.invert [DecidableEq κ] [DecidableEq ν] (d : Dict κ ν) : Except Err (Dict ν κ) :=
  Bijection.mk? (Dict.ofItems (d.map (fun p => (p.2, p.1))))

/-- `Bijection.find(value)` without a default (`container.py` 758-780). -/
def Bijection.find [DecidableEq κ] [DecidableEq ν] (d : Dict κ ν) (v : ν) : Except Err κ :=
  match Bijection.invert d with
  | .error e => .error e
  | .ok i => match i.get? v with
    | some k => .ok k
    | none => .error .keyError

/-! ## `ObjectRegistry` -/

/-- `ObjectRegistry` (`container.py` 811-826): the items, the initial items and the counter.  Only
the registered object of each item is kept, not its metadata. -/
structure Registry (ν : Type) where
  items : Dict (List Char) ν
  init : Dict (List Char) ν
  count : Nat

/-- `ObjectRegistry.__init__` (`container.py` 813-826). -/
def Registry.new {ν : Type} (base : Dict (List Char) ν) : Registry ν := ⟨base, base, 1⟩

/-- `_get_default_key` (`container.py` 944-954), for an object whose `__qualname__` (or `__name__`)
is `proposed`; returns the key and the registry with its counter advanced. -/
def Registry.defaultKey {ν : Type} (r : Registry ν) (proposed : List Char) :
    List Char × Registry ν :=
  match r.items.get? proposed with
  | none => (proposed, r)
  | some _ => (proposed ++ '_' :: Symbolic.showNat r.count, { r with count := r.count + 1 })

/-- `_get_mapping_key` (`container.py` 932-942). -/
def Registry.mappingKey {ν : Type} (r : Registry ν) (proposed : List Char)
    (user : Option (List Char)) (overwrite : Bool) : List Char × Registry ν :=
  match user with
  | none => r.defaultKey proposed
  | some u =>
    if u ≠ [] ∧ (r.items.get? u = none ∨ overwrite = true) then (u, r) else r.defaultKey proposed

/-- `register` (`container.py` 839-930) applied to an object called `proposed`. -/
def Registry.register {ν : Type} (r : Registry ν) (obj : ν) (proposed : List Char)
    (user : Option (List Char) := none) (overwrite : Bool := false) : Registry ν :=
  let p := r.mappingKey proposed user overwrite
  { p.2 with items := p.2.items.set p.1 obj }

/-- `reset` (`container.py` 956-958). -/
def Registry.reset {ν : Type} (r : Registry ν) : Registry ν := { r with items := r.init }

/-! ## `nearest` -/

section Nearest
variable {𝕜 : Type} [LinearOrder 𝕜] [AddCommGroup 𝕜]

/-- `numpy.abs(array - target).argmin()` (`container.py` 1042): index of the first minimum.
`best`/`bestIdx` are the minimum seen so far and its index, `i` the current index. -/
def argminLoop (target : 𝕜) : List 𝕜 → Nat → 𝕜 → Nat → Nat
  | [], _, _, bi => bi
  | a :: as, i, b, bi =>
    if |a - target| < b then argminLoop target as (i + 1) |a - target| i
    else argminLoop target as (i + 1) b bi

/-- `argmin` of the distances; `numpy` raises on an empty array. -/
def argmin (values : List 𝕜) (target : 𝕜) : Except Err Nat :=
  match values with
  | [] => .error .typeError
  | a :: as => .ok (argminLoop target as 1 |a - target| 0)

/-- Python's `array[index]` for an integer index of either sign. -/
def pyGet? {α : Type} (l : List α) (i : Int) : Option α :=
  if 0 ≤ i then l[i.toNat]? else if -l.length ≤ i then l[(l.length + i).toNat]? else none

/-- The `'lower'` loop (`container.py` 1043-1048): `IndexError` gives `-1`. -/
def lowerLoop (values : List 𝕜) (target : 𝕜) : Nat → Nat → Int
  | 0, _ => -1
  | fuel + 1, i =>
    match values[i]? with
    | none => -1
    | some a => if a < target then lowerLoop values target fuel (i + 1) else i

/-- The `'upper'` loop (`container.py` 1049-1054): the index decreases through the negative indices,
`IndexError` gives `0`. -/
def upperLoop (values : List 𝕜) (target : 𝕜) : Nat → Int → Int
  | 0, _ => 0
  | fuel + 1, i =>
    match pyGet? values i with
    | none => 0
    | some a => if target < a then upperLoop values target fuel (i - 1) else i

/-- The `bound` argument of `nearest`. -/
inductive Bound | none | lower | upper
  deriving DecidableEq, Repr

/-- `nearest(values, target, bound)` (`container.py` 994-1057) for a one-dimensional array: the
index and the value.  The fuel exceeds the number of iterations of either loop. -/
def nearest (values : List 𝕜) (target : 𝕜) (bound : Bound) : Except Err (Int × 𝕜) :=
  match argmin values target with
  | .error e => .error e
  | .ok i =>
    let index : Int := match bound with
      | .none => i
      | .lower => lowerLoop values target (values.length + 1) i
      | .upper => upperLoop values target (2 * values.length + 1) i
    match pyGet? values index with
    | some v => .ok (index, v)
    | Option.none => .error .typeError

end Nearest

/-! ## `merge` -/

/-- The loop of `merge` over the common members (`container.py` 1092-1100). -/
def mergeLoop [DecidableEq α] (x y : List α) : List α → List α → Nat → Nat → List α
  | [], s, za, zb => s ++ (x.drop za ++ y.drop zb)
  | v :: vs, s, za, zb =>
    let ia := x.idxOf v
    let ib := y.idxOf v
    mergeLoop x y vs
      (s ++ ((x.drop za).take (ia - za) ++ (y.drop zb).take (ib - zb)) ++ [v]) (ia + 1) (ib + 1)

/-- `merge(these, those)` (`container.py` 1063-1104). -/
def merge [DecidableEq α] (x y : List α) : Except Err (List α) :=
  let ab := x.filter (fun i => decide (i ∈ y))
  let ba := y.filter (fun i => decide (i ∈ x))
  if ab = [] then .ok (x ++ y)
  else if ab ≠ ba then .error .mergeError
  else .ok (mergeLoop x y ab [] 0 0)

/-! ## `distribute`, `size`, `wrap` -/

/-- A nested Python collection as seen by `size` (`container.py` 1116-1153). -/
inductive Nested (α : Type)
  | leaf (a : α)
  | node (l : List (Nested α))

/-- `size` on the members of a collection (`container.py` 1146-1153). -/
def Nested.size : Nested α → Nat
  | .leaf _ => 1
  | .node l => (l.map (fun x => x.size)).sum

/-- `distribute(a, b)` (`container.py` 674-695).  `Sum.inl` is a non-separable argument, `Sum.inr` the
members of a separable one. -/
def distribute {β : Type} (a : α ⊕ List α) (b : β ⊕ List β) : Except Err (List (α × β)) :=
  match a, b with
  | .inl _, .inl _ => .error .typeError
  | .inr as, .inr bs => .ok (as.flatMap (fun x => bs.map (fun y => (x, y))))
  | .inl x, .inr bs => .ok (bs.map (fun y => (x, y)))
  | .inr as, .inl y => .ok (as.map (fun x => (x, y)))

end Eprem.Container
