/-!
# Python dictionaries

Insertion-ordered association lists, the way CPython's `dict` behaves: assigning
to a present key replaces the value in place, to an absent key appends.  Used by
the models of `container.py`, `aliased.py` and `project.py`.
-/

namespace Eprem

/-- A `dict` as the list of its items in insertion order. -/
abbrev Dict (κ ν : Type) := List (κ × ν)

namespace Dict

variable {κ ν : Type} [DecidableEq κ]

/-- `d.get(k)` -/
def get? : Dict κ ν → κ → Option ν
  | [], _ => none
  | (a, b) :: d, k => if a = k then some b else get? d k

/-- `d[k] = v` -/
def set : Dict κ ν → κ → ν → Dict κ ν
  | [], k, v => [(k, v)]
  | (a, b) :: d, k, v => if a = k then (a, v) :: d else (a, b) :: set d k v

/-- `del d[k]` on a present key (no change on an absent one) -/
def del (d : Dict κ ν) (k : κ) : Dict κ ν := d.filter (fun p => p.1 ≠ k)

/-- `d.keys()` -/
def keys (d : Dict κ ν) : List κ := d.map Prod.fst

/-- `d.values()` -/
def values (d : Dict κ ν) : List ν := d.map Prod.snd

/-- `dict(items)`: later items override earlier ones -/
def ofItems (l : List (κ × ν)) : Dict κ ν := l.foldl (fun d p => d.set p.1 p.2) []

/-- Every Python dictionary has distinct keys. -/
def WF (d : Dict κ ν) : Prop := d.keys.Nodup

end Dict
end Eprem
