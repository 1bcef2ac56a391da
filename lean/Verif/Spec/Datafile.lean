import Verif.Model.Datafile

/-!
# What a view of a file should show (C80)
-/

namespace Eprem.Datafile

open Eprem
open Eprem.Symbolic (Str)

variable {α : Type}

/-- The unit of a variable: its attribute `unit`, or else its attribute `units`. -/
def HasUnit (v : Var α) (u : Option Str) : Prop := (∃ x, v.unit = some x ∧ u = some x) ∨ (v.unit = none ∧ u = v.units)

/-- The value of a property shows the file `f`: exactly the quantities with known names that the file contains. -/
def Shows (f : File α) : Out α → Prop
  | .arrays d => ∀ n a, d.get? n = some a ↔
      n ∈ arrayNames ∧ ∃ v, f.vars.get? n = some v ∧ a.data = v.data ∧ a.dims = v.dims ∧ HasUnit v a.unit
  | .scalars d => ∀ n a, d.get? n = some a ↔
      n ∈ scalarNames ∧ ∃ v, f.vars.get? n = some v ∧ a.value = v.data ∧ HasUnit v a.unit
  | .units d => ∀ n u, d.get? n = some u ↔
      n ∈ arrayNames ++ scalarNames ∧ ∃ v, f.vars.get? n = some v ∧ HasUnit v (some u)
  | .axes d => ∀ n k, d.get? n = some k ↔ n ∈ axisNames ∧ f.dimensions.get? n = some k
  | .sizes d => ∀ n k, d.get? n = some k ↔ n ∈ axisNames ∧ f.dimensions.get? n = some k

/-- Which property a value belongs to. -/
def Out.kind : Out α → Kind
  | .units _ => .units
  | .arrays _ => .arrays
  | .scalars _ => .scalars
  | .sizes _ => .sizes
  | .axes _ => .axes

/-- The content of the path after a history. -/
def content (disk : Disk α) (p : Path) : List (Op α) → Option (Except Exc (File α))
  | [] => disk p
  | .replace q c :: ops => content (fun r => if r = q then c else disk r) p ops
  | .request .. :: ops => content disk p ops

/-- The file has the extension `.nc`, or the hint says that it is a NetCDF file. -/
def IsNetCDF (p : Path) (hint : Option Str) : Prop :=
  (∃ s, s ≠ [] ∧ p.getLast? = some (s ++ ".nc".toList)) ∨
    hint = some "netcdf".toList ∨ hint = some "NetCDF".toList ∨ hint = some "NETCDF".toList ∨ hint = some ".nc".toList

end Eprem.Datafile
