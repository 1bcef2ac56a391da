import Verif.Model.Members
import Verif.Spec.Numeric

/-!
# Specification of sequences of measured values
-/

namespace Eprem.Physical

open Eprem Eprem.Symbolic Eprem.Metric Eprem.Numeric Eprem.Measured

variable {κ ν K : Type}

/-- The object is the sequence of these values in this unit. -/
structure IsSeries (x : Obj K) (l : List K) (u : List Term) : Prop where
  shape : x.data.shape = [l.length]
  values : ∀ (i : Nat) v, l[i]? = some v → x.data.get [i] = v
  unit : x.unit = u

variable [Field K]

/-- The object consists of the one value `v`, in its current unit. -/
def OnlyValue : Operand κ ν K → K → Prop
  | .number x, v => x = v
  | .object .scalar o, v => o.data.data 0 = v
  | .object _ o, v => o.data.size = 1 ∧ o.data.data 0 = v
  | .array a, v => a.arr.data.data.size = 1 ∧ a.arr.data.data.data 0 = v

end Eprem.Physical
