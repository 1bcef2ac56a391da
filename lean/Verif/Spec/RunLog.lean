import Verif.Model.RunLog

/-!
# Specification vocabulary for the log of runs (C96, C97)
-/

namespace Eprem.RunLog

open Eprem

/-- A subscript: `value[key]` or `value[index]`. -/
inductive Step
  | key (k : Text)
  | index (i : Nat)

/-- What is seen at the end of subscripts. -/
inductive Leaf
  | atom (text : Text)
  | list (length : Nat)
  | record
  | path (text : Text)

/-- What is found in a value by subscripts. -/
def look : List Step → Value → Option Leaf
  | [], .atom t => some (.atom t)
  | [], .arr l => some (.list l.length)
  | [], .obj _ => some .record
  | [], .path t => some (.path t)
  | .key k :: p, .obj l => (Dict.get? l k).bind (look p)
  | .index i :: p, .arr l => (l[i]?).bind (look p)
  | _ :: _, _ => none

/-- The values are equal: the same is found in them. -/
def Equal (v w : Value) : Prop := ∀ p, look p v = look p w

/-- The value has no path in it. -/
inductive Plain : Value → Prop
  | atom (t : Text) : Plain (.atom t)
  | arr {l : List Value} (h : ∀ v ∈ l, Plain v) : Plain (.arr l)
  | obj {l : List (Text × Value)} (h : ∀ p ∈ l, Plain p.2) : Plain (.obj l)

/-- A collection of metadata of runs. -/
abbrev Book := Text → Option Value

/-- What a user expects of an operation on the log. -/
def Book.apply (b : Book) : Op → Except Err Book
  | .create key [] items => .ok (Function.update b key (some (.obj items)))
  | .create key [m] [] => .ok (Function.update b key (some (.obj m)))
  | .create _ _ _ => .error .type
  | .load key (.contents c) => .ok (Function.update b key (some (.obj c)))
  | .load _ .unknown => .error .value
  | .load _ .unsupported => .error .read
  | .append target key value => match b target with
    | none => .error .logKey
    | some (.obj l) => .ok (Function.update b target (some (.obj (Dict.set l key value))))
    | some _ => .error .type
  | .mv old new => match b old with
    | none => .error .logKey
    | some v => .ok (Function.update (Function.update b old none) new (some v))
  | .rm target => .ok (Function.update b target none)

/-- Operations one after the other: those that are refused change nothing. -/
def Book.applyAll : Book → List Op → Book × List (Except Err Unit)
  | b, [] => (b, [])
  | b, o :: os => match b.apply o with
    | .error e => let r := b.applyAll os; (r.1, .error e :: r.2)
    | .ok b' => let r := b'.applyAll os; (r.1, .ok () :: r.2)

/-- The operation gives metadata that `json` supports, and it does not read them from a file. -/
def Op.Supported : Op → Prop
  | .create _ mapping items => (∀ m ∈ mapping, ∀ p ∈ m, Plain p.2) ∧ ∀ p ∈ items, Plain p.2
  | .load _ (.contents _) => False
  | .append _ _ value => Plain value
  | _ => True

end Eprem.RunLog
