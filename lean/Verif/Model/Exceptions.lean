import Verif.Model.PyDict
import Verif.Model.Symbolic

/-!
# Model of `exceptions.py`

Classes of exceptions are elements of a type `κ`; `isSub e c` says that `e` is a subclass of `c`.  A function that is called
returns a result or raises an exception, of which only the class matters here.
-/

namespace Eprem.Exceptions

open Eprem Eprem.Symbolic

variable {κ α β γ : Type} [DecidableEq κ]

/-- What `Wrapper.compute` returns: the result of the wrapped function, a registered value, or (some form of) the arguments. -/
inductive Out (α β γ : Type)
  | result (x : β)
  | substitute (x : γ)
  | argument (x : α)
  | arguments (args : List α)
  | keywords (kwargs : Dict Str α)
  | both (args : List α) (kwargs : Dict Str α)

/-- What it raises: the exception of the wrapped function, or `KeyError` from the look-up of the registered value. -/
inductive Raised (κ : Type)
  | own (e : κ)
  | key
  deriving DecidableEq

/-- `Wrapper.catch` (`exceptions.py` 70-86), for several calls in this order; `none` stands for `Ellipsis`. -/
def catchAll (calls : List (κ × Option γ)) : Dict κ (Option γ) := calls.foldl (fun d p => d.set p.1 p.2) []

/-- The arguments as a return value (`exceptions.py` 127-133). -/
def echo (args : List α) (kwargs : Dict Str α) : Out α β γ :=
  if kwargs.isEmpty then
    match args with
    | [x] => .argument x
    | _ => .arguments args
  else if args.isEmpty then .keywords kwargs
  else .both args kwargs

/-- `Wrapper.compute(*args, **kwargs)` (`exceptions.py` 88-133). -/
def compute (isSub : κ → κ → Bool) (f : List α → Dict Str α → Except κ β) (subs : Dict κ (Option γ)) (args : List α)
    (kwargs : Dict Str α) : Except (Raised κ) (Out α β γ) :=
  match f args kwargs with
  | .ok x => .ok (.result x)
  | .error e =>
    if subs.keys.any (fun c => isSub e c) then
      match subs.get? e with
      | none => .error .key
      | some (some x) => .ok (.substitute x)
      | some none => .ok (echo args kwargs)
    else .error (.own e)

/-- The second argument of `convert`: an exception, or another value (`exceptions.py` 176-188). -/
inductive Replacement (κ γ : Type)
  | raise (e : κ)
  | value (x : γ)

/-- `convert(expected, replacement)(f)(*args)` (`exceptions.py` 176-188). -/
def convert {ι : Type} (isSub : κ → κ → Bool) (expected : κ) (replacement : Replacement κ β) (f : ι → Except κ β) (args : ι) :
    Except κ β :=
  match f args with
  | .ok x => .ok x
  | .error e =>
    if isSub e expected then
      match replacement with
      | .raise e' => .error e'
      | .value x => .ok x
    else .error e

end Eprem.Exceptions
