import Verif.Model.Numpy

/-!
# Model of `numeric/_index.py` and of subscription in `numeric/_array.py`

Not modelled: `None` (`numpy.newaxis`) and boolean masks as indices, numpy integers, tuples nested inside the index.
-/

namespace Eprem.Numeric

variable {α : Type}

/-- What holds a sequence of integers: a `list`, a `numpy.ndarray`, or another iterable such as `range`. -/
inductive SeqKind
  | list | array | other
  deriving DecidableEq, Repr

/-- One index. -/
inductive Arg
  | int (i : ℤ)
  | slice (start stop step : Option ℤ)
  | ellipsis
  | seq (k : SeqKind) (l : List ℤ)
  deriving DecidableEq, Repr

/-- `slice(None)`, written `:`. -/
def Arg.full : Arg := .slice none none none

/-- What is between the brackets of `array[...]`. -/
inductive Args
  | one (a : Arg)
  | tuple (l : List Arg)
  deriving DecidableEq, Repr

/-- What is left after `container.unwrap` (`container.py` 154-161): a single object that is not a list, or several
objects in a tuple or a list. -/
inductive Unwrapped
  | bare (a : Arg)
  | items (isTuple : Bool) (l : List Arg)
  deriving DecidableEq, Repr

/-- `container.unwrap` of one object (`container.py` 154-161): lists of one item are opened. -/
def unwrapOne : Arg → Unwrapped
  | .seq .list [i] => .bare (.int i)
  | .seq .list l => .items false (l.map .int)
  | a => .bare a

/-- `x = [args] if isinstance(args, SupportsIndex) else args; unwrap(x)` (`_array.py` 365-371, 379). -/
def unwrapArgs : Args → Unwrapped
  | .one a => unwrapOne a
  | .tuple [a] => unwrapOne a
  | .tuple l => .items true l

/-- An instance of the types in `_BUILTIN_TYPES` (`_index.py` 564). -/
def Arg.builtin : Arg → Bool
  | .seq _ _ => false
  | _ => true

/-- `expand_ellipsis` (`_index.py` 655-693). -/
def expandEllipsis (ndim : Nat) (args : List Arg) : Except Err (List Arg) :=
  if args.length > ndim ∧ args.getLast? ≠ some .ellipsis then .error .index
  else if args.count .ellipsis = 0 then .ok args
  else if args.count .ellipsis > 1 then .error .index
  else
    let pos := args.idxOf .ellipsis
    .ok (args.take pos ++ List.replicate (ndim + 1 - args.length) .full ++ args.drop (pos + 1))

/-- `expand` (`_index.py` 642-652). -/
def expand (ndim : Nat) : Unwrapped → Except Err (List Arg)
  | .items _ l => expandEllipsis ndim l
  | .bare a =>
    if a = .full then expandEllipsis ndim [.ellipsis]
    else if a = .ellipsis then expandEllipsis ndim [a]
    else if ndim > 1 then expandEllipsis ndim [a, .ellipsis]
    else .ok [a]

/-- What `resolve` returns: the argument itself, a tuple, or an open mesh. -/
inductive Resolved
  | itself (a : Arg)
  | tuple (l : List Arg)
  | mesh (l : List (List ℤ))
  deriving DecidableEq, Repr

/-- The loop of `normalize` (`_index.py` 618-631): the position of an argument is that of its axis. -/
def meshLoop : List Nat → List Arg → Except Err (List (List ℤ))
  | _, [] => .ok []
  | [], .slice _ _ _ :: _ => .error .index
  | shape, .int i :: rest => (meshLoop shape.tail rest).map ([i] :: ·)
  | n :: shape, .slice _ _ _ :: rest => (meshLoop shape rest).map ((List.range n).map (Int.ofNat) :: ·)
  | shape, .seq _ l :: rest => (meshLoop shape.tail rest).map (l :: ·)
  | _, .ellipsis :: _ => .error .value

/-- `normalize` (`_index.py` 600-639). -/
def normalize (shape : List Nat) : Unwrapped → Except Err Resolved
  | .bare (.seq .array l) => .ok (.itself (.seq .array l))
  | .bare a =>
    if a.builtin then .ok (.itself a)
    else match expandEllipsis shape.length [a] with
      | .error e => .error e
      | .ok l => (meshLoop shape l).map .mesh
  | .items isTuple l =>
    if isTuple ∧ l.all Arg.builtin then .ok (.tuple l)
    else match expandEllipsis shape.length l with
      | .error e => .error e
      | .ok l => (meshLoop shape l).map .mesh

/-- `resolve` (`_index.py` 578-597). -/
def resolve (shape : List Nat) (u : Unwrapped) : Except Err Resolved :=
  match normalize shape u with
  | .error e => .error e
  | .ok (.tuple l) =>
    if .ellipsis ∈ l then (expandEllipsis shape.length l).map .tuple else .ok (.tuple l)
  | .ok r => .ok r

/-! ## What numpy does with the resolved indices -/

/-- One axis. -/
def pickOf (n : Nat) : Arg → Except Err Pick
  | .int i => (axisIndex n i).map .drop
  | .slice a b s => (slicePositions n a b s).map .keep
  | .seq _ l => (l.mapM (axisIndex n)).map .keep
  | .ellipsis => .error .index

/-- The leading axes; the other axes are taken whole. -/
def picksOf : List Nat → List Arg → Except Err (List Pick)
  | [], [] => .ok []
  | [], _ :: _ => .error .index
  | n :: s, [] => (picksOf s []).map (.keep (List.range n) :: ·)
  | n :: s, a :: rest => match pickOf n a with
    | .error e => .error e
    | .ok p => (picksOf s rest).map (p :: ·)

/-- `array[indices]`, for a `numpy.ndarray`. -/
def npIndex (a : ND α) : Resolved → Except Err (ND α)
  | .itself .ellipsis => .ok a
  | .itself x => (picksOf a.shape [x]).map a.select
  | .tuple l => (picksOf a.shape l).map a.select
  | .mesh l => (picksOf a.shape (l.map (.seq .array ·))).map a.select

/-! ## Subscription -/

/-- `_get_axis_size` (`_array.py` 394-400). -/
def axisSize (n : Nat) : Arg → ℤ
  | .int _ => 1
  | .slice a b _ =>
    (match b with | some b => if b = 0 then (n : ℤ) else b | none => n) -
    (match a with | some a => a | none => 0)
  | _ => n

/-- The shape of the result (`_array.py` 385-391): one entry per index.  More indices than axes is impossible here,
as numpy has refused them. -/
def resultShape (shape : List Nat) (l : List Arg) : List ℤ :=
  (shape.zip l).map (fun p => axisSize p.1 p.2)

/-- `Array._getitem` (`_array.py` 373-392); `load` is what `_load_array` returns. -/
def getItemWith (shape : List Nat) (load : Resolved → Except Err (ND α)) (args : Args) : Except Err (ND α) :=
  match resolve shape (unwrapArgs args) with
  | .error e => .error e
  | .ok r => match load r with
    | .error e => .error e
    | .ok loaded =>
      let array := loaded.atLeast shape.length
      if loaded.ndim ≠ shape.length then
        match r with
        | .tuple l => array.reshape (resultShape shape l)
        | _ => .ok array
      else .ok array

/-- `etc.isnull(index)` (`etc.py` 477-492): an empty tuple, or an empty array. -/
def Resolved.isNull : Resolved → Bool
  | .itself (.seq .array []) => true
  | .tuple [] => true
  | .mesh [] => true
  | _ => false

/-- An array-like object and what has been loaded of it: `_object` and `_array` (`_array.py` 321-332).  `sub` is what
the object's own subscription returns, `none` when it raises `TypeError` or `IndexError`. -/
structure Lazy (α : Type) where
  object : ND α
  sub : Resolved → Option (ND α)
  cached : Option (ND α)

/-- `_read_array(index)` (`_array.py` 584-610). -/
def Lazy.read (st : Lazy α) (r : Resolved) : Except Err (ND α) :=
  match st.sub r with
  | some x => .ok x
  | none => npIndex st.object r

/-- `_load_array(index)` (`_array.py` 532-582); `none` is `None`. -/
def Lazy.load (st : Lazy α) (index : Option Resolved) : Lazy α × Except Err (ND α) :=
  match index with
  | some r =>
    if r.isNull then
      match st.cached with
      | some a => (st, .ok a)
      | none => ({ st with cached := some st.object }, .ok st.object)
    else match st.cached with
      | some a => (st, npIndex a r)
      | none => (st, st.read r)
  | none => match st.cached with
    | some a => (st, .ok a)
    | none => ({ st with cached := some st.object }, .ok st.object)

/-- `array[args]` (`_array.py` 365-392): the state afterwards, and the elements and shape of the result. -/
def Lazy.getItem (st : Lazy α) (args : Args) : Lazy α × Except Err (ND α) :=
  (match resolve st.object.shape (unwrapArgs args) with
    | .error _ => st
    | .ok r => (st.load (some r)).1,
   getItemWith st.object.shape (fun r => (st.load (some r)).2) args)

/-- The requests that read the elements: `array.array` (also `numpy.array(array)`), and `array[args]`. -/
inductive Read
  | all
  | item (args : Args)

/-- The state after a request, and its result. -/
def Lazy.step (st : Lazy α) : Read → Lazy α × Except Err (ND α)
  | .all => st.load none
  | .item args => st.getItem args

/-- The state after a history of requests. -/
def Lazy.after (st : Lazy α) : List Read → Lazy α
  | [] => st
  | r :: rs => (st.step r).1.after rs

/-- `array[args]` for an array in memory. -/
def getItem (a : ND α) (args : Args) : Except Err (ND α) :=
  getItemWith a.shape (fun r => if r.isNull then .ok a else npIndex a r) args

/-- `slice2range(s, stop=n)` (`container.py` 1156-1190), as the members of the range; a step of zero is replaced by one. -/
def slice2range (start stop step : Option ℤ) (n : Option ℤ) : Except Err (List ℤ) :=
  match stop, n with
  | none, none => .error .type
  | none, some n => .ok (rangeList (start.getD 0) n (let st := step.getD 1; if st = 0 then 1 else st))
  | some b, _ => .ok (rangeList (start.getD 0) b (let st := step.getD 1; if st = 0 then 1 else st))

/-! ## Restriction -/

section Restrict
variable {𝕜 : Type} [LinearOrder 𝕜]

/-- `numpy.where(mask)[0]` -/
def whereTrue (p : 𝕜 → Bool) (l : List 𝕜) : List Nat := (List.range l.length).filter (fun i => (l[i]?.map p).getD false)

/-- `_find_1d_indices` (`_index.py` 789-798). -/
def find1d (l : List 𝕜) (target : 𝕜) : Nat × Nat :=
  let leq := whereTrue (fun x => decide (x ≤ target)) l
  let geq := whereTrue (fun x => decide (target ≤ x)) l
  (leq.foldl max 0, match geq with | [] => l.length - 1 | i :: rest => rest.foldl min i)

/-- The loop of `restrict` over the targets (`_index.py` 729-735), given the bounds of each of them. -/
def restrictLoop : List (Nat × Nat) → Option (Nat × Nat) → Option (Nat × Nat)
  | [], acc => acc
  | (lo, hi) :: rest, none => restrictLoop rest (some (lo, hi))
  | (lo, hi) :: rest, some (l, u) => restrictLoop rest (some (min l lo, max u hi))

/-- `range(lower, upper+1)` -/
def indexRange (lower upper : Nat) : List Nat := List.range' lower (upper + 1 - lower)

/-- `restrict(array, *targets, axis=0)` for a one-dimensional array (`_index.py` 696-735). -/
def restrict (l : List 𝕜) (targets : List 𝕜) : Except Err (List Nat) :=
  match restrictLoop (targets.map (find1d l)) none with
  | none => .error .value
  | some (lower, upper) => .ok (indexRange lower upper)

/-- `_compute_bounds` for a two-dimensional array (`_index.py` 738-766) along the last axis: one row of bounds for each
row. -/
def boundsRows (rows : List (List 𝕜)) (target : 𝕜) : Except Err (Nat × Nat) :=
  match rows.map (fun l => find1d l target) with
  | [] => .error .value
  | b :: bs => .ok ((bs.map Prod.fst).foldl min b.1, (bs.map Prod.snd).foldl max b.2)

/-- The same along the first axis of an array given by its columns: the array of bounds then has two rows, the lower
and the upper bounds, and one column for each column; the code still reads its first two columns. -/
def boundsColumns (cols : List (List 𝕜)) (target : 𝕜) : Except Err (Nat × Nat) :=
  match cols.map (fun l => find1d l target) with
  | b₀ :: b₁ :: _ => .ok (min b₀.1 b₀.2, max b₁.1 b₁.2)
  | _ => .error .index

/-- Collect the bounds of several targets. -/
def boundsAll (f : 𝕜 → Except Err (Nat × Nat)) : List 𝕜 → Except Err (List (Nat × Nat))
  | [] => .ok []
  | t :: ts => match f t with
    | .error e => .error e
    | .ok b => (boundsAll f ts).map (b :: ·)

/-- `restrict` for a two-dimensional array, given how the bounds of one target are found. -/
def restrict2 (f : 𝕜 → Except Err (Nat × Nat)) (targets : List 𝕜) : Except Err (List Nat) :=
  match boundsAll f targets with
  | .error e => .error e
  | .ok bs => match restrictLoop bs none with
    | none => .error .value
    | some (lower, upper) => .ok (indexRange lower upper)

end Restrict

/-! ## Shifts -/

/-- `Value.shift` (`_index.py` 63-70). -/
def shiftValue (i x : ℤ) (floor ceil : Option ℤ) : ℤ :=
  match floor with
  | some f => if i + x < f then f else match ceil with
    | some c => if i + x > c then c else i + x
    | none => i + x
  | none => match ceil with
    | some c => if i + x > c then c else i + x
    | none => i + x

/-- `Sequence.shift` (`_index.py` 107-114). -/
def shiftSequence (l : List ℤ) (x : ℤ) (floor ceil : Option ℤ) : List ℤ :=
  let l := l.map (· + x)
  let l := match floor with | some f => l.map (fun i => if i < f then f else i) | none => l
  match ceil with | some c => l.map (fun i => if i > c then c else i) | none => l

end Eprem.Numeric
