/-
Model of the Python run-time features the code relies on.
Nothing here is specific to percolation.
-/
namespace SqPerc

/-- Python exceptions that the modelled code can raise.  `outOfFuel` is not a Python exception: it marks that a
`while` loop of the model used up the fuel it was given (theorems show with how much fuel it never happens). -/
inductive PyErr
  | indexError
  | typeError
  | valueError
  | assertionError
  | zeroDivisionError
  | attributeError
  | fileNotFoundError
  | outOfFuel
  deriving DecidableEq, Repr

/-- Result of a Python call: a value or an exception. -/
abbrev Py := Except PyErr

/-- `l[i]` for a non-negative `i`. -/
def pyGet {α : Type} (l : List α) (i : Nat) : Py α :=
  match l[i]? with
  | some a => .ok a
  | none => .error .indexError

/-- `l[i]` for any Python int: negative indices count from the end, anything else out of range raises IndexError. -/
def pyGetI {α : Type} (l : List α) (i : Int) : Py α :=
  if 0 ≤ i then pyGet l i.toNat
  else if -(l.length : Int) ≤ i then pyGet l ((l.length : Int) + i).toNat
  else .error .indexError

/-- In-place update `l[i] = f (l[i])` for a non-negative `i`. -/
def pyModify {α : Type} (l : List α) (i : Nat) (f : α → α) : Py (List α) :=
  match l[i]? with
  | some a => .ok (l.set i (f a))
  | none => .error .indexError

/-- In-place update `l[i] = f (l[i])` for any Python int. -/
def pyModifyI {α : Type} (l : List α) (i : Int) (f : α → α) : Py (List α) :=
  if 0 ≤ i then pyModify l i.toNat f
  else if -(l.length : Int) ≤ i then pyModify l ((l.length : Int) + i).toNat f
  else .error .indexError

/-- `l.remove(x)`: removes the first occurrence, ValueError if there is none. -/
def pyRemove (l : List Nat) (x : Nat) : Py (List Nat) :=
  if x ∈ l then .ok (l.erase x) else .error .valueError

/-- `assert b`. -/
def pyAssert (b : Bool) : Py Unit :=
  if b then .ok () else .error .assertionError

/-- `random.randint(lo, n - 1)`: ValueError on an empty range, otherwise some element of the range.  The draw `d` is arbitrary;
as `d` ranges over `Nat` the result ranges over the whole of `[lo, n-1]`. -/
def randint (lo n d : Nat) : Py Nat :=
  if n ≤ lo then .error .valueError else .ok (lo + d % (n - lo))

/-- One step of `random.shuffle`: `x[i], x[j] = x[j], x[i]`. -/
def swapAt (l : List Nat) (i j : Nat) : List Nat :=
  match l[i]?, l[j]? with
  | some a, some b => (l.set i b).set j a
  | _, _ => l

/-- `random.shuffle(x)` as implemented by CPython: `for i in reversed(range(1, len(x)))`: `j = randbelow(i + 1)`; swap `x[i]`
and `x[j]`.  `draws i` is the (arbitrary) random number used at position `i`. `shuffleFrom draws n x` performs the
iterations `i = n, n-1, ..., 1`. -/
def shuffleFrom (draws : Nat → Nat) : Nat → List Nat → List Nat
  | 0, l => l
  | i + 1, l => shuffleFrom draws i (swapAt l (i + 1) (draws (i + 1) % (i + 2)))

/-- `random.shuffle(x)`. -/
def pyShuffle (draws : Nat → Nat) (l : List Nat) : List Nat :=
  shuffleFrom draws (l.length - 1) l

/-- Iteration order of a Python `set` of ints, e.g. in `list(gids)`.  `iter l` is the order in which a set built by adding the elements
of `l` one after the other is traversed: every distinct element once, in an unspecified order. -/
structure SetOrder where
  iter : List Int → List Int
  iter_nodup : ∀ l, (iter l).Nodup
  iter_mem : ∀ l x, x ∈ iter l ↔ x ∈ l

/-- The arithmetic used for the reported numbers (Python `float` in the code).  All operations are arbitrary. -/
structure Arith (α : Type) where
  ofNat : Nat → α
  add : α → α → α
  sub : α → α → α
  mul : α → α → α
  div : α → α → α
  neg : α → α
  log : α → α

/-- What the environment of a run provides: the set iteration order and the number arithmetic. -/
structure Env (α : Type) where
  set : SetOrder
  ar : Arith α

end SqPerc
