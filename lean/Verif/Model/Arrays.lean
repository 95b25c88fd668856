import Verif.Model.History
/-
The result lists of a percolation object as list objects.

The rest of the model stores the values of `occupation_prob_list`, `entropy_list`, `order_wrapping_list` and `order_largest_list` in the
percolation object.  In the code these attributes refer to list objects, and `get_occupation_prob_array`, `get_entropy_array`,
`get_order_param_wrapping_array` and `get_order_param_largest_array` (percolation_sq_lattice.py:292-299, 312-313) return the attributes
themselves and not copies.  A caller who keeps such a list sees whatever later happens to it, and can change it.  Here the references are
explicit.  (`get_data_array`, percolation_sq_lattice.py:301-310, returns a new numpy array.)

Simplified: the only thing a caller can do to a list is to replace all of its entries; a `reset()` that raises has no state after it here
(C71: it does not raise, and it does not look at these lists).
-/
namespace SqPerc

/-- The list objects with numbers as entries, a percolation object, and the list objects to which `occupation_prob_list`, `entropy_list`,
`order_wrapping_list` and `order_largest_list` refer.  The values of these lists in `obj` are not used, see `Shared.load`. -/
structure Shared (α : Type) where
  heap : List (List α)
  obj : Perc α
  prob : Nat
  ent : Nat
  wrap : Nat
  lrg : Nat

/-- What the caller does: a method call (exceptions are caught), or an assignment to all entries of the list object `r`. -/
inductive SOp (α : Type)
  | call (op : Op)
  | write (r : Nat) (xs : List α)

namespace Shared
variable {α : Type}

/-- The value of the list object `r`. -/
def listAt (w : Shared α) (r : Nat) : List α := (w.heap[r]?).getD []

/-- The object as it sees itself: the four attributes are looked up. -/
def load (w : Shared α) : Perc α :=
  { w.obj with occProbList := w.listAt w.prob, entropyList := w.listAt w.ent, orderWrapList := w.listAt w.wrap, orderLargestList := w.listAt w.lrg }

/-- percolation_sq_lattice.py:144-147: the constructor creates four list objects. -/
def new (env : Env α) (L : Nat) (draws : Nat → Nat) : Py (Shared α) := do
  let S ← Perc.new env L draws
  return ⟨[S.occProbList, S.entropyList, S.orderWrapList, S.orderLargestList], S, 0, 1, 2, 3⟩

/-- The object has become `S`, and the list objects have been changed in place (`append`, percolation_sq_lattice.py:680-684, 744-748; no
other method than `reset` assigns to the attributes). -/
def store (w : Shared α) (S : Perc α) : Shared α :=
  { w with heap := (((w.heap.set w.prob S.occProbList).set w.ent S.entropyList).set w.wrap S.orderWrapList).set w.lrg S.orderLargestList, obj := S }

/-- The object has become `S` by `reset` (percolation_sq_lattice.py:262-270): three new list objects, and a fourth one for
`occupation_prob_list` if there was no run yet. -/
def renew (w : Shared α) (S : Perc α) : Shared α :=
  if w.obj.firstRun then
    ⟨w.heap ++ [S.occProbList, S.entropyList, S.orderWrapList, S.orderLargestList], S, w.heap.length, w.heap.length + 1, w.heap.length + 2,
      w.heap.length + 3⟩
  else ⟨w.heap ++ [S.entropyList, S.orderWrapList, S.orderLargestList], S, w.prob, w.heap.length, w.heap.length + 1, w.heap.length + 2⟩

/-- An action of the caller; `none` if the call does not return. -/
def step (env : Env α) (v : Variant) (w : Shared α) : SOp α → Option (Shared α)
  | .write r xs => some { w with heap := w.heap.set r xs }
  | .call (.reset draws) =>
    match w.load.reset env v draws with
    | .ok S => some (w.renew S)
    | .error _ => none
  | .call op =>
    match SqPerc.step env v w.load op with
    | .ok S => some (w.store S)
    | .error e => if e = .outOfFuel then none else some (w.store (stepRaised env v w.load op))

/-- A sequence of actions. -/
def steps (env : Env α) (v : Variant) : List (SOp α) → Shared α → Option (Shared α)
  | [], w => some w
  | op :: ops, w =>
    match w.step env v op with
    | some w' => steps env v ops w'
    | none => none

/-- `get_occupation_prob_array()`, `get_entropy_array()`, `get_order_param_wrapping_array()`, `get_order_param_largest_array()`
(percolation_sq_lattice.py:292-299, 312-313): the list objects. -/
def arrays (w : Shared α) : List Nat := [w.prob, w.ent, w.wrap, w.lrg]

end Shared

end SqPerc
