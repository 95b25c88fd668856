import Verif.Model.History
/-
Several percolation objects and the list objects they refer to.

The rest of the model stores the value of `site_ids_indices` in the percolation object.  In the code the attribute refers to a list object,
and that object may be referred to by others: by the caller who has passed it to `set_custome_site_id_list` (percolation_sq_lattice.py:165
stores the argument itself), by the caller who has got it from `get_site_id_sequence` (percolation_sq_lattice.py:223-224 returns the attribute
itself), and by other percolation objects to which it has been passed.  Here the references are explicit.  No other attribute is shared:
lattice and cluster pool are created by the constructor (percolation_sq_lattice.py:24-25), `reverse_ids_indices` and the lists of `run_once` too
(131, 144-147).

Simplified: here the caller does not itself change a list (but may create lists and pass any list to any object; assignments of the caller are
added in `Props/Sharing`); a `shuffle()` or
`reset()` that raises has no state after it here (C71: it does not raise as long as the ids are in range).
-/
namespace SqPerc

/-- A percolation object: its class, its attributes, and the list object its `site_ids_indices` refers to.  The value `obj.siteIds` is not
used, see `World.load`. -/
structure Handle (α : Type) where
  cls : Variant
  obj : Perc α
  ref : Nat

/-- The list objects with ints as entries, and the percolation objects. -/
structure World (α : Type) where
  lists : List (List Int)
  objs : List (Handle α)

namespace World
variable {α : Type}

/-- The value of the list object `r`. -/
def listAt (w : World α) (r : Nat) : List Int := (w.lists[r]?).getD []

/-- The object as it sees itself: `self.site_ids_indices` is looked up. -/
def load (w : World α) (h : Handle α) : Perc α := { h.obj with siteIds := (w.listAt h.ref).map Int.toNat }

/-- The object `i` has become `S`; assignments to entries of `site_ids_indices` and `random.shuffle(site_ids_indices)` have changed the list
object in place (percolation_sq_lattice.py:211, 239-240, percolation_sq_lattice_L1L2.py:106, 229). -/
def inPlace (w : World α) (i : Nat) (h : Handle α) (S : Perc α) : World α :=
  { lists := w.lists.set h.ref (S.siteIds.map Int.ofNat), objs := w.objs.set i { h with obj := S } }

/-- The object `i` has become `S`, and its `site_ids_indices` refers to a list object just created
(percolation_sq_lattice.py:129, 178 and 182, percolation_sq_lattice_L1L2.py:28, 156). -/
def rebind (w : World α) (i : Nat) (h : Handle α) (S : Perc α) : World α :=
  { lists := w.lists ++ [S.siteIds.map Int.ofNat], objs := w.objs.set i { h with obj := S, ref := w.lists.length } }

/-- `set_custome_site_id_list(l, do_shuffle)` where `l` is the list object `r` (percolation_sq_lattice.py:156-170): the attribute refers to
`r` afterwards, and the shuffle of line 169 is a shuffle of `r`.  A rejected list, or the ValueError of `max([])`, changes nothing. -/
def setIdsRef (w : World α) (i : Nat) (h : Handle α) (r : Nat) (b : Bool) (draws : Nat → Nat) : World α :=
  if Perc.badIds h.obj.lat.length (w.listAt r) then w
  else
    match (w.load h).setCustomIds (w.listAt r) b draws with
    | .error _ => w
    | .ok S => { lists := w.lists.set r (S.siteIds.map Int.ofNat), objs := w.objs.set i { h with obj := S, ref := r } }

/-- A method call on the object `i`; exceptions are caught by the caller (as in `Reach.caught`), `none` if the call does not return.
`reset` of L1 and L2 first reorders the old list object in place and then creates a new one (percolation_sq_lattice_L1L2.py:27-28,
155-156); `set_custome_site_index_list` stores a list made in line 178. -/
def call (env : Env α) (w : World α) (i : Nat) (h : Handle α) : Op → Option (World α)
  | .setIds ids b draws => some (setIdsRef { w with lists := w.lists ++ [ids] } i h w.lists.length b draws)
  | .setIndices idxs b draws =>
    if Perc.badIds h.obj.lat.length (idxs.map h.obj.lat.calculateIdFromIndex) then some w
    else
      match (w.load h).setCustomIndices idxs b draws with
      | .error _ => some w
      | .ok S => some (w.rebind i h S)
  | .reset draws =>
    match (w.load h).resetBase draws, (w.load h).reset env h.cls draws with
    | .ok B, .ok S =>
      match h.cls with
      | .l0 | .sp => some (w.inPlace i h S)
      | .l1 | .l2 => some ((w.inPlace i h B).rebind i h S)
    | _, _ => none
  | .shuffle draws =>
    match (w.load h).shuffle draws with
    | .ok S => some (w.inPlace i h S)
    | .error _ => none
  | op =>
    match SqPerc.step env h.cls (w.load h) op with
    | .ok S => some (w.inPlace i h S)
    | .error e => if e = .outOfFuel then none else some (w.inPlace i h (stepRaised env h.cls (w.load h) op))

end World

/-- What the caller does. -/
inductive WOp
  /-- `cls(length=L)` -/
  | new (v : Variant) (L : Nat) (draws : Nat → Nat)
  /-- a list of ints is created -/
  | list (l : List Int)
  /-- a call on object `i`; `setIds` in this form is given a list that nobody else refers to -/
  | call (i : Nat) (op : Op)
  /-- `set_custome_site_id_list` of object `i` is given the list object `r` -/
  | setIds (i r : Nat) (b : Bool) (draws : Nat → Nat)

/-- The world after an action of the caller. -/
def wstep {α : Type} (env : Env α) (w : World α) : WOp → Option (World α)
  | .new v L draws =>
    match Perc.new env L draws with
    | .ok S => some { lists := w.lists ++ [S.siteIds.map Int.ofNat], objs := w.objs ++ [⟨v, S, w.lists.length⟩] }
    | .error _ => some w
  | .list l => some { w with lists := w.lists ++ [l] }
  | .call i op =>
    match w.objs[i]? with
    | none => none
    | some h => w.call env i h op
  | .setIds i r b draws =>
    match w.objs[i]?, w.lists[r]? with
    | some h, some _ => some (w.setIdsRef i h r b draws)
    | _, _ => none

/-- A sequence of actions, beginning with nothing. -/
def wsteps {α : Type} (env : Env α) : List WOp → World α → Option (World α)
  | [], w => some w
  | op :: ops, w =>
    match wstep env w op with
    | some w' => wsteps env ops w'
    | none => none

end SqPerc
