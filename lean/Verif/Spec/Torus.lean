import Mathlib.Logic.Relation
import Mathlib.Algebra.Group.Prod
import Mathlib.Algebra.Group.Int.Defs
import Mathlib.Data.Finset.Card
import Mathlib.Data.Finset.Range
/-
Specification vocabulary: the periodic square lattice, connectivity, walks.  Nothing here refers to the code.

A site of the periodic `L × L` lattice is the number `row * L + col < L * L`.  A bond is a number below `2 * L * L`: bond `s < L * L` joins
site `s` to its right neighbour, bond `L * L + s` joins site `s` to its lower neighbour.
-/
namespace SqPerc

/-- The four directions. -/
inductive Dir
  | right | down | left | up
  deriving DecidableEq, Repr

namespace Dir

/-- Unit step of a direction, as (row, column) displacement. -/
def vec : Dir → Int × Int
  | right => (0, 1)
  | down => (1, 0)
  | left => (0, -1)
  | up => (-1, 0)

/-- The opposite direction. -/
def opp : Dir → Dir
  | right => left
  | down => up
  | left => right
  | up => down

/-- All directions, in the order right, down, left, up. -/
def all : List Dir := [right, down, left, up]

end Dir

/-- The neighbour of site `s` in direction `d` on the periodic lattice. -/
def nbr (L s : Nat) : Dir → Nat
  | .right => s / L * L + (s % L + 1) % L
  | .down => (s / L + 1) % L * L + s % L
  | .left => s / L * L + (s % L + (L - 1)) % L
  | .up => (s / L + (L - 1)) % L * L + s % L

/-- The bond of site `s` in direction `d`. -/
def bondAt (L s : Nat) : Dir → Nat
  | .right => s
  | .down => L * L + s
  | .left => nbr L s .left
  | .up => L * L + nbr L s .up

/-- The two end sites of a bond. -/
def bondEnds (L b : Nat) : Nat × Nat :=
  if b < L * L then (b, nbr L b .right) else (b - L * L, nbr L (b - L * L) .down)

/-- Site `s` is an end of bond `b`. -/
def Incident (L s b : Nat) : Prop := s = (bondEnds L b).1 ∨ s = (bondEnds L b).2

/-- Two sites are joined by a path of occupied nearest neighbours. -/
def SiteConn (L : Nat) (occ : Nat → Prop) : Nat → Nat → Prop :=
  Relation.ReflTransGen fun s t => occ s ∧ occ t ∧ ∃ d, t = nbr L s d

/-- Two bonds are joined by a chain of bonds in which consecutive bonds meet at an occupied site. -/
def BondConn (L : Nat) (occ : Nat → Prop) : Nat → Nat → Prop :=
  Relation.ReflTransGen fun b b' =>
    b < 2 * (L * L) ∧ b' < 2 * (L * L) ∧ ∃ s, occ s ∧ Incident L s b ∧ Incident L s b'

/-- `Walk L occ s t v`: there is a nearest-neighbour walk through occupied sites from `s` to `t` whose displacement, without
reduction modulo `L`, is `v`. -/
inductive Walk (L : Nat) (occ : Nat → Prop) : Nat → Nat → Int × Int → Prop
  | nil {s : Nat} : occ s → Walk L occ s s 0
  | snoc {s t : Nat} {v : Int × Int} (d : Dir) :
      Walk L occ s t v → occ (nbr L t d) → Walk L occ s (nbr L t d) (v + d.vec)

/-- The configuration wraps around the torus: there is a closed occupied walk with non-zero displacement. -/
def Wraps (L : Nat) (occ : Nat → Prop) : Prop := ∃ s v, v ≠ 0 ∧ Walk L occ s s v

/-- The wrapping cluster contains site `s`: a non-contractible closed walk passes through `s`. -/
def WrapsAt (L : Nat) (occ : Nat → Prop) (s : Nat) : Prop := ∃ v, v ≠ 0 ∧ Walk L occ s s v

open Classical in
/-- The connected component of bond `b`. -/
noncomputable def bondComp (L : Nat) (occ : Nat → Prop) (b : Nat) : Finset Nat :=
  (Finset.range (2 * (L * L))).filter fun b' => BondConn L occ b b'

open Classical in
/-- All components of bonds. -/
noncomputable def bondComps (L : Nat) (occ : Nat → Prop) : Finset (Finset Nat) :=
  (Finset.range (2 * (L * L))).image (bondComp L occ)

open Classical in
/-- The connected component of site `s` among the occupied sites. -/
noncomputable def siteComp (L : Nat) (occ : Nat → Prop) (s : Nat) : Finset Nat :=
  (Finset.range (L * L)).filter fun t => occ t ∧ SiteConn L occ s t

open Classical in
/-- Number of occupied sites. -/
noncomputable def occCount (L : Nat) (occ : Nat → Prop) : Nat :=
  ((Finset.range (L * L)).filter occ).card

end SqPerc
