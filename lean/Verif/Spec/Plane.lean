import Verif.Spec.Torus
import Mathlib.Data.Set.Card
/-
Specification vocabulary: the configuration on the `L × L` lattice repeated periodically over the whole plane, and its clusters there.  Nothing
here refers to the code, and nothing refers to closed walks.
-/
namespace SqPerc

/-- The site of the `L × L` lattice at row `p.1` and column `p.2` of the plane. -/
def siteAt (L : Nat) (p : Int × Int) : Nat := (p.1 % L).toNat * L + (p.2 % L).toNat

/-- Two points of the plane are joined by a path of nearest neighbours that are occupied in the repeated configuration. -/
def PlaneConn (L : Nat) (occ : Nat → Prop) : Int × Int → Int × Int → Prop :=
  Relation.ReflTransGen fun p q => occ (siteAt L p) ∧ occ (siteAt L q) ∧ ∃ d : Dir, q = p + d.vec

/-- The cluster of the point `p` in the repeated configuration; empty if `p` is not occupied. -/
def planeCluster (L : Nat) (occ : Nat → Prop) (p : Int × Int) : Set (Int × Int) := {q | occ (siteAt L p) ∧ PlaneConn L occ p q}

end SqPerc
