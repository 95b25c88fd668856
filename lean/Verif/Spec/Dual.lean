import Verif.Spec.Plane
/-
Specification vocabulary: closed paths of empty sites, where diagonal steps are allowed too.  Nothing here refers to the code.
-/
namespace SqPerc

/-- Two points of the plane are equal, next to each other, or diagonally next to each other. -/
def Near (p q : Int × Int) : Prop := (-1 ≤ q.1 - p.1 ∧ q.1 - p.1 ≤ 1) ∧ -1 ≤ q.2 - p.2 ∧ q.2 - p.2 ≤ 1

/-- Two points of the plane are joined by a path of empty sites of the repeated configuration, with straight and diagonal steps. -/
def EmptyConn (L : Nat) (occ : Nat → Prop) : Int × Int → Int × Int → Prop :=
  Relation.ReflTransGen fun p q => ¬ occ (siteAt L p) ∧ ¬ occ (siteAt L q) ∧ Near p q

/-- On the periodic lattice there is a closed path of empty sites, with straight and diagonal steps, whose displacement is `w`. -/
def EmptyLoop (L : Nat) (occ : Nat → Prop) (w : Int × Int) : Prop :=
  ∃ p, siteAt L (p + w) = siteAt L p ∧ EmptyConn L occ p (p + w)

end SqPerc
