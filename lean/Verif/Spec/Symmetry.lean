import Verif.Spec.Sequence
/-
Specification vocabulary: the symmetries of the periodic square lattice.  Nothing here refers to the code.
-/
namespace SqPerc

/-- A symmetry of the periodic `L × L` lattice: an invertible map of the sites that takes neighbours to neighbours, where the direction of
the neighbour changes in the same way everywhere. -/
structure Symmetry (L : Nat) where
  site : Nat → Nat
  back : Nat → Nat
  dir : Dir → Dir
  dirBack : Dir → Dir
  site_lt : ∀ s < L * L, site s < L * L
  back_lt : ∀ s < L * L, back s < L * L
  back_site : ∀ s < L * L, back (site s) = s
  site_back : ∀ s < L * L, site (back s) = s
  dirBack_dir : ∀ d, dirBack (dir d) = d
  dir_dirBack : ∀ d, dir (dirBack d) = d
  dir_opp : ∀ d, dir d.opp = (dir d).opp
  nbr_site : ∀ s < L * L, ∀ d, nbr L (site s) (dir d) = site (nbr L s d)

/-- Shift by `a` rows down and `b` columns to the right. -/
def shiftSite (L a b s : Nat) : Nat := (s / L + a) % L * L + (s % L + b) % L

/-- Exchange of rows and columns. -/
def transposeSite (L s : Nat) : Nat := s % L * L + s / L

/-- Reversal of the order of the rows. -/
def flipSite (L s : Nat) : Nat := (L - 1 - s / L) * L + s % L

end SqPerc
