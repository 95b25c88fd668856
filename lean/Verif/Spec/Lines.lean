import Verif.Spec.Sequence
/-
Specification of straight paths in the wrapping cluster.  Nothing here refers to the code.
-/
namespace SqPerc

/-- Site `s` belongs to the wrapping cluster after occupying the sites of `q` one after the other: it is connected to the site `k` that
closed the first loop. -/
def InWrap (L : Nat) (q : List Nat) (s : Nat) : Prop :=
  ∃ pre k post, q = pre ++ k :: post ∧ ¬ Wraps L (· ∈ pre) ∧ Wraps L (· ∈ pre ++ [k]) ∧ SiteConn L (· ∈ q) k s

/-- All sites of row `r` satisfy `P`. -/
def RowIn (L : Nat) (P : Nat → Prop) (r : Nat) : Prop := ∀ c < L, P (r * L + c)

/-- All sites of column `c` satisfy `P`. -/
def ColIn (L : Nat) (P : Nat → Prop) (c : Nat) : Prop := ∀ r < L, P (r * L + c)

/-- After occupying the sites of `q` the wrapping cluster contains the complete row or the complete column of site `k`. -/
def Straight (L : Nat) (q : List Nat) (k : Nat) : Prop :=
  HasWrapped L q ∧ (RowIn L (InWrap L q) (k / L) ∨ ColIn L (InWrap L q) (k % L))

/-- After occupying the sites of `q` the wrapping cluster contains some complete row or column. -/
def AnyStraight (L : Nat) (q : List Nat) : Prop :=
  HasWrapped L q ∧ ((∃ r < L, RowIn L (InWrap L q) r) ∨ ∃ c < L, ColIn L (InWrap L q) c)

end SqPerc
