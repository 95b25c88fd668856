import Mathlib.Algebra.BigOperators.Field
import Mathlib.Data.Finset.Powerset
import Mathlib.Data.Real.Basic
/-
Specification vocabulary: averages over all outcomes of independent uniform random numbers and over all configurations with a given
number of occupied sites.  Nothing here refers to the code.
-/
namespace SqPerc

/-- The average of `F` over a finite type of equally likely outcomes. -/
noncomputable def meanOf {ι : Type} [Fintype ι] (F : ι → ℝ) : ℝ := (∑ i, F i) / (Fintype.card ι : ℝ)

/-- The average of `f` over all sets of `n` of the sites `0, …, N - 1`. -/
noncomputable def micro (N n : Nat) (f : Finset Nat → ℝ) : ℝ := (∑ T ∈ (Finset.range N).powersetCard n, f T) / (N.choose n : ℝ)

/-- 1 if `p` holds and 0 otherwise. -/
noncomputable def ind (p : Prop) : ℝ := open Classical in if p then 1 else 0

/-- The variance of `F` over all outcomes, all equally likely. -/
noncomputable def varOf {ι : Type} [Fintype ι] (F : ι → ℝ) : ℝ := meanOf fun i => (F i - meanOf F) ^ 2

end SqPerc
