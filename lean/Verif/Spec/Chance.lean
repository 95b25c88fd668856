import Verif.Spec.Mean
/-
Specification vocabulary: computations that ask for random numbers, and their averages when every answer is uniform and independent of the
others.  Nothing here refers to the code.
-/
namespace SqPerc

/-- A computation that may ask for numbers: `ask n k` asks for a number below `n` and goes on with `k` of the answer. -/
inductive Ask (β : Type) where
  | ret (b : β)
  | ask (n : Nat) (k : Nat → Ask β)

namespace Ask
variable {β γ : Type}

/-- The average of `f` of the result, the answers to `ask n` being the numbers below `n`, all equally likely. -/
noncomputable def mean (f : β → ℝ) : Ask β → ℝ
  | ret b => f b
  | ask n k => (∑ i ∈ Finset.range n, (k i).mean f) / n

/-- One computation after the other. -/
def bind (g : β → Ask γ) : Ask β → Ask γ
  | ret b => g b
  | ask n k => ask n fun i => (k i).bind g

/-- At most `d` questions, each for a number below some `n` between 1 and `2³² - 1`. -/
def Fits : Nat → Ask β → Prop
  | _, ret _ => True
  | 0, ask _ _ => False
  | d + 1, ask n k => 0 < n ∧ n < 2 ^ 32 ∧ ∀ i < n, (k i).Fits d

end Ask

end SqPerc
