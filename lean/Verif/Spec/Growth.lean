import Verif.Spec.Torus
/-
Specification of the placement rules of L1 and L2 as a process on its own: which sites have been placed, which candidates are left, and how
often each candidate may still fail.  Nothing here refers to the code.
-/
namespace SqPerc

/-- State of the process: the placed sites in their order, the candidates, and for each site the failures left until it is dropped. -/
structure Growth where
  placed : List Nat
  cand : List Nat
  left : Nat → Nat

/-- The step from site `x` in direction `dir` crosses the periodic boundary. -/
def crossesB (L x : Nat) : Dir → Bool
  | .right => x % L + 1 == L
  | .left => x % L == 0
  | .down => x / L + 1 == L
  | .up => x / L == 0

/-- The site looked at after `x` and its neighbour in direction `dir`: the next one in that direction, but `x` itself if the step to the
neighbour crosses the boundary. -/
def beyond (L x : Nat) (dir : Dir) : Nat := if crossesB L x dir = true then x else nbr L (nbr L x dir) dir

/-- The site placed if candidate `x` and direction `dir` are drawn: `x`, else its neighbour, else (if `deep`) the site beyond it. -/
def Growth.target (L : Nat) (deep : Bool) (g : Growth) (x : Nat) (dir : Dir) : Option Nat :=
  if x ∉ g.placed then some x
  else if nbr L x dir ∉ g.placed then some (nbr L x dir)
  else if deep = true ∧ beyond L x dir ∉ g.placed then some (beyond L x dir)
  else none

/-- One call: candidate number `a` (modulo the number of candidates) and direction `dir` are drawn.  If nothing can be placed the candidate
has failed; after its last failure the first candidate takes its place. -/
def Growth.step (L : Nat) (deep : Bool) (g : Growth) (a : Nat) (dir : Dir) : Growth :=
  match g.cand[a % g.cand.length]? with
  | none => g
  | some x =>
    match g.target L deep x dir with
    | some k => { g with placed := g.placed ++ [k] }
    | none => { g with
        left := Function.update g.left x (g.left x - 1)
        cand := if g.left x - 1 = 0 then (g.cand.set (a % g.cand.length) (g.cand.headD 0)).tail else g.cand }

/-- The start: nothing placed, every site may fail four times. -/
def Growth.start (cand : List Nat) : Growth := ⟨[], cand, fun _ => 4⟩

/-- The state after `n` calls with the given numbers and directions. -/
def Growth.run (L : Nat) (deep : Bool) (ds : Nat → Nat × Dir) : Nat → Growth → Growth
  | 0, g => g
  | n + 1, g => Growth.run L deep (fun i => ds (i + 1)) n (g.step L deep (ds 0).1 (ds 0).2)

end SqPerc
