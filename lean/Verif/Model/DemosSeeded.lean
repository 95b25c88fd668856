import Verif.Model.Demos
import Verif.Model.Rng
/-
The demonstration functions of percolation_sq_lattice_L1L2.py with a generator: they call `detect_wrapping` after every placement and take random
numbers in every round.
-/
namespace SqPerc

variable {α σ : Type}

/-- `while sq_lattice_p.place_one_site(): body` (as `demoLoop` in Model/Demos), the numbers of each placement taken from the generator. -/
def demoLoopG (G : Rng σ) (env : Env α) (v : Variant) (body : Body α) : Nat → Perc α → σ → Py (Perc α × List (Printed α) × σ)
  | 0, _, _ => .error .outOfFuel
  | fuel + 1, S, g => do
    let d := S.drawG G v g
    let (S, more) ← S.placeOneSite env v d.1
    if more then
      let (S, out, stop) ← body S
      if stop then return (S, out, d.2)
      else
        let (S, rest, g) ← demoLoopG G env v body fuel S d.2
        return (S, out ++ rest, g)
    else return (S, [], d.2)

/-- percolation_sq_lattice_L1L2.py:261-280 `test_L1` (there `length=6, seed=0`), started when the generator is in state `g`. -/
def demoL1G (G : Rng σ) (env : Env α) (L fuel : Nat) (seed : Int) (g : σ) : Py (Perc α × List (Printed α) × σ) := do
  let (S, g) ← Perc.newG G env L (some seed) g
  let (S, out, g) ← demoLoopG G env .l1 Body.detectView fuel S g
  return (S, out ++ [.values ["tc = "] [S.getPc env], .text S.occupiedSummaryL1, .text S.viewCluster], g)

/-- percolation_sq_lattice_L1L2.py:283-314 `test_detect_wrapping_L1L2` (there `length=100, seed=18`). -/
def demoDetectL1G (G : Rng σ) (env : Env α) (L fuel : Nat) (seed : Int) (g : σ) : Py (Perc α × List (Printed α) × σ) := do
  let (S, g) ← Perc.newG G env L (some seed) g
  demoLoopG G env .l1 (Body.lineThenDetect env) fuel S g

/-- percolation_sq_lattice_L1L2.py:317-330 `test_L2` (there `length=6, seed=0`). -/
def demoL2G (G : Rng σ) (env : Env α) (L fuel : Nat) (seed : Int) (g : σ) : Py (Perc α × List (Printed α) × σ) := do
  let (S, g) ← Perc.newG G env L (some seed) g
  let (S, out, g) ← demoLoopG G env .l2 Body.view fuel S g
  let t ← S.viewLattice 1
  return (S, out ++ [.text S.occupiedSummaryL2, .text t, .text S.viewCluster], g)

end SqPerc
