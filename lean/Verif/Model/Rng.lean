import Verif.Model.Ensemble
/-
The global generator of Python's `random` module, threaded through construction, reset, selection and the ensemble functions.  In the other
model files the random numbers are arguments; here they come from a generator with a state, as in the code.
-/
namespace SqPerc

/-- A pseudo-random number generator with states `σ`: `seed k` is the state after `random.seed(k)`; `below n g` is the number returned by
`random._randbelow(n)` in state `g` (the callers use it modulo `n`) and the state afterwards.  Both are arbitrary. -/
structure Rng (σ : Type) where
  seed : Int → σ
  below : Nat → σ → Nat × σ

variable {σ α : Type}

/-- The random numbers taken by `random.shuffle` on a list of length `n + 1`: `_randbelow(i + 1)` for `i = n, n-1, ..., 1`. -/
def Rng.shuffleDraws (G : Rng σ) : Nat → σ → (Nat → Nat) × σ
  | 0, g => (fun _ => 0, g)
  | i + 1, g =>
    let d := G.below (i + 2) g
    let f := G.shuffleDraws i d.2
    (fun j => if j = i + 1 then d.1 else f.1 j, f.2)

/-- percolation_sq_lattice.py:20-23: the state of the generator after `random.seed(kwargs['seed'])`, if a seed is given. -/
def Rng.seeded (G : Rng σ) (seed : Option Int) (g : σ) : σ :=
  match seed with
  | some k => G.seed k
  | none => g

/-- percolation_sq_lattice.py:19-23 and 122-154: `cls(length=L)`, or `cls(length=L, seed=k)`, which calls `random.seed(k)` first. -/
def Perc.newG (G : Rng σ) (env : Env α) (L : Nat) (seed : Option Int) (g : σ) : Py (Perc α × σ) := do
  let f := G.shuffleDraws (L * L - 1) (G.seeded seed g)
  let S ← Perc.new env L f.1
  return (S, f.2)

/-- `reset()` (percolation_sq_lattice.py:243-271 and the subclasses): numbers are taken only if the list is shuffled
(percolation_sq_lattice.py:203-215). -/
def Perc.resetG (G : Rng σ) (env : Env α) (v : Variant) (S : Perc α) (g : σ) : Py (Perc α × σ) := do
  let f := if S.doShuffle then G.shuffleDraws (S.siteIds.length - 1) g else (fun _ => 0, g)
  let S ← S.reset env v f.1
  return (S, f.2)

/-- percolation_sq_lattice_L1L2.py:94-98, 202-204: how many neighbours the second random number chooses from; `none` if there is no second
random number because site `x` is empty (or does not exist). -/
def Perc.secondRange (S : Perc α) (pos : Nat) : Option Nat :=
  match (do
    let x ← pyGet S.siteIds pos
    let xs ← S.lat.getSite x
    if xs.isOccupied then
      let sites ← S.lat.getAllNeighborSites x
      return some sites.length
    else return none) with
  | .ok r => r
  | .error _ => none

/-- The random numbers taken by `select_site`: none in the base class (percolation_sq_lattice.py:349-364); in L1 and L2 one for the position and,
if the site there is occupied, one for the neighbour (percolation_sq_lattice_L1L2.py:85-98, 196-204). -/
def Perc.drawG (G : Rng σ) (v : Variant) (S : Perc α) (g : σ) : Draw × σ :=
  match v with
  | .l0 | .sp => (⟨0, 0⟩, g)
  | .l1 | .l2 =>
    if S.currentIdx ≥ S.lat.siteCount ∨ S.siteIds.length ≤ S.currentIdx then (⟨0, 0⟩, g)
    else
      let a := G.below (S.siteIds.length - S.currentIdx) g
      match S.secondRange (S.currentIdx + a.1 % (S.siteIds.length - S.currentIdx)) with
      | none => (⟨a.1, 0⟩, a.2)
      | some n =>
        let b := G.below n a.2
        (⟨a.1, b.1⟩, b.2)

/-- The `while` loop of `run_once` (percolation_sq_lattice.py:670-684), with fuel. -/
def Perc.runLoopG (G : Rng σ) (env : Env α) (v : Variant) : Nat → Perc α → σ → Py (Perc α × σ)
  | 0, _, _ => .error .outOfFuel
  | fuel + 1, S, g => do
    let d := S.drawG G v g
    let (S, more) ← S.placeOneSite env v d.1
    if more then
      if S.selectionFlag = some .success then
        let (S, _) ← S.detectWrapping
        let S ← S.record env
        runLoopG G env v fuel S d.2
      else runLoopG G env v fuel S d.2
    else return (S, d.2)

/-- `run_once()` of the concrete class (percolation_sq_lattice.py:663-721, percolation_sq_lattice_shortest_path.py:30-60). -/
def Perc.runOnceG (G : Rng σ) (env : Env α) (v : Variant) (fuel : Nat) (S : Perc α) (g : σ) : Py (Perc α × σ) :=
  match v with
  | .sp => do
    let S ← S.spRunOnce env fuel
    return (S, g)
  | _ => do
    let (S, g) ← S.runLoopG G env v fuel g
    return ({ S with firstRun := false }, g)

/-- `percolation.reset(); percolation.run_once()` (ensemble.py:19-22, 177-180; shortest_path_run.py:68-69). -/
def realisationG (G : Rng σ) (env : Env α) (v : Variant) (fuel : Nat) (S : Perc α) (g : σ) : Py (Perc α × σ) := do
  let (S, g) ← S.resetG G env v g
  S.runOnceG G env v fuel g

/-- ensemble.py:168-172, shortest_path_run.py:59-63: an object is constructed without a seed and, if a seed is given, replaced by one
constructed with the seed. -/
def Perc.newForRun (G : Rng σ) (env : Env α) (L : Nat) (seed : Option Int) (g : σ) : Py (Perc α × σ) := do
  let (S, g) ← Perc.newG G env L none g
  match seed with
  | none => return (S, g)
  | some k => Perc.newG G env L (some k) g

/-- ensemble.py:16-39 and 174-199: the loop over `n` realisations. -/
def ensembleLoopG (G : Rng σ) (env : Env α) (v : Variant) (printLast : Bool) (fuel : Nat) :
    Nat → Perc α → σ → Option (List (List α)) → List (CritRow α) → Py (Perc α × Option (List (List α)) × List (CritRow α))
  | 0, S, _, data, crit => .ok (S, data, crit)
  | n + 1, S, g, data, crit => do
    let (S, g) ← realisationG G env v fuel S g
    let crit := crit ++ [critRow env S]
    let aaa ← S.getDataArray
    if printLast then
      let _ ← pyGetI aaa (-1)
    match data with
    | none => ensembleLoopG G env v printLast fuel n S g (some aaa) crit
    | some d => do
      let d ← addArrays env d aaa
      ensembleLoopG G env v printLast fuel n S g (some d) crit

/-- ensemble.py:160-211 `run_ensemble_entropy_order_threads_v2(cls, L, n, seed=seed)` (and, with `seed = none` and `printLast = true`,
ensemble.py:8-50 `run_ensemble_entropy_order`), started when the generator is in state `g`: the two tables that are written. -/
def runEnsembleG (G : Rng σ) (env : Env α) (v : Variant) (printLast : Bool) (fuel L n : Nat) (seed : Option Int) (g : σ) :
    Py (List (List α) × List (CritRow α)) := do
  let (S, g) ← Perc.newForRun G env L seed g
  let (_, data, crit) ← ensembleLoopG G env v printLast fuel n S g none []
  match data with
  | none => .error .typeError
  | some d => return (divArray env d n, crit)

/-- shortest_path_run.py:65-79: the loop of `ensemble_shortest_path_v2_thread`. -/
def spEnsembleLoopG (G : Rng σ) (env : Env α) (fuel : Nat) : Nat → Perc α → σ → List (α × α) → Py (List (α × α))
  | 0, _, _, crit => .ok crit
  | n + 1, S, g, crit => do
    let (S, g) ← realisationG G env .sp fuel S g
    spEnsembleLoopG G env fuel n S g (crit ++ [(S.getPc env, S.shortestP)])

/-- shortest_path_run.py:51-89 `ensemble_shortest_path_v2_thread(cls, L, n, seed=seed)` started in generator state `g`. -/
def spEnsembleG (G : Rng σ) (env : Env α) (fuel L n : Nat) (seed : Option Int) (g : σ) : Py (List (α × α)) := do
  let (S, g) ← Perc.newForRun G env L seed g
  spEnsembleLoopG G env fuel n S g []

/-- rsbd_percolatioin_run.py:10-62 `single_realization(cls, L)` started in generator state `g`. -/
def singleRealizationG (G : Rng σ) (env : Env α) (v : Variant) (fuel L : Nat) (g : σ) : Py (CrossFile α) := do
  let (S, g) ← Perc.newG G env L none g
  let (S, _) ← realisationG G env v fuel S g
  let idxs ← S.getIndexSequence v
  return crossFile env S S.siteIds idxs

end SqPerc
