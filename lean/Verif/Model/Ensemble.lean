import Verif.Model.Perc
/-
run_py/ensemble.py, run_py/rsbd_percolatioin_run.py, run_py/shortest_path_run.py
-/
namespace SqPerc

/-- The random numbers of one realisation: those of the shuffle in `reset`, those of the `place_one_site` calls, and the fuel of the
`while` loop in `run_once`. -/
structure RunDraws where
  shuffle : Nat → Nat
  steps : Nat → Draw
  fuel : Nat

/-- `run_once` of the concrete class: percolation_sq_lattice.py:663-721, overridden in
percolation_sq_lattice_shortest_path.py:30-60. -/
def Perc.runOnceV {α : Type} (env : Env α) (v : Variant) (fuel : Nat) (ds : Nat → Draw) (S : Perc α) : Py (Perc α) :=
  match v with
  | .sp => S.spRunOnce env fuel
  | _ => S.runOnce env v fuel ds

/-- `percolation.reset(); percolation.run_once()` (ensemble.py:19-22, 177-180; shortest_path_run.py:68-69). -/
def realisation {α : Type} (env : Env α) (v : Variant) (S : Perc α) (r : RunDraws) : Py (Perc α) := do
  let S ← S.reset env v r.shuffle
  S.runOnceV env v r.fuel r.steps

/-- numpy `data += aaa` (ensemble.py:32, 189).  Arrays of different shapes raise ValueError (numpy would broadcast a one-row array; the
arrays of one ensemble all have the same shape, so this case is not modelled). -/
def addArrays {α : Type} (env : Env α) (a b : List (List α)) : Py (List (List α)) :=
  if a.length = b.length then .ok (List.zipWith (List.zipWith env.ar.add) a b) else .error .valueError

/-- numpy `data /= ensembleSize` (ensemble.py:41, 201). -/
def divArray {α : Type} (env : Env α) (a : List (List α)) (n : Nat) : List (List α) :=
  a.map fun row => row.map fun x => env.ar.div x (env.ar.ofNat n)

/-- One row of `critical_data` (ensemble.py:23-26, 181-184). -/
structure CritRow (α : Type) where
  pc : α
  sites : Nat
  bonds : Nat

/-- ensemble.py:23-26 and 181-184: the row appended to `critical_data`. -/
def critRow {α : Type} (env : Env α) (S : Perc α) : CritRow α :=
  ⟨S.getPc env, S.getSiteCountPc, S.getBondCountPc⟩

/-- ensemble.py:16-39 and 174-199: the loop over the realisations.  `printLast` tells whether the loop prints `aaa[-1,:]`
(ensemble.py:28, only in `run_ensemble_entropy_order`), which raises IndexError on an empty array. -/
def ensembleLoop {α : Type} (env : Env α) (v : Variant) (printLast : Bool) :
    List RunDraws → Perc α → Option (List (List α)) → List (CritRow α) →
    Py (Perc α × Option (List (List α)) × List (CritRow α))
  | [], S, data, crit => .ok (S, data, crit)
  | r :: rs, S, data, crit => do
    let S ← realisation env v S r
    let crit := crit ++ [critRow env S]
    let aaa ← S.getDataArray
    if printLast then
      let _ ← pyGetI aaa (-1)
    match data with
    | none => ensembleLoop env v printLast rs S (some aaa) crit
    | some d => do
      let d ← addArrays env d aaa
      ensembleLoop env v printLast rs S (some d) crit

/-- ensemble.py:8-50 `run_ensemble_entropy_order` (`printLast = true`) and ensemble.py:160-211
`run_ensemble_entropy_order_threads_v2` (`printLast = false`): returns the two tables that are written to the files.  The ensemble size
is the number of entries of `rs`; `None /= 0` (ensemble.py:41, 201 with an empty ensemble) raises TypeError. -/
def runEnsemble {α : Type} (env : Env α) (v : Variant) (printLast : Bool) (L : Nat) (ctor : Nat → Nat) (rs : List RunDraws) :
    Py (List (List α) × List (CritRow α)) := do
  let S ← Perc.new env L ctor
  let (_, data, crit) ← ensembleLoop env v printLast rs S none []
  match data with
  | none => .error .typeError
  | some d => return (divArray env d rs.length, crit)

/-- ensemble.py:106-126: the loop of `run_ensemble_entropy_order_threads`, which does not collect critical values. -/
def ensembleThreadsLoop {α : Type} (env : Env α) (v : Variant) : List RunDraws → Perc α → Option (List (List α)) → Py (Option (List (List α)))
  | [], _, data => .ok data
  | r :: rs, S, data => do
    let S ← realisation env v S r
    let aaa ← S.getDataArray
    match data with
    | none => ensembleThreadsLoop env v rs S (some aaa)
    | some d => do
      let d ← addArrays env d aaa
      ensembleThreadsLoop env v rs S (some d)

/-- ensemble.py:96-157 `run_ensemble_entropy_order_threads`: the table that is written. -/
def runEnsembleThreads {α : Type} (env : Env α) (v : Variant) (L : Nat) (ctor : Nat → Nat) (rs : List RunDraws) : Py (List (List α)) := do
  let S ← Perc.new env L ctor
  let data ← ensembleThreadsLoop env v rs S none
  match data with
  | none => .error .typeError
  | some d => return divArray env d rs.length

/-- shortest_path_run.py:65-79: the loop of `ensemble_shortest_path_v2_thread`. -/
def spEnsembleLoop {α : Type} (env : Env α) : List RunDraws → Perc α → List (α × α) → Py (List (α × α))
  | [], _, crit => .ok crit
  | r :: rs, S, crit => do
    let S ← realisation env .sp S r
    spEnsembleLoop env rs S (crit ++ [(S.getPc env, S.shortestP)])

/-- shortest_path_run.py:51-89 `ensemble_shortest_path_v2_thread`: the table that is written. -/
def spEnsemble {α : Type} (env : Env α) (L : Nat) (ctor : Nat → Nat) (rs : List RunDraws) : Py (List (α × α)) := do
  let S ← Perc.new env L ctor
  spEnsembleLoop env rs S []

/-- rsbd_percolatioin_run.py:128-151 `run_simulation_threads_v4` (and `_v3` 103-126, shortest_path_run.py:91-106): the ensemble sizes with which the
worker processes are started. -/
def threadSizes (En T : Nat) : Py (List Nat) :=
  if T = 0 then .error .zeroDivisionError else .ok ((List.range T).map fun _ => En / T)

/-- The dictionary written by `single_realization` (rsbd_percolatioin_run.py:36-52), without length, date, time and labels. -/
structure CrossFile (α : Type) where
  siteIdSequence : List Nat
  siteIndexSequence : List (List Int)
  pc : α
  siteCount : Nat
  bondCount : Nat
  entropyList : List α
  orderLargestList : List α
  orderWrappingList : List α

/-- The values that rsbd_percolatioin_run.py:41-46 writes and test_data_json.py:46-56 computes again: the site and index sequences are
those given, everything else is asked from the object. -/
def crossFile {α : Type} (env : Env α) (S : Perc α) (ids : List Nat) (idxs : List (List Int)) : CrossFile α :=
  ⟨ids, idxs, S.getPc env, S.getSiteCountPc, S.getBondCountPc, S.entropyList, S.orderLargestList, S.orderWrapList⟩

/-- rsbd_percolatioin_run.py:10-62 `single_realization`: the data written to the file.  `get_site_id_sequence`
(percolation_sq_lattice.py:223-224) returns `site_ids_indices` in every class. -/
def singleRealization {α : Type} (env : Env α) (v : Variant) (L : Nat) (ctor : Nat → Nat) (r : RunDraws) : Py (CrossFile α) := do
  let S ← Perc.new env L ctor
  let S ← realisation env v S r
  let idxs ← S.getIndexSequence v
  return crossFile env S S.siteIds idxs

/-- test_data_json.py:38-56: a new L0 object of the recorded length runs through the recorded index sequence, and the recorded quantities
are asked from it again.  (The comparisons in lines 47-60 are left to the caller; the JSON text is not modelled.) -/
def crossReplay {α : Type} (env : Env α) (L : Nat) (ctor draws : Nat → Nat) (f : CrossFile α) (fuel : Nat) (ds : Nat → Draw) :
    Py (CrossFile α) := do
  let S ← Perc.new env L ctor
  let S ← S.setCustomIndices f.siteIndexSequence false draws
  let S ← S.runOnce env .l0 fuel ds
  return crossFile env S f.siteIdSequence f.siteIndexSequence

/-- ensemble.py:67 and 148: `head['columns']`. -/
def headColumns : List String := ["p", "H", "P1", "P2"]

/-- ensemble.py:68-69 `head['desc']` in `write_entropy_order`, used by `run_ensemble_entropy_order` and
`run_ensemble_entropy_order_threads_v2`. -/
def headDesc : List String :=
  ["p=occupation probability", "H=entropy",
   "P1=order parameter by wrapping cluster", "P2=order parameter by largest cluster"]

/-- ensemble.py:149-150 `head['desc']` in `run_ensemble_entropy_order_threads`. -/
def headDescThreads : List String :=
  ["p=occupation probability", "H=entropy",
   "P2=order parameter by wrapping cluster", "P1=order parameter by largest cluster"]

end SqPerc
