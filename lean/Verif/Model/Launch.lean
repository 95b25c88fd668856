import Verif.Model.Files
import Verif.Model.Rng
/-
The top-level functions that start workers and write files: run_py/rsbd_percolatioin_run.py, run_py/shortest_path_run.py, the callees in
run_py/ensemble.py, and main.py.
-/
namespace SqPerc

variable {α σ : Type}

/-- What a file holds.  `size` is `head['ensemble_size']` (ensemble.py:64, 86, 143; shortest_path_run.py:36). -/
inductive FileData (α : Type)
  | table (size : Int) (rows : List (List α))
  | critical (size : Int) (rows : List (CritRow α))
  | path (size : Int) (rows : List (α × α))
  | cross (data : CrossFile α)

/-- One file that is written: its name and what it holds. -/
abbrev FileWrite (α : Type) := String × FileData α

/-- The class that is instantiated: percolation_sq_lattice_L0.py, percolation_sq_lattice_L1L2.py, percolation_sq_lattice_shortest_path.py.
The base class selects sites as L0 does. -/
def FileClass.variant : FileClass → Variant
  | .base | .l0 => .l0
  | .l1 => .l1
  | .l2 => .l2
  | .sp => .sp

/-- The outside of a worker: the random numbers of the constructor and of the realisations, and the time at which it writes. -/
structure Outside where
  ctor : Nat → Nat
  runs : Nat → RunDraws
  time : Stamp

/-- The realisations of `for en in range(1, n + 1)`; none if `n ≤ 0`. -/
def Outside.take (o : Outside) (n : Int) : List RunDraws := (List.range n.toNat).map o.runs

/-- `np.savetxt("./data/" + …)` / `open("./data/" + …, 'w')` (ensemble.py:70-71, 91-92, 152-153; shortest_path_run.py:45-46;
rsbd_percolatioin_run.py:54-56): FileNotFoundError if there is no directory `data`. -/
def saveAll (dataDir : Bool) (ws : List (FileWrite α)) : Py (List (FileWrite α)) :=
  if dataDir then .ok ws else .error .fileNotFoundError

/-- ensemble.py:160-211 `run_ensemble_entropy_order_threads_v2(percolationClass, length, ensembleSize, thread_count)` without a seed: the two
files it writes. -/
def entropyWorker (env : Env α) (dataDir : Bool) (c : FileClass) (L : Nat) (n : Int) (thread : Nat) (o : Outside) : Py (List (FileWrite α)) := do
  let (d, crit) ← runEnsemble env c.variant false L o.ctor (o.take n)
  saveAll dataDir [(fileName c .entropyOrder L o.time (some thread), .table n d),
    (fileName c .criticalValues L o.time (some thread), .critical n crit)]

/-- shortest_path_run.py:51-89 `ensemble_shortest_path_v2_thread(percolationClass, length, ensembleSize, thread_count)` without a seed.  With an
empty ensemble `np.savetxt` gets an empty list and writes the header only. -/
def pathWorker (env : Env α) (dataDir : Bool) (L : Nat) (n : Int) (thread : Nat) (o : Outside) : Py (List (FileWrite α)) := do
  let rows ← spEnsemble env L o.ctor (o.take n)
  saveAll dataDir [(fileName .sp .shortestPathP L o.time (some thread), .path n rows)]

/-- A value passed as `percolationClass`: a class, or (by mistake) a number. -/
inductive Callee
  | cls (c : FileClass)
  | number (n : Int)

/-- ensemble.py:96-157 `run_ensemble_entropy_order_threads(percolationClass, length, ensembleSize, thread_count=0)`.  Line 104 calls
`percolationClass`: TypeError if it is a number. -/
def threadWorker (env : Env α) (dataDir : Bool) (callee : Callee) (length : Nat) (n : Int) (thread : Nat) (o : Outside) :
    Py (List (FileWrite α)) :=
  match callee with
  | .number _ => .error .typeError
  | .cls c => do
    let d ← runEnsembleThreads env c.variant length o.ctor (o.take n)
    saveAll dataDir [(fileName c .entropyOrder length o.time (some thread), .table n d)]

/-- The files a worker has written when it has ended: a worker that raises ends with a traceback, and neither `Thread.join` nor `Process.join`
raises in the caller. -/
def written {β : Type} : Py (List β) → List β
  | .ok ws => ws
  | .error _ => []

/-- The directory after all workers have ended (`join`, rsbd_percolatioin_run.py:78-80, 98-100, 123-125, 148-150; shortest_path_run.py:108-110):
the files were written in some order. -/
def Left {β : Type} (workers : List (Py (List (String × β)))) (D D' : Directory β) : Prop :=
  ∃ ws : List (String × β), ws.Perm (workers.flatMap written) ∧ D' = ws.foldl Directory.write D

/-- rsbd_percolatioin_run.py:128-151 `run_simulation_threads_v4(length, ensemble_count, thread, interaction)`: the workers it starts and waits
for.  `En // thread` rounds down; `range(thread)` is empty for a negative number. -/
def runV4 (env : Env α) (dataDir : Bool) (L : Nat) (En thread : Int) (interaction : Int) (o : Nat → Outside) :
    Py (List (Py (List (FileWrite α)))) :=
  let c : FileClass := if interaction = 1 then .l1 else if interaction = 2 then .l2 else .l0
  if thread = 0 then .error .zeroDivisionError
  else .ok ((List.range thread.toNat).map fun i => entropyWorker env dataDir c L (En.fdiv thread) i (o i))

/-- rsbd_percolatioin_run.py:103-126 `run_simulation_threads_v3(length, ensemble_count, thread)`. -/
def runV3 (env : Env α) (dataDir : Bool) (L : Nat) (En thread : Int) (o : Nat → Outside) : Py (List (Py (List (FileWrite α)))) :=
  if thread = 0 then .error .zeroDivisionError
  else .ok ((List.range thread.toNat).map fun i => entropyWorker env dataDir .l0 L (En.fdiv thread) i (o i))

/-- shortest_path_run.py:91-110 `run_simulation_shortest_path_threads(length, ensemble_count, thread)`. -/
def runPathThreads (env : Env α) (dataDir : Bool) (L : Nat) (En thread : Int) (o : Nat → Outside) : Py (List (Py (List (FileWrite α)))) :=
  if thread = 0 then .error .zeroDivisionError
  else .ok ((List.range thread.toNat).map fun i => pathWorker env dataDir L (En.fdiv thread) i (o i))

/-- rsbd_percolatioin_run.py:70-77: thread `i` for the length `LL` is started with `args=(LL, En, i)`, that is, with the length as
`percolationClass`, the ensemble size as `length` and the number of the thread as `ensembleSize`. -/
def runV1With (env : Env α) (dataDir : Bool) (lengths : List Nat) (En : Nat) (o : Nat → Outside) : List (Py (List (FileWrite α))) :=
  lengths.mapIdx fun (i LL : Nat) => threadWorker env dataDir (.number LL) En (i : Nat) 0 (o i)

/-- rsbd_percolatioin_run.py:63-81 `run_simulation_threads()`. -/
def runV1 (env : Env α) (dataDir : Bool) (o : Nat → Outside) : List (Py (List (FileWrite α))) := runV1With env dataDir [200, 300, 400] 500 o

/-- rsbd_percolatioin_run.py:85-96: thread `i` is started with `args=(length, En_per_thread, i)`. -/
def runV2With (env : Env α) (dataDir : Bool) (length threadCounts En : Nat) (o : Nat → Outside) : List (Py (List (FileWrite α))) :=
  (List.range threadCounts).map fun (i : Nat) => threadWorker env dataDir (.number length) (En / threadCounts) (i : Nat) 0 (o i)

/-- rsbd_percolatioin_run.py:83-101 `run_simulation_threads_v2()`. -/
def runV2 (env : Env α) (dataDir : Bool) (o : Nat → Outside) : List (Py (List (FileWrite α))) := runV2With env dataDir 10 2 1000 o

/-- rsbd_percolatioin_run.py:159-167 `run_simulations()`, started when the generator is in state `g` and writing at time `t`:
`run_ensemble_entropy_order_threads_v2(SitePercolationL0, 5, 100, seed=0)` with the default `thread_count=0`. -/
def runSimulations (G : Rng σ) (env : Env α) (dataDir : Bool) (fuel : Nat) (g : σ) (t : Stamp) : Py (List (FileWrite α)) := do
  let (d, crit) ← runEnsembleG G env .l0 false fuel 5 100 (some 0) g
  saveAll dataDir [(fileName .l0 .entropyOrder 5 t (some 0), .table 100 d), (fileName .l0 .criticalValues 5 t (some 0), .critical 100 crit)]

/-- rsbd_percolatioin_run.py:10-61 `single_realization(percolationClass, length)`: the file it writes. -/
def singleFile (env : Env α) (dataDir : Bool) (c : FileClass) (L : Nat) (o : Outside) : Py (List (FileWrite α)) := do
  let f ← singleRealization env c.variant L o.ctor (o.runs 0)
  saveAll dataDir [(fileName c .crossCheck L o.time none, .cross f)]

/-- The names defined at the top level of source_py/simulation/lattice.py (lines 1-3, 5, 610; `test` and the old `test_neighbors` are commented
out in lines 602-609). -/
def latticeModule : List String := ["Site", "Bond", "Index", "Lattice", "mTest_neighbors"]

/-- Access to an attribute of a module. -/
def moduleGet (names : List String) (name : String) : Py Unit := if name ∈ names then .ok () else .error .attributeError

/-- main.py:10-43 `print_hi()` up to the second call: `lattice.test(5)`, `lattice.test_neighbors(6)`.  (What would follow is
`demoResetRelativeIndex`.)  `names` are the names that the module `lattice` defines. -/
def printHi (names : List String) : Py Unit := do
  moduleGet names "test"
  moduleGet names "test_neighbors"

/-- main.py:55-60 `init_logging()`: `logging.basicConfig(filename="./logs/…")` opens the file, FileNotFoundError without the directory. -/
def initLogging (logsDir : Bool) : Py Unit := if logsDir then .ok () else .error .fileNotFoundError

/-- main.py:64-119, the script: the workers it has started and waited for, and how it ends: with the exception raised, or with the message
`No errors` (main.py:104), which is logged if the script gets there.  `init_logging` comes first (main.py:67), the simulation second (main.py:73). -/
def mainScript (env : Env α) (logsDir dataDir : Bool) (o : Nat → Outside) : List (Py (List (FileWrite α))) × Py String :=
  match initLogging logsDir with
  | .error e => ([], .error e)
  | .ok () =>
    match runV4 env dataDir 10 100 2 1 o with
    | .error e => ([], .error e)
    | .ok ws => (ws, .ok "No errors")

end SqPerc
