import Verif.Model.Ensemble
/-
Names of the output files: `get_signature` of the classes, run_py/ensemble.py, run_py/shortest_path_run.py, run_py/rsbd_percolatioin_run.py.
-/
namespace SqPerc

/-- The classes with a signature of their own. -/
inductive FileClass
  | base | l0 | l1 | l2 | sp
  deriving DecidableEq, Repr

/-- `get_signature()`: percolation_sq_lattice.py:124, 189-190; percolation_sq_lattice_L0.py:12-13; percolation_sq_lattice_L1L2.py:15-16, 146-147;
percolation_sq_lattice_shortest_path.py:15-16. -/
def FileClass.signature : FileClass → String
  | .base => "SitePercolation"
  | .l0 => "SitePercolation" ++ "L0_"
  | .l1 => "SitePercolation" ++ "L1_"
  | .l2 => "SitePercolation" ++ "L2_"
  | .sp => "SitePercolation" ++ "shortest_path_"

/-- What is written: ensemble.py:54 and 131, ensemble.py:76, shortest_path_run.py:27, rsbd_percolatioin_run.py:33. -/
inductive FileKind
  | entropyOrder | criticalValues | shortestPathP | crossCheck
  deriving DecidableEq, Repr

/-- The text added to the signature, up to the length: ensemble.py:54 and 131, ensemble.py:76, shortest_path_run.py:27,
rsbd_percolatioin_run.py:33. -/
def FileKind.label : FileKind → String
  | .entropyOrder => "_entropy_order_L"
  | .criticalValues => "_critical_values_L"
  | .shortestPathP => "_shortest_path_p_L"
  | .crossCheck => "_percolation_cross_check_data_L"

/-- A point in time, to the second. -/
structure Stamp where
  year : Nat
  month : Nat
  day : Nat
  hour : Nat
  minute : Nat
  second : Nat
  deriving DecidableEq, Repr

/-- A number with at least `k` digits. -/
def pad (k n : Nat) : String := String.ofList (List.replicate (k - (Nat.toDigits 10 n).length) '0') ++ toString n

/-- `now.strftime("%Y%m%d_%H%M%S")` (ensemble.py:45, 132, 205; shortest_path_run.py:85; rsbd_percolatioin_run.py:30). -/
def Stamp.text (t : Stamp) : String :=
  pad 4 t.year ++ pad 2 t.month ++ pad 2 t.day ++ "_" ++ pad 2 t.hour ++ pad 2 t.minute ++ pad 2 t.second

/-- ensemble.py:55-59, 77-81, 135-139; shortest_path_run.py:28-32: `_th{}` if the number of the worker is given. -/
def workerText : Option Nat → String
  | none => ""
  | some i => "_th" ++ toString i

/-- The file name: ensemble.py:54-59 and 71, 76-81 and 92, 131-139 and 153; shortest_path_run.py:27-32 and 46;
rsbd_percolatioin_run.py:33-36 and 55. -/
def fileName (c : FileClass) (k : FileKind) (length : Nat) (t : Stamp) (worker : Option Nat) : String :=
  "./data/" ++ (c.signature ++ k.label ++ toString length ++ "_" ++ t.text ++ workerText worker ++ ".txt")

/-- A directory: what was written last under each name. -/
def Directory (β : Type) := String → Option β

/-- `np.savetxt(filename, data, ...)` / `open(filename, 'w')`: an existing file is replaced. -/
def Directory.write {β : Type} (D : Directory β) (w : String × β) : Directory β :=
  fun name => if name = w.1 then some w.2 else D name

/-- rsbd_percolatioin_run.py:128-136: the class chosen by `run_simulation_threads_v4`. -/
def classOfInteraction (interaction : Int) : FileClass :=
  if interaction = 1 then .l1 else if interaction = 2 then .l2 else .l0

/-- The writes of the workers started by `run_simulation_threads_v4` (rsbd_percolatioin_run.py:146-151): worker `i` ends at time `t i` and writes
its two tables (ensemble.py:209-210). -/
def workerWrites {β : Type} (c : FileClass) (length T : Nat) (t : Nat → Stamp) (entropy crit : Nat → β) : List (String × β) :=
  (List.range T).map (fun i => (fileName c .entropyOrder length (t i) (some i), entropy i)) ++
  (List.range T).map (fun i => (fileName c .criticalValues length (t i) (some i), crit i))

end SqPerc
