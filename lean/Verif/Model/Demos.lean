import Verif.Model.Ensemble
import Verif.Model.Output
/-
The demonstration functions of percolation_sq_lattice.py, percolation_sq_lattice_L0.py, percolation_sq_lattice_L1L2.py and
run_py/shortest_path_run.py.  Each of them makes an object with a fixed length and a fixed seed; here the length and the random numbers are
arguments.  The model returns the last state of the object and everything that is printed.
-/
namespace SqPerc

variable {α : Type}

/-- Something printed: a text, or one `print` call that shows floats (the labels and the floats in the order of the arguments; how a float
is turned into text is not modelled). -/
inductive Printed (α : Type) where
  | text (t : Text)
  | values (labels : List String) (xs : List α)

/-- What the body of a `while place_one_site():` loop does: the new state, what is printed, and whether it ends with `break`. -/
abbrev Body (α : Type) := Perc α → Py (Perc α × List (Printed α) × Bool)

/-- `while sq_lattice_p.place_one_site(): body`. -/
def demoLoop (env : Env α) (v : Variant) (body : Body α) : Nat → (Nat → Draw) → Perc α → Py (Perc α × List (Printed α))
  | 0, _, _ => .error .outOfFuel
  | fuel + 1, ds, S => do
    let (S, more) ← S.placeOneSite env v (ds 0)
    if more then
      let (S, out, stop) ← body S
      if stop then return (S, out)
      else
        let (S, rest) ← demoLoop env v body fuel (fun i => ds (i + 1)) S
        return (S, out ++ rest)
    else return (S, [])

/-- percolation_sq_lattice.py:923-926: the body of the loop of `test_site_percolation`. -/
def Body.skip : Body α := fun S => .ok (S, [], false)

/-- percolation_sq_lattice.py:903-931 `test_site_percolation` (there `length=5, seed=0`). -/
def demoSitePercolation (env : Env α) (L fuel : Nat) (draws : Nat → Nat) (ds : Nat → Draw) : Py (Perc α × List (Printed α)) := do
  let S ← Perc.new env L draws
  let t1 ← S.lat.printBonds
  let t2 ← S.lat.printSites
  let t3 := S.viewCluster
  let t4 ← S.viewLattice 1
  let (S, out) ← demoLoop env .l0 Body.skip fuel ds S
  let t5 ← S.viewLattice 1
  let t6 ← S.viewLattice 2
  let t7 ← S.viewLattice 0
  let t8 := S.viewCluster
  return (S, [t1, t2, t3, t4].map .text ++ out ++ [t5, t6, t7, t8].map .text)

/-- percolation_sq_lattice.py:939-991: a call of `place_one_site` whose result is ignored, followed by `viewLattice` calls. -/
def placeAndView (env : Env α) (v : Variant) (d : Draw) (fmts : List Int) (S : Perc α) : Py (Perc α × List (Printed α)) := do
  let (S, _) ← S.placeOneSite env v d
  let ts ← fmts.mapM S.viewLattice
  return (S, ts.map .text)

/-- percolation_sq_lattice.py:939-991: several such blocks. -/
def placeAndViews (env : Env α) (v : Variant) : (Nat → Draw) → List (List Int) → Perc α → Py (Perc α × List (Printed α))
  | _, [], S => .ok (S, [])
  | ds, fmts :: rest, S => do
    let (S, out) ← placeAndView env v (ds 0) fmts S
    let (S, out') ← placeAndViews env v (fun i => ds (i + 1)) rest S
    return (S, out ++ out')

/-- percolation_sq_lattice.py:939-991: the formats of the fourteen blocks of `test_relative_index` (the calls in comments left out). -/
def relativeIndexFormats : List (List Int) := List.replicate 11 [3] ++ List.replicate 3 [3, 4]

/-- percolation_sq_lattice.py:933-1016 `test_relative_index` (there `length=6, seed=0`). -/
def demoRelativeIndex (env : Env α) (L : Nat) (draws : Nat → Nat) (ds : Nat → Draw) : Py (Perc α × List (Printed α)) := do
  let S ← Perc.new env L draws
  placeAndViews env .l0 ds relativeIndexFormats S

/-- percolation_sq_lattice.py:1027-1030: the line printed by the loop of `test_detect_wrapping` of the base module. -/
def Body.baseLine (env : Env α) : Body α := fun S => do
  let h1 ← S.entropyV1 env
  let w ← S.orderWrapping env
  return (S, [.values ["p= ", " entropy_v1 ", " entropy_v2 ", " order "] [S.occupationProb env, h1, S.entropy, w]], false)

/-- percolation_sq_lattice.py:1019-1048 `test_detect_wrapping` (there `length=6, seed=18`); `detect_wrapping` is called nowhere. -/
def demoDetectBase (env : Env α) (L fuel : Nat) (draws : Nat → Nat) (ds : Nat → Draw) : Py (Perc α × List (Printed α)) := do
  let S ← Perc.new env L draws
  demoLoop env .l0 (Body.baseLine env) fuel ds S

/-- The text printed by percolation_sq_lattice_L0.py:61, 150 and 160. -/
def wrapText : Text := println "Wrapping detected".toList

/-- percolation_sq_lattice_L0.py:58-62, 147-151, 157-161: the body of the loops of `test_relative_index` and
`test_reset_relative_index`. -/
def Body.viewDetect : Body α := fun S => do
  let t ← S.viewLattice 3
  let (S, w) ← S.detectWrapping
  return (S, .text t :: if w then [.text wrapText] else [], false)

/-- percolation_sq_lattice_L0.py:51-138 `test_relative_index` (there `length=6, seed=310`). -/
def demoRelativeIndexL0 (env : Env α) (L fuel : Nat) (draws : Nat → Nat) (ds : Nat → Draw) : Py (Perc α × List (Printed α)) := do
  let S ← Perc.new env L draws
  demoLoop env .l0 Body.viewDetect fuel ds S

/-- The text printed by percolation_sq_lattice_L0.py:153. -/
def resetText : Text := println "Resetting now ************** <<<<<<<<<<".toList

/-- percolation_sq_lattice_L0.py:141-163 `test_reset_relative_index` (there `length=6, seed=41`).  `ds'` and `draws'` are the random
numbers after and in `reset`. -/
def demoResetRelativeIndex (env : Env α) (L fuel : Nat) (draws : Nat → Nat) (ds : Nat → Draw) (draws' : Nat → Nat) (ds' : Nat → Draw) :
    Py (Perc α × List (Printed α)) := do
  let S ← Perc.new env L draws
  let (S, out) ← demoLoop env .l0 Body.viewDetect fuel ds S
  let S ← S.reset env .l0 draws'
  let (S, out') ← demoLoop env .l0 Body.viewDetect fuel ds' S
  return (S, out ++ .text resetText :: out')

/-- percolation_sq_lattice_L0.py:174-178 and percolation_sq_lattice_L1L2.py:291-295: the line printed in each round. -/
def fullLine (env : Env α) (S : Perc α) : Py (Printed α) := do
  let h1 ← S.entropyV1 env
  let w ← S.orderWrapping env
  return .values ["p= ", " entropy_v1 ", " entropy_v2 ", " order wrapping ", " order largest "]
    [S.occupationProb env, h1, S.entropy, w, S.orderLargest env]

/-- percolation_sq_lattice_L0.py:185-186: the line printed when the wrapping is found. -/
def foundLine (env : Env α) (S : Perc α) : Printed α :=
  .values ["p= ", " entropy ", " order "] [S.occupationProb env, S.entropy, S.orderLargest env]

/-- The text printed by percolation_sq_lattice_L0.py:187. -/
def foundText : Text := println "Wrapping detected ***************** <<<".toList

/-- percolation_sq_lattice_L0.py:174-191: the body of the loop of `test_detect_wrapping`; `detect_wrapping` is called twice. -/
def Body.lineDetect (env : Env α) : Body α := fun S => do
  let l ← fullLine env S
  let (S, _) ← S.detectWrapping
  let (S, w) ← S.detectWrapping
  if w then return (S, [l, foundLine env S, .text foundText], true)
  else return (S, [l], false)

/-- percolation_sq_lattice_L0.py:166-196 `test_detect_wrapping` (there `length=6, seed=18`). -/
def demoDetectL0 (env : Env α) (L fuel : Nat) (draws : Nat → Nat) (ds : Nat → Draw) : Py (Perc α × List (Printed α)) := do
  let S ← Perc.new env L draws
  demoLoop env .l0 (Body.lineDetect env) fuel ds S

/-- percolation_sq_lattice_L1L2.py:43-45 `SitePercolationL1.occupied_summary`. -/
def Perc.occupiedSummaryL1 (S : Perc α) : Text :=
  println "SitePercolationL1.occupied_summary".toList ++ println ("  1st neighor selected  ".toList ++ intText S.xOccupied ++ "  times".toList)

/-- percolation_sq_lattice_L1L2.py:163-166 `SitePercolationL2.occupied_summary`. -/
def Perc.occupiedSummaryL2 (S : Perc α) : Text :=
  println "SitePercolationL2.occupied_summary".toList ++ println ("  1st neighor selected  ".toList ++ intText S.xOccupied ++ "  times".toList)
    ++ println ("  2nd neighor selected  ".toList ++ intText S.yOccupied ++ "  times".toList)

/-- percolation_sq_lattice_L1L2.py:268-271: the body of the loop of `test_L1`. -/
def Body.detectView : Body α := fun S => do
  let (S, _) ← S.detectWrapping
  let t ← S.viewLattice 3
  return (S, [.text t], false)

/-- percolation_sq_lattice_L1L2.py:261-280 `test_L1` (there `length=6, seed=0`). -/
def demoL1 (env : Env α) (L fuel : Nat) (draws : Nat → Nat) (ds : Nat → Draw) : Py (Perc α × List (Printed α)) := do
  let S ← Perc.new env L draws
  let (S, out) ← demoLoop env .l1 Body.detectView fuel ds S
  return (S, out ++ [.values ["tc = "] [S.getPc env], .text S.occupiedSummaryL1, .text S.viewCluster])

/-- percolation_sq_lattice_L1L2.py:291-308: the body of the loop of `test_detect_wrapping_L1L2`. -/
def Body.lineThenDetect (env : Env α) : Body α := fun S => do
  let l ← fullLine env S
  let (S, _) ← S.detectWrapping
  return (S, [l], false)

/-- percolation_sq_lattice_L1L2.py:283-314 `test_detect_wrapping_L1L2` (there `length=100, seed=18`). -/
def demoDetectL1 (env : Env α) (L fuel : Nat) (draws : Nat → Nat) (ds : Nat → Draw) : Py (Perc α × List (Printed α)) := do
  let S ← Perc.new env L draws
  demoLoop env .l1 (Body.lineThenDetect env) fuel ds S

/-- percolation_sq_lattice_L1L2.py:323-325: the body of the loop of `test_L2`. -/
def Body.view : Body α := fun S => do
  let t ← S.viewLattice 3
  return (S, [.text t], false)

/-- percolation_sq_lattice_L1L2.py:317-330 `test_L2` (there `length=6, seed=0`); `detect_wrapping` is called nowhere. -/
def demoL2 (env : Env α) (L fuel : Nat) (draws : Nat → Nat) (ds : Nat → Draw) : Py (Perc α × List (Printed α)) := do
  let S ← Perc.new env L draws
  let (S, out) ← demoLoop env .l2 Body.view fuel ds S
  let t ← S.viewLattice 1
  return (S, out ++ [.text S.occupiedSummaryL2, .text t, .text S.viewCluster])

/-- run_py/shortest_path_run.py:9-16 `run_shortest_path` (there `length=6, seed=72`). -/
def demoShortestPath (env : Env α) (L fuel : Nat) (draws : Nat → Nat) : Py (Perc α × List (Printed α)) := do
  let S ← Perc.new env L draws
  let S ← S.spRunOnce env fuel
  let t ← S.viewLattice 3
  return (S, [.text t, .values [] [S.shortestP]])

/-- run_py/shortest_path_run.py:21-24: the loop of `ensemble_shortest_path_v1`; the printed `e` and the printed `p*`. -/
def spPrintLoop (env : Env α) : Nat → List RunDraws → Perc α → Py (List (Nat × α))
  | _, [], _ => .ok []
  | e, r :: rs, S => do
    let S ← realisation env .sp S r
    let rest ← spPrintLoop env (e + 1) rs S
    return (e, S.shortestP) :: rest

/-- run_py/shortest_path_run.py:19-24 `ensemble_shortest_path_v1`. -/
def spPrint (env : Env α) (L : Nat) (ctor : Nat → Nat) (rs : List RunDraws) : Py (List (Nat × α)) := do
  let S ← Perc.new env L ctor
  spPrintLoop env 1 rs S

end SqPerc
