import Verif.Model.Ensemble
/-
test_py/test_percolation_L0.py, test_percolation_L1.py, test_percolation_L2.py, test_percolation_sq_lattice_shortest_path.py: the
project's own test functions.  A test passes when its model returns `.ok ()`.  `isOne` and `isZero` are the comparisons `P1 == 1.0` and
`p == 0` of floats.  The printing calls (`print`, `viewLattice`) are left out: they read the state and change nothing.
-/
namespace SqPerc

variable {α : Type}

/-- test_percolation_L0.py:12-18 (`check`), 58-60; the same lines of the L1 and L2 files: the `while` loop of the tests.  In contrast to
`run_once`, `detect_wrapping` is called after every call of `place_one_site` that returns True, also when nothing was placed.  The last
component is the value of the local variable `P1`, with `none` for its initial value -222. -/
def testsLoop (env : Env α) (v : Variant) (check : Bool) : Nat → (Nat → Draw) → Perc α → Option α → Py (Perc α × Option α)
  | 0, _, _, _ => .error .outOfFuel
  | fuel + 1, ds, S, P1 => do
    let (S, more) ← S.placeOneSite env v (ds 0)
    if more then
      let (S, _) ← S.detectWrapping
      if check then S.testLattice
      let p ← S.orderWrapping env
      testsLoop env v check fuel (fun i => ds (i + 1)) S (some p)
    else return (S, P1)

/-- test_percolation_L0.py:31-38: what follows the loop: `assert P1 == 1.0`, `test_clusters()`, `test_lattice()`. -/
def testsEnd (isOne : α → Bool) (S : Perc α) (P1 : Option α) : Py Unit := do
  pyAssert (P1.any isOne)
  S.testClusters
  S.testLattice

/-- test_percolation_L0.py:4-38 `test_simulation_L0_seed`, test_percolation_L1.py:7-41, test_percolation_L2.py:7-41. -/
def testSimulationSeed (env : Env α) (isOne : α → Bool) (v : Variant) (L fuel : Nat) (draws : Nat → Nat) (ds : Nat → Draw) : Py Unit := do
  let S ← Perc.new env L draws
  S.testLattice
  let (S, P1) ← testsLoop env v true fuel ds S none
  testsEnd isOne S P1

/-- test_percolation_L0.py:49-78 `test_simulation_L0_reset`, test_percolation_L1.py:52-81, test_percolation_L2.py:52-81 (there
`length = 6`). -/
def testSimulationReset (env : Env α) (isOne : α → Bool) (v : Variant) (L fuel : Nat) (draws draws' : Nat → Nat) (ds : Nat → Draw) :
    Py Unit := do
  let S ← Perc.new env L draws
  let S ← S.reset env v draws'
  let (S, P1) ← testsLoop env v false fuel ds S none
  testsEnd isOne S P1

/-- test_percolation_L0.py:113-131, the body of the loop in `test_simulation_L0_different_lengths`; test_percolation_L1.py:116-134,
test_percolation_L2.py:116-134. -/
def testDifferentLengths (env : Env α) (v : Variant) (L : Nat) (draws : Nat → Nat) (r : RunDraws) : Py Unit := do
  let S ← Perc.new env L draws
  let S ← realisation env v S r
  S.testClusters
  S.testLattice

/-- test_percolation_L0.py:143-161 `test_simulation_L0_different_lengths_parametrize`, test_percolation_L1.py:146-164,
test_percolation_L2.py:146-164.  `ds`, `fuel` are those of the first `run_once`, `r` those of `reset` and the second one. -/
def testParametrize (env : Env α) (v : Variant) (L : Nat) (draws : Nat → Nat) (fuel : Nat) (ds : Nat → Draw) (r : RunDraws) : Py Unit := do
  let S ← Perc.new env L draws
  let S ← S.runOnceV env v fuel ds
  S.testClusters
  S.testLattice
  let S ← realisation env v S r
  S.testClusters
  S.testLattice

/-- test_percolation_L0.py:193-194, 201-202: `while percolation.place_one_site(): pass`. -/
def placeAll (env : Env α) (v : Variant) : Nat → (Nat → Draw) → Perc α → Py (Perc α)
  | 0, _, _ => .error .outOfFuel
  | fuel + 1, ds, S => do
    let (S, more) ← S.placeOneSite env v (ds 0)
    if more then placeAll env v fuel (fun i => ds (i + 1)) S else return S

/-- test_percolation_L0.py:185 -/
def configIds : List Int := [2, 8, 14, 19, 20, 25, 27, 28, 29, 34, 35]

/-- test_percolation_L0.py:186 -/
def configSpecial : List Int := [26, 24]

/-- test_percolation_L0.py:164-208 `custome_lattice_config_1`, test_percolation_L1.py:167-211, test_percolation_L2.py:167-211 (all three
use `SitePercolationL0`).  The list `ids` is shuffled in place by `set_custome_site_id_list(ids, True)` because the object keeps the
caller's list; hence `ids + special_ids` in line 200 starts with the shuffled list, which is the object's current site order. -/
def testConfig1 (env : Env α) (fuel : Nat) (draws draws' : Nat → Nat) : Py Unit := do
  let S ← Perc.new env 6 draws
  let S ← S.setCustomIds configIds true draws'
  let S ← placeAll env .l0 fuel (fun _ => ⟨0, 0⟩) S
  let S ← S.setCustomIds (S.siteIds.map Int.ofNat ++ configSpecial) false draws'
  let S ← placeAll env .l0 fuel (fun _ => ⟨0, 0⟩) S
  let (_, w) ← S.detectWrapping
  pyAssert w

/-- test_percolation_L0.py:210-245 `custome_lattice_config_2`, test_percolation_L1.py:213-248, test_percolation_L2.py:213-248 (with the
classes L0, L1, L2; not called by the test suite). -/
def testConfig2 (env : Env α) (v : Variant) (fuel : Nat) (draws draws' : Nat → Nat) (ds : Nat → Draw) : Py (Perc α) := do
  let S ← Perc.new env 6 draws
  let S ← S.setCustomIds (configIds ++ [26]) true draws'
  placeAll env v fuel ds S

/-- test_percolation_sq_lattice_shortest_path.py:64-73 (also 28-35): the scans and the assertion at the end.  `strict` is the assertion of
line 72; line 35 has `assert not flag1 or not flag2` instead. -/
def testScans (isZero : α → Bool) (strict : Bool) (S : Perc α) : Py Unit := do
  let f1 ← S.scanAllRows
  let f2 ← S.scanAllCols
  if isZero S.shortestP then pyAssert (!f1 && !f2)
  else pyAssert (if strict then f1 || f2 else !f1 || !f2)

/-- test_percolation_sq_lattice_shortest_path.py:57-74 `test_large_lattice` (also called by `test_single`, `test_multiple_seeds`, 39-51). -/
def testLargeLattice (env : Env α) (isZero : α → Bool) (L fuel : Nat) (draws : Nat → Nat) : Py Unit := do
  let S ← Perc.new env L draws
  let S ← S.spRunOnce env fuel
  testScans isZero true S

/-- test_percolation_sq_lattice_shortest_path.py:4-37 `test_custome_lattice`; `ids` is the list made from the set in line 18, after
line 20. -/
def testCustomeLattice (env : Env α) (isZero : α → Bool) (fuel : Nat) (draws : Nat → Nat) (ids : List Int) : Py Unit := do
  let S ← Perc.new env 6 draws
  let S ← S.setCustomIds ids false draws
  let S ← S.spRunOnce env fuel
  testScans isZero false S

/-- percolation_sq_lattice.py:1050-1061, percolation_sq_lattice_L0.py:198-209: the loop of `test_large`, which places sites until
`detect_wrapping` returns True.  The result tells whether the loop was left by `break`. -/
def testLargeLoop (env : Env α) (v : Variant) : Nat → (Nat → Draw) → Perc α → Py (Perc α × Bool)
  | 0, _, _ => .error .outOfFuel
  | fuel + 1, ds, S => do
    let (S, more) ← S.placeOneSite env v (ds 0)
    if more then
      let (S, w) ← S.detectWrapping
      if w then return (S, true) else testLargeLoop env v fuel (fun i => ds (i + 1)) S
    else return (S, false)

/-- percolation_sq_lattice.py:1050-1078, percolation_sq_lattice_L0.py:198-226 `test_large`. -/
def testLarge (env : Env α) (v : Variant) (L fuel : Nat) (draws : Nat → Nat) (ds : Nat → Draw) : Py (Perc α × Bool) := do
  let S ← Perc.new env L draws
  testLargeLoop env v fuel ds S

/-- `random.seed(0, 1000)` as an expression: the generator is seeded with 0 and the value is `None`. -/
def randomSeedValue : Option Int := none

/-- test_percolation_L0.py:90-102 `test_simulation_L0_different_seeds`, test_percolation_L1.py:93-105, test_percolation_L2.py:93-105.  Every
element of `seed_list` is `None`, so each object is constructed after `random.seed(None)`: `draws seed i`, `ds seed i` are the random numbers of test `i`. -/
def testDifferentSeeds (env : Env α) (isOne : α → Bool) (v : Variant) (L fuel : Nat) (draws : Option Int → Nat → Nat → Nat)
    (ds : Option Int → Nat → Nat → Draw) : Py Unit :=
  ((List.range 10).map fun i => (i, randomSeedValue)).forM fun x => testSimulationSeed env isOne v L fuel (draws x.2 x.1) (ds x.2 x.1)

/-- test_percolation_L0.py:247-253 `test_custome_lattices`, test_percolation_L1.py:250-256, test_percolation_L2.py:250-256. -/
def testCustomeLattices (env : Env α) (fuel : Nat) (draws draws' : Nat → Nat → Nat) : Py Unit :=
  (List.range 100).forM fun i => testConfig1 env fuel (draws i) (draws' i)

/-- test_percolation_sq_lattice_shortest_path.py:39-43 `test_single`; `draws 72` are the random numbers after `random.seed(72)`. -/
def testSingle (env : Env α) (isZero : α → Bool) (fuel : Nat) (draws : Int → Nat → Nat) : Py Unit :=
  testLargeLattice env isZero 6 fuel (draws 72)

/-- test_percolation_sq_lattice_shortest_path.py:44-51 `test_multiple_seeds` with the seeds drawn in line 47. -/
def testMultipleSeeds (env : Env α) (isZero : α → Bool) (fuel : Nat) (seeds : List Int) (draws : Int → Nat → Nat) : Py Unit :=
  seeds.forM fun seed => testLargeLattice env isZero 6 fuel (draws seed)

/-- test_lattice.py:11-22 `test_index` for a lattice of length `L` (5 in the test): the two printed ids.  (The listings are in Output.lean.) -/
def testIndex (L : Nat) : Py (Int × Int) := do
  let lat ← Lattice.new L
  return (lat.calculateIdFromIndex [0, 1, 2], lat.calculateIdFromIndex [3, 2])

/-- test_lattice.py:28-47 `test_neighbors(length)`. -/
def testNeighbors (L : Nat) : Py Unit := do
  let lat ← Lattice.new L
  lat.scanSites
  lat.scanBonds

end SqPerc
