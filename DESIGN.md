# Design

Formal model (Lean 4) of `sha314/SqLatticePercolation_py` (sources in `/repo`) and proofs of the properties listed in
`properties.jsonl`.  `MANIFEST.json` maps each property to its theorems.

## 1. Layout

* `lean/Verif/Spec/*` – specification vocabulary that does not mention the code: periodic neighbours, paths of occupied
  sites, walks with unwrapped displacement, "wraps", connected bonds, component counts, entropy of a configuration
  (`Torus`), placement sequences (`Sequence`), straight lines of sites (`Lines`).
* `lean/Verif/Model/*` – the model, function by function; every definition cites file and lines in `/repo`.
* `lean/Verif/Proof/*` – invariants and helper lemmas.  Nothing in here is part of a claim.
* `lean/Verif/Props/*` – the claims (`Cnn_…`), each followed by `example`s that exhibit a non-trivial state or input
  meeting the hypotheses.  `Props/Demo` has the concrete objects used by these examples, `Props/Obs` the observables.
* `seeded/LOG.jsonl` – wrong programs tried against the theorems (section 7).
* `lean/Verif/Conformance.lean`, output in `conformance/RESULT.txt` – runs the model on the five data files of `/repo/data_pytest`, which were recorded from runs of the real
  program, with double precision arithmetic and CPython's set order.  All recorded numbers (critical values, order parameters and
  entropies of 13 250 states, see `RESULT.txt`) come out identical, bit for bit.  `Props/Recorded` repeats this for L = 5 in the
  kernel, without the entropies.  This is a test of the model, not of the claims.

## 2. How the code is modelled

* **Objects** are immutable records; a mutating method returns the new record in `Py = Except PyErr`.  Exceptions are values
  (`IndexError`, `TypeError`, `ValueError`, `AssertionError`, `ZeroDivisionError`).  When a method raises, the object it leaves
  behind is modelled by the `…Raised` functions of `Model/History` (what was assigned before the `raise`); histories (`Reach`,
  `DefReach`, `Trace`) go on after exceptions that the caller catches, so all claims about histories cover them too.  Theorems C71
  show that in histories nothing raises elsewhere than these functions assume.
* **Classes.** `SitePercolation`, `SitePercolationL0`, `L1`, `L2` and `ShortestPathAfter_pc` share one record `Perc α` with a
  `Variant` tag that selects the overriding methods.
* **Lists** are `List`, indexing follows Python's rule (negative indices count from the end, otherwise IndexError).
  Ids are `Nat`; group ids, coordinates and relative indices are unbounded `Int`, as in Python.
* **Random numbers** are inputs.  `random.randint(a,b)` is `a + draw % (b-a+1)` for an arbitrary `draw`; `random.shuffle` is
  CPython's Fisher–Yates loop over arbitrary draws.  Theorems quantify over all draws.  `Model/Rng` adds a generator
  (any state type, any `seed` and `below` functions) that produces the draws; C61 shows that every generator-driven run is one of
  the draw-driven runs, so all claims apply to it.  `Model/Words` gives the functions that CPython uses to make these numbers
  from 32-bit words; there the words are inputs, and C108 takes them to be independent and uniform.  `Model/Twister` is CPython's generator itself, the Mersenne
  Twister with its seeding by an int (C110, C111).  Its evaluation was compared outside the proofs with CPython 3.11 (`getrandbits(32)` after
  `seed(0)`, `seed(12345678901234567890)` and `seed(-7)`, among the first 1300 words): identical.
* **Set iteration order** is an arbitrary function `SetOrder` returning the distinct elements in some order; theorems quantify
  over it.
* **Float arithmetic** is an arbitrary structure `Arith α` (opaque `+ - * / log` and literals).  Every claim not about entropy
  *values* holds for any arithmetic, IEEE included.  The entropy-value claims (C14, C15, the entropy parts of C27, C38, C58, C59)
  instantiate it with the real numbers; C65 bounds how far the entropy is from these values in any arithmetic with a relative error per
  operation, and gives 53-bit binary rounding (unbounded exponent) and IEEE doubles with signed
  zeros, infinities and NaN (`Model/Double`, C106) as instances.  Occupation probability and order parameters are modelled as the pair numerator/denominator, of
  which Python computes the quotient.
* **`while` loops** take fuel; running out of it is a distinct error, and theorems show how much fuel always suffices.
* **Histories** (`Reach`, `DefReach`, `Trace` in `Model/History` and `Spec/Sequence`): a state is reachable if it results from the constructor by any
  sequence of public calls (place_one_site, detect_wrapping, reset, run_once, test_run_once, shuffle, swap_ids, set_custome_…), for arbitrary draws.
  `DefReach` ("default mode") leaves out shuffle, swap_ids and custom lists, which interfere with the candidate pools of
  L1/L2 and with the order of L0.  `Trace` is a history with detection after each successful placement, as in `run_once`.

### Simplifications

* A percolation object stores the value of its site list (the code keeps a reference to the caller's list).  References are modelled in `Model/World` (C74, C97);
  in histories of one object the step `Reach.write` stands for assignments by others who hold the same list.  Changing the *length* of a list
  in use is covered by `Model/Loose` (C104); assigning something that is not a site id is not modelled.
* Printing other than by the viewers and listings of the lattice and the cluster pool (`Model/Output`), logging, clocks and process start-up are not modelled.  Time stamps in file
  names are inputs (`%Y` assumed to give four digits).  Worker processes are modelled as independent runs with arbitrary random numbers, writing
  in an arbitrary order.
* JSON text (`Model/Json`): characters that `json.dumps` writes as `\uXXXX` and NaN are left out (none occur); in C90 `float.__repr__` is a parameter of
  which the theorems assume that `float(…)` inverts it; C109 defines it for IEEE doubles (`Model/Repr`, the rule that CPython documents: fewest digits
  that read back, then closest; exponent form below 1e-4 and from 1e16) and proves the assumption.  An int and a float of the same value are not distinguished.
* numpy is modelled where used: elementwise subtraction with one-element broadcast, `sign`, `diff`, `abs`, `argmax`, mean over rows.

## 3. What is modelled and what is not

| file in `/repo` | modelled in | not modelled |
|---|---|---|
| `source_py/simulation/index.py`, `element.py`, `site.py`, `bond.py` | `Model/Elements`, `Model/Lattice`, `Model/Output` (`get_str`, `__str__`), `Model/Access` (`is_root`) | — |
| `source_py/simulation/cluster.py` | `Model/Cluster`, `Model/Output` (text of `view`), `Model/Access` (`__str__`, `get_cluster`, `add_bonds`) | — |
| `source_py/simulation/lattice.py` | `Model/Lattice`, `Model/Output` (texts), `Model/Access` (`get_site_gid_by_index`, id lists, `mTest_neighbors`) | — |
| `source_py/simulation/percolation_sq_lattice.py` | `Model/Perc`, `Model/Output` (viewers), `Model/Demos` and `Model/Tests` (functions from line 903 on), `Model/Access` (`get_site_gids`, `get_change_in_relative_index`, `BondPercolation`) | — |
| `…_L0.py`, `…_L1L2.py`, `…_shortest_path.py` | `Model/Perc`, `Model/Demos` (demonstration functions, `occupied_summary`), `Model/Files` (`get_signature`) | — |
| `run_py/ensemble.py` | `Model/Ensemble`, `Model/Files`, `Model/Rng`, `Model/Table`, `Model/Json` | none (infinities, NaN and the sign of zero: `Model/Double`) |
| `run_py/rsbd_percolatioin_run.py` | `Model/Ensemble`, `Model/Files`, `Model/Launch`, `Model/Json` | — |
| `run_py/shortest_path_run.py` | `Model/Ensemble`, `Model/Files`, `Model/Demos`, `Model/Launch`, `Model/Json` | — |
| `source_py/analyze/lines.py` | `find_intersection` in `Model/Misc`, the rest in `Model/Lines` (what is passed to `ax.plot`, exact numbers) | — |
| `main.py` | `print_duration` in `Model/Misc` and `Model/Duration`, the rest in `Model/Launch` | the other log messages |
| `test_py/test_data_json.py` | replay in `Model/Ensemble`, the rest in `Model/Json` (a directory as a list of names and texts) | printing |
| `test_py/test_percolation_L0.py`, `_L1.py`, `_L2.py`, `…_shortest_path.py` | `Model/Tests` (the ten seeds of `…_different_seeds` are all None, because `random.seed(0, 1000)` returns None) | — |
| `test_py/test_lattice.py` | `Model/Tests` | — |
| `test_py/test_main.py` | – | only prints |
| `source_py/simulation/arguments.py` | `test`, `test2` in `Model/Arguments` | `test3` (argparse without options) |

## 4. Proof architecture

1. `Proof/LatticeNew`, `Proof/Ids`: the constructor loops are characterised pointwise; a lattice is written `mkLat L V` for a
   *view* `V` giving occupation, gid and relative index of each site and bond (`Proof/View`).  Every method is shown to act on
   views (`…_mk` lemmas in `Proof/Machine`, `Merge`, `Place`, `Select`).
2. `Core` (`Proof/CoreStep`): the cluster invariant – cluster lists partition bonds and occupied sites, gids are list positions, and
   two bonds share a gid iff connected.  Its step uses the union lemma of `Proof/Conn`.
3. `Lift` (`Proof/Lift`, `Wrap`): for L ≥ 3 relative index differences are displacements of occupied walks; hence, as long as nothing wraps,
   they are determined by the configuration, and wrapping is detected iff the new site closes a walk with non-zero displacement.  For L ≤ 2 (`Flat`)
   relative index differences are plain index differences.
4. `Reach.sim`, `Trace.sim` (`Proof/Refine`, `Trace`): every reachable state satisfies the invariants.
5. Termination and selection of L1/L2: a window invariant on the pool and a potential that decreases by one with each call
   (`Proof/Window`, `Default`, `Progress`).
6. Runs, resets and replays: `Proof/Frame` shows that states which agree up to selection data behave alike (`Agree`, `PyRel`).

## 5. Properties

"any history" = every class, draw, set order and arithmetic, every sequence of public calls.

| id | what is modelled | how it is proved |
|----|------------------|------------------|
| C01 | `init_lattice`, `init_ids`, `find_neighbor_bonds`, `scan_*`, `test_neighbor_count` | loops solved pointwise, modular arithmetic |
| C02 | `calculate_id_from_index`, `get_row_col_from_id` | division with remainder |
| C03 | `get_site_neighbor_of_site`, `get_all_neighbor_sites` | from C01 |
| C04 | `distance_btn_sites` | case split; also the exact condition for agreeing with the periodic distance |
| C05–C09 | `merge_clusters_v2`, cluster pool | `Core` invariant, any history |
| C10, C11 | `place_one_site`, flags, counter | `Core`, select lemmas |
| C12, C13 | `track_largest_cluster` | invariant on the maximum |
| C14, C15 | `entropy_add/subtract/v1/v2` over ℝ | invariant; concavity and superadditivity of x log x |
| C16–C19, C53 | `relabel_relative_indices`, `detect_wrapping` | `Lift`, `Flat` |
| C20, C52 | wrapping id kept through merges | `Core` + invariant that the wrapping cluster contains the loop |
| C21 | critical values | `Trace.sim`, first wrapping index |
| C22, C23 | detection at the wrong time | explicit histories for all L ≥ 3; fresh/reset states |
| C24–C26 | `run_once` of L0 (and L1, L2), data lists, `test_clusters`, `test_lattice` | induction over the loop |
| C27 | two runs with the same placement sequence | both equal the same function of the sequence |
| C28, C29 | `reset` | normal form of the reset state, `Agree` simulation; for the plain classes also after custom lists (`C28_any_history`) |
| C30–C32 | custom lists, `shuffle`, `swap_ids` | list lemmas; Fisher–Yates is onto the permutations |
| C33–C37 | `select_site` of L1/L2 | window invariant, potential |
| C38 | L1 index sequence replayed by L0 | `Trace` + C27 |
| C39–C41 | `ShortestPathAfter_pc` | loop induction; exact stopping condition; for L ≤ 4 a full row leaves at most one row for another wrapping cluster, for L ≥ 5 an explicit order (`lateOrder`) |
| C42 | ensemble driver, division of work | fold lemmas |
| C43 | column descriptions against column contents | comparison of the two tables |
| C44, C45, C49 | `find_intersection`, `Index`, `print_duration` | direct |
| C46 | `get_four_neighbor_sites` | removal while iterating modelled literally; exact set of failing sites |
| C47 | `test_relative_index` | invariant "some occupied neighbour is one unit step away" |
| C48 | `test_run_once` | exact condition for the assertion; one full row first violates it |
| C50 | `merge_clusters` (v1) | literal model; double counting |
| C51 | number of non-empty clusters | counting argument on `Core` |
| C54 | bounds at the critical point | winding walk meets every row or every column; pigeonhole on rows |
| C55 | sites versus bonds of a cluster | handshake, spanning-tree count |
| C56 | relabelling cost | weighted-union argument: a relabelled bond's cluster doubles |
| C57 | shuffle | draws ↔ permutations is a bijection, counting |
| C58 | written tables | C15, C13, C52, C54 averaged |
| C59 | `single_realization`, `test_data_json` | C24, C38; left-over pool of L1/L2 |
| C60 | `test_rwo_col_scan` | loop literally modelled; holonomy of relative indices along rows |
| C61 | generator-threaded versions of all drivers | each is a draw-driven run; seeded functions ignore the previous state |
| C62 | file names, directory | unique readability of the names |
| C63 | any sequence of calls, detection calls omitted or repeated | until the sites wrap, such a state is also a detected-run state; the closing site is compared by walk displacements |
| C64 | the project's test functions | budget induction of C24 with C26, C47 and C01 at every stage; C63 for the custom list; C41 for the shortest path; the checks characterised on arbitrary lattice objects |
| C65 | `entropy_add/subtract/v1/v2` in rounded arithmetic (`Rounded`: relative error u per operation) | error of one summand, of a sum, of one placement; induction over the abstract steps; instance: 53-bit binary rounding `binArith 52` |
| C66 | `view*`, `get_row_str`, `get_row_v_str`, `print_*`, `list_all_*`, `get_str`, `__str__`, `viewLattice` as texts | spec: `lines` of a text and `numbers` written in it (`Spec/Text`); a calculus `Shows text numbers` closed under concatenation; the texts are self-delimiting |
| C67 | `OneCluster.view`, `ClusterPool.view`, `viewCluster` as texts | as C66, with the cluster invariant (`id = gid = position` for clusters with a bond) |
| C68 | all placement runs, `run_once` over custom lists, shortest-path runs | spec: `Symmetry L` (`Spec/Symmetry`), a bijection of sites that permutes the four directions; connectivity, displacements of walks, first wrapping site and straight lines are equivariant; C27 and C41 turn this into equal reports |
| C69 | ensemble drivers of L0 and the shortest-path class | spec: `meanOf` over all vectors of random numbers, `micro` over all sets of sites (`Spec/Mean`); double counting of orders (C57), induction over the realisations, C42 and C21 for the reported values |
| C70 | `select_site` of L1 and L2 with both random numbers | the outcomes `Fin w × Fin 4` are counted with `Nat.card`; the counts are expressed with `Occ`, `nbr` and the candidate list only; bijections from C36/C37 and the duplicate-freeness of the candidates (C33, C35); the failure of translation invariance is a witness |
| C71 | every public method of the histories, with the object left behind when it raises (`placeRaised`, `runRaised`, …) | characterisation of the raising calls by invariants of all histories (list length = iteration limit, counters ≥ 0, ids in range); interrupted runs by induction on the loop, using the data lemma of C27; monotonicity through the abstract machine, which has a step `reselect` for a refused placement |
| C72 | `Rng` and the functions `newG`, `resetG`, `drawG`, `runOnceG`, `runEnsembleG`, `spEnsembleG` (`random.seed`, `random.shuffle`, `random.randint`, `random.choice` as requests to a generator with a state) | requests as a list and the generator's answers to it as separate specs (`answers`, `countdown`, `blocks`); shuffles by induction on the length, ensembles by induction on the number of runs |
| C73 | `detect_wrapping`, cluster counts and relative indices in all histories | separate spec (`Spec/Plane`: the configuration repeated over the plane and its clusters, no closed walks); walks on the torus lift to paths in the plane, an infinite cluster contains two copies of one site (pigeonhole), then C07, C17, C20, C53 |
| C74 | several objects and the list objects they and the caller refer to (`Model/World`): `set_custome_site_id_list` keeps the caller's list, `get_site_id_sequence` returns the attribute, L1/L2 overwrite entries in place | invariant over all histories of actions: lists referred to by two objects belong to plain classes that do not shuffle; framing lemmas for every call (`Proof/Keep`); the one-object model is then exact for every object; interference without the rule shown by an evaluated example |
| C75 | the demonstration functions of the four simulation modules and of `shortest_path_run.py` (`Model/Demos`): the while loops with their printing, viewing and detecting bodies, the printed lines as labels and values | one loop rule (budget of `place_one_site`) instantiated for each body; a separate induction for the loop that breaks; the contents of the tables and cluster listings come from C66 and C67 |
| C76 | gids of bonds and sites before and after every call, with counters; the placements inside `run_once` are counted one by one | weight argument: an absorbed cluster is at most as large as the absorbing one, or it is absorbed by the wrapping cluster, which happens to an element at most once |
| C77 | list objects on a heap, references from the object and from the caller, writes by the caller (`Model/Arrays`) | every call but `reset` extends the lists, `reset` creates new objects; frame argument for the lists the object has let go |
| C78 | the top-level functions with their workers as independent runs that end in files or in an exception, writing in any order; directories present or not (`Model/Launch`) | C42_mean for each worker, names distinct by C62, all orders of writing by permutation |
| C79 | runs of all classes from any reachable state, any custom list, any draws | a measure (candidates left, each weighted by its remaining tries) that every round lowers; `Between`, an invariant relating a state of the run to its start |
| C80 | counters x_occupied, y_occupied in all states of the default mode; the text of occupied_summary | invariant `Tally` linking the counters, the number of occupied sites and the number of calls; C36, C37 rules |
| C81 | relative indices in all reachable states, `is_root` of `Model/Access` | invariant `Rooted` of the abstract machine: the cluster that takes the placed site keeps its relative indices and has an occupied site whenever a neighbour is occupied; uniqueness from C53 |
| C82 | the accessors of clusters, lattice and percolation objects and the class BondPercolation (`Model/Access`) | cluster invariants of C05-C08, an invariant for merged clusters, text by `Shows` |
| C83 | the entropy drivers and `single_realization` of `Model/Ensemble`, `Model/Launch` with the variant `.sp` | `run_once` of the class records nothing (induction over its loop), placement orders of C69, uniqueness of the first wrapping prefix |
| C84 | `draw_vertical_line_at`, `draw_horizontal_line_at`, `find_intersection_and_plot` in `Model/Lines`, over any ordered field | exact `linspace`; C44 for the drawn level |
| C85 | `test`, `test2` of arguments.py and the library module `getopt` in `Model/Arguments` | induction over the argument list; evaluation for `test2`, which does not use its input |
| C86 | `spEnsemble`, `runEnsemble` with exact arithmetic and independent uniform shuffles | the stage of the run is the first stage with a complete line for L ≤ 4 (C40) and not before it in general; strictness for L ≥ 5 from the order of `C40_not_first_all`; for L = 3 the loops are a row, a column or a staircase (potential on the other sets), then counting |
| C87 | `runEnsemble`, `runEnsembleThreads` for L0 with exact arithmetic and independent uniform shuffles | the orders of different realisations are independent (each is a uniform shuffle whatever the list was), so the covariances vanish; Chebyshev's inequality; counting for L = 3 |
| C88 | `runEnsemble`, `runEnsembleThreads` with the standard model of floating point, `addArrays`, `divArray` | error of left-to-right summation by induction, the drift bound of C65 for every collected entropy, gradual underflow in the division; binary rounding as instance |
| C89 | `fmtE`, `saveText`, `FileData.rows` (text of the table files), `runEnsemble`, `spEnsemble`; spec `Spec/Decimal`: reading decimal numbers and tables | nearest-decimal argument on the integer logarithm, digits read back, C88 for the rounding before printing; 53-bit arithmetic as instance |
| C90 | `Json.dumps`, `tableHead`, `crossHead`, `FileData.text` (what is written), `crossRead`, `crossTest`, `crossTestAll` (test_data_json.py); spec `Spec/Json`: a JSON reader | the reader inverts the writer by induction on values; C89 for the tables, C59 for the replay |
| C91 | `select_site` and `place_one_site` of L1 and L2 over whole runs: all outcomes of the random numbers of `n` calls, counted | a relation `Mirror` between states that differ by a symmetry, kept by every call after renaming the random numbers; induction on the number of calls; the failure for L2 is a count by enumeration |
| C92 | `select_site` and `place_one_site` of L1 and L2, `run_once`, `reset`, as one process | `Spec/Growth.lean` states the rules on a list of placed sites, a list of candidates and a failure count; a relation `Follows` between object and process is kept by every call (`Proof/Moves.lean`) and by the wrapping detection and recording in the loop of `run_once` |
| C93 | the ensemble drivers with L1 and L2: table and critical file as functions of the random numbers of the placements | C92 for each realisation; the realisations depend on disjoint independent random numbers, so means, variances and Chebyshev bounds follow for finite product spaces |
| C94 | the cluster labels and `wrapping_cluster_id` in states with several clusters around the torus | signed crossings of two closed walks: the passages of one walk form a flow without sources, its shifted copy is crossed only at common sites, and the crossings have a potential up to the winding (`Proof/Cross.lean`); counting on one row or column; explicit row orders for the extreme cases |
| C95 | `detect_wrapping()` and `after_wrapping` against closed paths of empty sites (`Spec/Dual.lean`) | duality on the torus: without wrapping the occupied sites are drawn in the plane, and parallel empty paths would give the plaquettes a potential; summation by parts of the two contradicts the winding; conversely the function cut along an occupied closed walk grows uniformly along empty paths (`Proof/Dual.lean`) |
| C96 | `detect_wrapping()`, `get_pc()` in histories with detection after every placement | the empty sites contain two independent closed paths (C95); a shortest one visits at least L different sites and a shortest path leaving it in another direction adds at least half as many (`Proof/Fewest.lean`); explicit order with a drawing of the occupied sites in the plane for the other direction |
| C97 | several objects of one length and the list objects they share (`Model/World`), with no rule about shuffling or overwriting, and assignments of the caller to entries of custom lists | `Reach` has a step `write` (others assign site ids to entries of a custom list between two calls), so every any-history theorem covers interference; invariant over all worlds: shared lists are custom lists with valid entries and unchanged length (`Props/Sharing`); evaluated examples show why objects of different lengths and lists of an object's own random order are excluded |
| C98 | the drivers and the independent shuffles of C69; `√2`, `√5` real numbers | a shortest closed path (occupied sites, or empty sites with diagonal steps by the duality of C95) has no shortcut, so its first `L` sites are one of few step sequences (`Proof/Peierls`, `Proof/Thresholds`: transfer weights with growth rates `1 + √2` and `2 + √5`); union bound over `n`-subsets, then the law of C69 (`Props/Threshold`) |
| C99 | the shortest-path ensemble driver with independent shuffles as in C86 | union bound over the `2 L` rows and columns, then C86 and C98 (`Props/LineLimit`) |
| C100 | the drivers and the independent shuffles of C69 | a cluster of more than `(2r-1)²` sites contains a path of `r` steps without shortcuts, counted as for C98 (`Proof/Small`); at most four bonds per site; entropy at least minus the logarithm of the largest fraction; then C69 (`Props/LowDensity`) |
| C101 | the whole object, any history; the drivers as in C58 | fewer than `L` empty sites leave a full row and a full column, all of which are one cluster, so the sites outside lie in the crossings of damaged rows and columns; a wrapping cluster meets the full row or column (`Proof/NearFull`); entropy split into the largest and the other clusters (`Props/NearFull`) |
| C102 | the whole object, any history; the drivers as in C69 | the boundary between a cluster of the plane and one component of its complement is connected through straight and diagonal steps (`Proof/Boundary`), so two wrapping clusters are separated by a closed path of empty sites and a finite cluster is surrounded by one (`Proof/Enclose`); such paths are counted and their chance bounded (`Proof/Giant`); the table columns compared with the bound order by order (`Props/HighDensity`) |
| C103 | the lists `site_ids` and `bond_ids` of every cluster as list objects with references (`Model/Cells`): `append` and `+=` in place, new lists in `clear` and `init_clusters`; the placements of the model repeated with the references, all other statements leave the clusters alone; simplified: the caller does not change a list | the references of the clusters stay pairwise different and their values are the lists of the model (`Proof/Cells`); one placement extends the two lists of the surviving cluster and gives the emptied clusters new lists (`Proof/CellsStep`); induction over the steps (`Props/Cells`) |
| C104 | histories in which others change the list of site ids to any list of site ids of any length, in any mode, between any two calls (`Model/Loose`); simplified: entries are site ids | every such history is emulated by an undisturbed one in which each draw is prepared by `set_custome_site_id_list`, up to the attributes about the order (`Proof/Loose`); the theorems about histories then apply; raising calls characterised directly |
| C105 | the ensemble drivers of all four classes as functions of the random numbers (C42, C69, C87, C93); exact arithmetic | Hoeffding's lemma of Mathlib for the uniform measure on a finite type (`meanOf_exp_le`); independence of the orders of successive shuffles as a product formula by induction (`meanOf_orders_prod`), of the realisations of L1 and L2 by `meanOf_prod`; union bound over the entries |
| C106 | Python's `float` as IEEE 754 binary64 with signed zeros, infinities and NaN (`Model/Double`); `math.log` is a parameter assumed to be finite with relative error 2⁻⁵² on positive numbers; `%.10e` for every float | rounding lemmas (`Proof/Double`: error, exactness of small sums, no overflow up to the largest double, monotonicity); ties, the exact overflow threshold and the rules for infinities and NaN (`Props/IeeeSpecial`) show that the number type is the one of the standard, then the general rounding theorems C65, C88, C89 applied to this number type; the correctly rounded logarithm as witness |
| C107 | the ensemble drivers with IEEE doubles (C106), the files they write and their reading (C89), the random numbers as in C105 | the placement orders of all realisations are computed from the random numbers alone, in any arithmetic (`Orders`, `C107_same_orders`), so the exact tables of C105 and the double tables of C106 are means over the same orders; the bounds of C88 and C89 for these orders and Hoeffding's inequality are added up; a concrete case for `L = 100` |
| C108 | CPython's way of making `random.shuffle` and `random.randint` numbers from 32-bit words (`_randbelow_with_getrandbits`, `Model/Words`) under the generator-driven drivers of all classes (C72); the words are independent and uniform | spec: computations that ask for numbers and their averages (`Spec/Chance`), the product measure of the uniform measure on words; rejection sampling summed up over the number of rejected words (`Ask.law`: outer bounds from finitely many words, then the limit); the questions of shuffles are a fixed list, those of `select_site` depend on the state, so the loop of `run_once` is rewritten as an asking computation and its average computed by induction on the budget; with C107 this gives bounds for the files |
| C109 | `float.__repr__` as `json.dumps` uses it (`Dbl.repr`: fewest digits, then closest; `pointText`: placing the point or exponent), `float(text)` (`Dbl.ofText`), the comparison `abs(pc - pc_tmp) < 1e-6` (`Dbl.near`); spec `Spec/Float`: a reader of decimal numbers | a number within the 2^-54th part of a double is rounded to it, so 17 digits are enough; monotonicity of rounding for minimality; then C90 and C106 for the files |
| C110 | CPython's generator behind `random.seed(k)`: `init_by_array`, `genrand_uint32` of the Mersenne Twister MT19937 (`Model/Twister`), as the generator `pyRng` of the seeded drivers | spec `Spec/Twister`: the recurrence, the tempering and the spreading of a key as equations between sequences, no arrays; the array loops are shown to compute them; the second loop of the seeding and the renewal can be undone step by step, so what the key adds can be read off the state |
| C111 | the states of `Model/Twister` under the constructor and the ensemble drivers, with numbers made from words as in C108 | the step of the recurrence is a bijection of the 19937 bits that matter; counting blocks gives the exact law of any 623 consecutive words; with the bound on the number of rejected words from C108 the laws of small runs; pigeonhole for large lattices |
| C112 | the functions of the project that fix a seed (`run_shortest_path`, `run_simulations`, the demonstration functions of the three modules), on the Mersenne Twister of `Model/Twister` | the words after `random.seed(key)` are computed by the kernel with a number that holds the last 625 words of the recurrence (`Proof/TwisterEval`, shown equal to the words of the model); first wrapping site and cluster sizes are checked by a search whose result is shown to be right (`Proof/Evaluate`); the components after each site are kept as numbers whose binary digits are the bonds (`Proof/EvalComps`, shown to list the components of the specification), and the frequencies of the sizes are read from one sum of powers (`Props/SeedsTable`); the theorems of C75, C78, C21, C88 turn these numbers into what is printed and written. In exact arithmetic for the files, in any arithmetic for what is printed |
| C113 | runs, ensembles and demonstration functions of L1 and L2 with a generator (`Model/Rng`, `Model/DemosSeeded`) | the growth process of `Spec/Growth` is written as a program that asks for its numbers (`Growth.draw`, `growthOrders`, `growthNew`), without the object; induction over the calls with `Follows`: the object asks for the same numbers in the same order, places the same sites and leaves the generator in the same state. Any generator; the tables in exact arithmetic, what is printed in any arithmetic. `Props/SeedsGrowth` evaluates it on the Mersenne Twister: `test_L1` and small ensembles with seed 0 |
| C114 | the files of data_pytest for the lengths 5 and 10 (`Model/DataFiles`: transcribed digit by digit) and `test_data_json.py` | `TrueData`: what a file should contain, in terms of the graph. `C114_file5`, `C114_file10` evaluate the recorded orders in the kernel (components as bit masks, `Proof/EvalComps`; logarithms of 1..200 from the series of the area tangent with proved error bounds, `Proof/LogTable`). `C114_replay` holds for any file with `TrueData` and `L ≤ 100`, any set order and any good logarithm, with the rounding bounds of C65/C106. The files for 25, 50 and 100 are too long for the kernel and are compared in `Conformance` only |

No property is left partial.  Properties that the code does *not* have are stated as what it does instead, see next section.

## 6. Where the code differs from what one would expect

* `detect_wrapping` never succeeds for L ≤ 2 (C18); `test_lattice` then raises at the end of a run (C26).
* Detection looks only at the last placed site; a missed call can hide wrapping for good (C22).
* `selected_id` survives `reset` (C28_stale_selection); L1/L2's reset leaves `reverse_ids_indices` stale (C32_stale_reverse_L1).
* If sites were placed before the first run, the next run makes `get_data_array` raise (C29_late_first_run).
* Custom index lists accept some out-of-range pairs (C31).
* L2: when the step X→Y crosses the boundary, the third site Z is X itself (C37_boundary_fails).
* Shortest path: a complete row of another cluster that gets merged by a site outside the row is missed (C40_not_first, C40_not_first_all, C40_default_late); C40 gives the exact stopping rule and shows that this needs L ≥ 5.
* More workers than realisations: each worker raises TypeError and nothing is written (C42_idle_threads).
* `write_entropy_order` describes P1/P2 the wrong way round (C43).
* `get_four_neighbor_sites` fails on parts of the boundary (C46).
* `test_run_once`'s assertion fails exactly if all occupied sites are connected when wrapping first occurs (C48).
* `merge_clusters` (v1, unused) counts merged bonds twice (C50).
* `single_realization` of L1/L2 records left-over candidate pools as the placement order (C59).
* `test_rwo_col_scan` can fail after wrapping (C60; its call is commented out).
* The order of an L0 realisation depends on the order left by the previous one, not only on the generator's state (C61).
* File names contain neither ensemble size nor seed (C62).

## 7. Wrong programs

`seeded/LOG.jsonl` has one line per edit of a model definition, made in a scratch copy.  `build: fails` means the proofs no longer
go through; `theorems_failed` are the first declarations to fail and `claims_depending_on_failed` the claims whose proofs use them.
As a failing helper lemma does not show that a *claim* is false of the edited program, the claims' statements were also evaluated on
sampled runs of the edited model; `statements_false_on_samples` lists the ones that came out false.  `tightened` names theorems added or
strengthened because an edit survived.

## 8. Trusted base

* Lean's kernel.  Axioms used by the theorems: at most `propext`, `Classical.choice`, `Quot.sound` (checked with `#print axioms`);
  no `sorry`, no own axioms, no `native_decide`/`bv_decide`.  Finite witnesses are evaluated with `decide +kernel`.
* The reading of the Python code recorded in the comments of `lean/Verif/Model`, including the simplifications of section 2, and the
  behaviour of CPython and numpy described there (list indexing, integer division, `random.seed`, `random.shuffle`, `sorted`/`set`, `np.mean`, …).
* The definitions in `lean/Verif/Spec` say what the claims mean.
