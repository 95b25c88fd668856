import Verif.Model.History
/-
The member lists of the clusters as list objects.

The rest of the model stores the values of `site_ids` and `bond_ids` in the clusters.  In the code these attributes refer to list objects.
`ClusterPool.get_sites(g)` and `ClusterPool.get_bonds(g)` (cluster.py:143-147, 57-58, 68-69) return the attributes themselves and not copies, so
a caller who keeps such a list sees whatever later happens to it.  `add_sites` and `merge_cluster_with` change the lists in place
(`append`, `+=`: cluster.py:48-55, 181, 184), `clear` makes new ones (cluster.py:77-82), and `init_clusters` makes new clusters
(percolation_sq_lattice.py:192-197, cluster.py:103-106, 114-133).  Here the references are explicit.

Simplified: the caller does not itself change a list.
-/
namespace SqPerc

/-- The two kinds of member lists. -/
inductive Kind
  | sites
  | bonds
  deriving DecidableEq, Repr

/-- The list objects with ids as entries, and for every position of `cluster_list` the list objects to which `site_ids` and `bond_ids`
refer. -/
structure Cells where
  heap : List (List Nat)
  refs : List (Nat × Nat)
  deriving DecidableEq, Repr

namespace Cells

/-- The value of the list object `r`. -/
def listAt (c : Cells) (r : Nat) : List Nat := (c.heap[r]?).getD []

/-- The position in `cluster_list` meant by the int `g` (a negative one counts from the end).  The functions below are used only after the
same access to `cluster_list` has succeeded. -/
def pos (c : Cells) (g : Int) : Nat := if 0 ≤ g then g.toNat else ((c.refs.length : Int) + g).toNat

/-- The list objects of the cluster at position `i`. -/
def refsAt (c : Cells) (i : Nat) : Nat × Nat := (c.refs[i]?).getD (0, 0)

/-- `get_sites(g)` / `get_bonds(g)` (cluster.py:143-147): the list object. -/
def get (c : Cells) (kind : Kind) (g : Nat) : Nat :=
  match kind with
  | .sites => (c.refsAt g).1
  | .bonds => (c.refsAt g).2

/-- `l += xs` or `l.append(x)` where `l` is the list object `r`. -/
def extend (c : Cells) (r : Nat) (xs : List Nat) : Cells := { c with heap := c.heap.set r (c.listAt r ++ xs) }

/-- cluster.py:48-55, 135-137 `add_sites(g, s)`. -/
def addSite (c : Cells) (g : Int) (s : Nat) : Cells := c.extend (c.refsAt (c.pos g)).1 [s]

/-- cluster.py:181 and 184, in `merge_cluster_with(a, b, lattice_ref)`. -/
def merge (c : Cells) (a b : Int) : Cells :=
  let ra := c.refsAt (c.pos a)
  let rb := c.refsAt (c.pos b)
  let c := c.extend ra.2 (c.listAt rb.2)
  c.extend ra.1 (c.listAt rb.1)

/-- cluster.py:77-82, 155-157 `clear_cluster(g)`: two new lists. -/
def clear (c : Cells) (g : Int) : Cells :=
  { heap := c.heap ++ [[], []], refs := c.refs.set (c.pos g) (c.heap.length, c.heap.length + 1) }

/-- cluster.py:114-133 `create_new_cluster(sids, bids, lattice_ref)`: the new `OneCluster` has its own lists (cluster.py:9-10), to which the
entries of the arguments are added. -/
def create (c : Cells) (sids bids : List Nat) : Cells :=
  { heap := c.heap ++ [sids, bids], refs := c.refs ++ [(c.heap.length, c.heap.length + 1)] }

/-- percolation_sq_lattice.py:192-197 `init_clusters`, for a lattice with `n` bonds. -/
def init (c : Cells) (n : Nat) : Cells := (List.range n).foldl (fun c bb => c.create [] [bb]) { c with refs := [] }

end Cells

namespace Perc
variable {α : Type}

/-- percolation_sq_lattice.py:545-569, see `assignLoop`. -/
def assignLoopC (k : Nat) (root : Int) : List Nat → Perc α × Cells → Py (Perc α × Cells)
  | [], w => .ok w
  | bb :: bs, (S, c) => do
    let g ← S.lat.getBondGid bb
    if g = root then
      let lat ← S.lat.setSiteGid k root
      let pool ← S.pool.addSite root k
      let c := c.addSite root k
      let S := { S with lat := lat, pool := pool }
      let n ← S.getNeighborSite k bb
      let ng ← S.lat.getSiteGid n
      if ng ≥ 0 then
        let r ← getRelativeIndex S.lat n k
        let lat ← S.lat.setRelativeIndex k r
        assignLoopC k root bs ({ S with lat := lat }, c)
      else assignLoopC k root bs (S, c)
    else assignLoopC k root bs (S, c)

/-- percolation_sq_lattice.py:572-581, see `mergeLoop`. -/
def mergeLoopC (k : Nat) (root : Int) : List Nat → Perc α × Cells → Py (Perc α × Cells)
  | [], w => .ok w
  | bb :: bs, (S, c) => do
    let g ← S.lat.getBondGid bb
    if g = root then mergeLoopC k root bs (S, c)
    else
      let S ← S.relabelRelativeIndices k bb
      let (pool, lat) ← S.pool.mergeClusterWith root g S.lat
      mergeLoopC k root bs ({ S with pool := pool, lat := lat }, c.merge root g)

/-- percolation_sq_lattice.py:583-587, see `clearLoop`. -/
def clearLoopC (root : Int) : List Int → ClusterPool × Cells → Py (ClusterPool × Cells)
  | [], w => .ok w
  | g :: gs, (pool, c) =>
    if g = root then clearLoopC root gs (pool, c)
    else do
      let pool ← pool.clearCluster g
      clearLoopC root gs (pool, c.clear g)

/-- percolation_sq_lattice.py:519-590, see `mergeClustersV2`. -/
def mergeClustersV2C (env : Env α) (S : Perc α) (c : Cells) (k : Nat) (bonds : List Nat) : Py (Perc α × Cells × Int) := do
  let ub ← uniqueBondLoop S.lat bonds []
  let gids ← getBondGids env S ub
  let root0 ← pyGet gids 0
  let root ← chooseRoot S.pool (S.afterWrapping && decide (S.wrappingId ∈ gids)) S.wrappingId gids root0 0
  let (S, c) ← assignLoopC k root ub (S, c)
  let (S, c) ← mergeLoopC k root ub (S, c)
  let (pool, c) ← clearLoopC root gids (S.pool, c)
  return ({ S with pool := pool }, c, root)

/-- percolation_sq_lattice.py:372-381, see `placeSelected`. -/
def placeSelectedC (env : Env α) (S : Perc α) (c : Cells) (k : Nat) : Py (Perc α × Cells) := do
  let lat ← S.lat.initRelativeIndex k
  let S := { S with lat := lat }
  let bonds ← S.lat.getNeighborBonds k
  let S ← S.entropySubtract env k
  let (S, c, g) ← S.mergeClustersV2C env c k bonds
  let S ← S.trackLargest g
  let S ← S.entropyAdd env g
  return (S, c)

/-- percolation_sq_lattice.py:366-393, see `placeOneSite`. -/
def placeOneSiteC (env : Env α) (v : Variant) (S : Perc α) (c : Cells) (d : Draw) : Py (Perc α × Cells × Bool) := do
  let (S, flag) ← S.selectSite v d
  let S := { S with selectionFlag := some flag }
  match flag with
  | .success =>
    match S.selected with
    | none => .error .typeError
    | some k => do
      let (S, c) ← S.placeSelectedC env c k
      return (S, c, true)
  | .currentSiteNotEmpty => return (S, c, true)
  | .emptySiteList => return (S, c, false)

end Perc

/-- The statements of the code that leave the clusters alone. -/
inductive Quiet {α : Type} (env : Env α) (v : Variant) : Perc α → Perc α → Prop
  | detect {S S' : Perc α} {w : Bool} : S.detectWrapping = .ok (S', w) → Quiet env v S S'
  | shuffle {S S' : Perc α} {draws : Nat → Nat} : S.shuffle draws = .ok S' → Quiet env v S S'
  | setIds {S S' : Perc α} {ids : List Int} {b : Bool} {draws : Nat → Nat} : S.setCustomIds ids b draws = .ok S' → Quiet env v S S'
  | setIndices {S S' : Perc α} {idxs : List (List Int)} {b : Bool} {draws : Nat → Nat} : S.setCustomIndices idxs b draws = .ok S' → Quiet env v S S'
  | swapIds {S S' : Perc α} {i j : Nat} : S.swapIds i j = .ok S' → Quiet env v S S'
  /-- a placement that raises, percolation_sq_lattice.py:354-360, percolation_sq_lattice_L1L2.py:86-123, 197-241: before any change to a cluster -/
  | raised {S : Perc α} {d : Draw} {e : PyErr} : S.placeOneSite env v d = .error e → Quiet env v S (S.placeRaised v)
  | swapRaised {S : Perc α} {i j : Nat} {e : PyErr} : S.swapIds i j = .error e → Quiet env v S (S.swapRaised i j)
  /-- the bookkeeping of `run_once`, `test_run_once` -/
  | data {S : Perc α} (fr : Bool) (l1 l2 l3 l4 : List α) (p : α) : Quiet env v S
      { S with firstRun := fr, occProbList := l1, entropyList := l2, orderWrapList := l3, orderLargestList := l4, shortestP := p }
  /-- assignments of others to the list of site ids -/
  | write {S : Perc α} (l : List Nat) : Quiet env v S { S with siteIds := l }

/-- One step of an object with its member lists, other than a reset.  Every call is a sequence of such steps and of resets
(`C103_calls`). -/
inductive CStep {α : Type} (env : Env α) (v : Variant) : Perc α × Cells → Perc α × Cells → Prop
  | place {S S' : Perc α} {c c' : Cells} {d : Draw} {b : Bool} : S.placeOneSiteC env v c d = .ok (S', c', b) → CStep env v (S, c) (S', c')
  | quiet {S S' : Perc α} {c : Cells} : Quiet env v S S' → CStep env v (S, c) (S', c)

/-- The same, resets included (percolation_sq_lattice.py:249). -/
inductive CMove {α : Type} (env : Env α) (v : Variant) : Perc α × Cells → Perc α × Cells → Prop
  | step {w w' : Perc α × Cells} : CStep env v w w' → CMove env v w w'
  | reset {S S' : Perc α} {c : Cells} {draws : Nat → Nat} : S.reset env v draws = .ok S' → CMove env v (S, c) (S', c.init S.lat.bondCount)

/-- The states of an object with its member lists, inside the calls too.  The constructor runs `init_clusters` with an empty pool
(percolation_sq_lattice.py:125). -/
inductive CReach {α : Type} (env : Env α) (v : Variant) (L : Nat) : Perc α × Cells → Prop
  | new {draws : Nat → Nat} {S : Perc α} : Perc.new env L draws = .ok S → CReach env v L (S, Cells.init ⟨[], []⟩ S.lat.bondCount)
  | move {w w' : Perc α × Cells} : CReach env v L w → CMove env v w w' → CReach env v L w'

end SqPerc
