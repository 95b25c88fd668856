import Verif.Model.Lattice
/-
source_py/simulation/cluster.py
-/
namespace SqPerc

/-- cluster.py:2-12 `OneCluster`. -/
structure OneCluster where
  siteIds : List Nat
  bondIds : List Nat
  gid : Int
  id : Int
  deriving DecidableEq, Repr

namespace OneCluster

/-- cluster.py:3-12 `OneCluster()`. -/
def empty : OneCluster := ⟨[], [], -1, -1⟩

/-- cluster.py:77-82 `clear`. -/
def clear (_c : OneCluster) : OneCluster := ⟨[], [], -1, -1⟩

/-- cluster.py:19-22 `is_empty`. -/
def isEmpty (c : OneCluster) : Bool := c.siteIds.length = 0 && c.bondIds.length = 0

/-- cluster.py:84-91 `view`: the return value (printing is not modelled). -/
def view (c : OneCluster) : Nat := if c.isEmpty then 0 else 1

end OneCluster

/-- cluster.py:94-101 `ClusterPool`. -/
structure ClusterPool where
  clusters : List OneCluster
  nextId : Int
  deriving DecidableEq, Repr

namespace ClusterPool

/-- cluster.py:98-106 `__init__` and `reset`. -/
def empty : ClusterPool := ⟨[], 0⟩

/-- cluster.py:108-109 `get_cluster_bond_count`. -/
def bondCount (p : ClusterPool) (id : Int) : Py Nat := do
  let c ← pyGetI p.clusters id
  return c.bondIds.length

/-- cluster.py:111-112 `get_cluster_site_count`. -/
def siteCount (p : ClusterPool) (id : Int) : Py Nat := do
  let c ← pyGetI p.clusters id
  return c.siteIds.length

/-- cluster.py:143-144 `get_sites`. -/
def getSites (p : ClusterPool) (id : Int) : Py (List Nat) := do
  let c ← pyGetI p.clusters id
  return c.siteIds

/-- cluster.py:146-147 `get_bonds`. -/
def getBonds (p : ClusterPool) (id : Int) : Py (List Nat) := do
  let c ← pyGetI p.clusters id
  return c.bondIds

/-- cluster.py:135-137 `add_sites(index, site_id)` with an int (cluster.py:48-55). -/
def addSite (p : ClusterPool) (id : Int) (s : Nat) : Py ClusterPool := do
  let cs ← pyModifyI p.clusters id fun c => { c with siteIds := c.siteIds ++ [s] }
  return { p with clusters := cs }

/-- cluster.py:155-157 `clear_cluster`. -/
def clearCluster (p : ClusterPool) (id : Int) : Py ClusterPool := do
  let cs ← pyModifyI p.clusters id OneCluster.clear
  return { p with clusters := cs }

/-- The loop `for ss in site_ids: lattice_ref.set_site_gid_by_id(ss, gid)` (cluster.py:123-125 and 173-178). -/
def assignSites (gid : Int) (ids : List Nat) (lat : Lattice) : Py Lattice :=
  ids.foldlM (fun lat ss => lat.setSiteGid ss gid) lat

/-- The loop `for bb in bond_ids: lattice_ref.set_bond_gid_by_id(bb, gid)` (cluster.py:126-128 and 170-172). -/
def assignBonds (gid : Int) (ids : List Nat) (lat : Lattice) : Py Lattice :=
  ids.foldlM (fun lat bb => lat.setBondGid bb gid) lat

/-- cluster.py:114-133 `create_new_cluster`. -/
def createNewCluster (p : ClusterPool) (sids bids : List Nat) (lat : Lattice) : Py (ClusterPool × Lattice) := do
  let c : OneCluster := ⟨[] ++ sids, [] ++ bids, p.nextId, p.nextId⟩
  let lat ← assignSites p.nextId sids lat
  let lat ← assignBonds p.nextId bids lat
  return (⟨p.clusters ++ [c], p.nextId + 1⟩, lat)

/-- cluster.py:159-187 `merge_cluster_with(A, B, lattice_ref)`: relabels the members of `B` with the gid of `A` and appends them to `A`;
`B` itself is not cleared. -/
def mergeClusterWith (p : ClusterPool) (a b : Int) (lat : Lattice) : Py (ClusterPool × Lattice) := do
  let ca ← pyGetI p.clusters a
  let cb ← pyGetI p.clusters b
  let lat ← assignBonds ca.gid cb.bondIds lat
  let lat ← assignSites ca.gid cb.siteIds lat
  let cs ← pyModifyI p.clusters a fun c =>
    { c with bondIds := c.bondIds ++ cb.bondIds, siteIds := c.siteIds ++ cb.siteIds }
  return ({ p with clusters := cs }, lat)

/-- cluster.py:189-205 `view`: the reported "Number of clusters". -/
def view (p : ClusterPool) : Nat := p.clusters.foldl (fun counter c => counter + c.view) 0

end ClusterPool
end SqPerc
