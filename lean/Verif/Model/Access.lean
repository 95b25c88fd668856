import Verif.Model.Output
/-
The remaining accessors: site.py, cluster.py, lattice.py and percolation_sq_lattice.py, and the class `BondPercolation`.
-/
namespace SqPerc

/-- The argument of `Bond.add_connected_site` and `Site.add_connecting_bond`: an id or a list of ids. -/
inductive IdArg
  | one (id : Nat)
  | many (ids : List Nat)
  deriving DecidableEq, Repr

/-- bond.py:58-70 `Bond.add_connected_site(site_id)`: the printed text and the bond. -/
def Bond.addConnected (b : Bond) : IdArg → Text × Bond
  | .one s => (if 2 ≤ b.sites.length then println "A bond connects only two sites".toList else [], b.addConnectedSite s)
  | .many ss =>
    if 2 ≤ b.sites.length then (println "A bond connects only two sites".toList, b)
    else if ss.length = 2 then ([], { b with sites := b.sites ++ ss })
    else ([], b)

/-- site.py:90-103 `Site.add_connecting_bond(bond_id)`: the printed text and the site. -/
def Site.addConnecting (s : Site) : IdArg → Text × Site
  | .one b =>
    if 4 ≤ s.bonds.length then (println "A site connects only four bonds".toList, s)
    else ([], { s with bonds := s.bonds ++ [b] })
  | .many bs => (if 4 ≤ s.bonds.length then println "A site connects only four bonds".toList else [], s.addConnectingBonds bs)

/-- site.py:119-120 `Site.is_root`. -/
def Site.isRoot (s : Site) : Bool := s.rel.c1 = 0 && s.rel.c2 = 0

/-- site.py:42-43 `Site.get_nn_count`. -/
def Site.getNnCount (s : Site) : Int × Int := (s.nn1, s.nn2)

/-- cluster.py:14-17 `OneCluster.__str__`. -/
def OneCluster.str (c : OneCluster) : Text :=
  "[".toList ++ intText c.id ++ "] (gid ".toList ++ intText c.gid ++ "): ".toList ++ intText c.siteIds.length ++ " sites and ".toList ++
    intText c.bondIds.length ++ " bonds".toList

/-- cluster.py:149-153 `ClusterPool.get_cluster(cluster_id)`: the printed text and the returned cluster, `none` for None.  Only ids from
the number of clusters on are rejected; a negative id is an index from the end. -/
def ClusterPool.getCluster (p : ClusterPool) (id : Int) : Py (Text × Option OneCluster) :=
  if id ≥ p.clusters.length then .ok (println "Cluster does not exists".toList, none)
  else do
    let c ← pyGetI p.clusters id
    return ([], some c)

/-- cluster.py:139-141 `ClusterPool.add_bonds(index, bond_ids)` with a list, cluster.py:60-66 `OneCluster.add_bonds`. -/
def ClusterPool.addBonds (p : ClusterPool) (id : Int) (bs : List Nat) : Py ClusterPool := do
  let cs ← pyModifyI p.clusters id fun c => { c with bondIds := c.bondIds ++ bs }
  return { p with clusters := cs }

/-- lattice.py:269-275 `Lattice.get_site_gid_by_index(index)`. -/
def Lattice.getSiteGidByIndex (lat : Lattice) (i : Idx) : Py Int := do
  let s ← pyGetI lat.sites (i.c1 * lat.length + i.c2)
  return s.gid

/-- lattice.py:293-294 `get_site_id_list`; lattice.py:11 `site_ids = range(0, site_count)`. -/
def Lattice.siteIdList (lat : Lattice) : List Nat := List.range lat.siteCount

/-- lattice.py:296-298 `get_bond_id_list`; lattice.py:12 `bond_ids = range(0, bond_count)`. -/
def Lattice.bondIdList (lat : Lattice) : List Nat := List.range lat.bondCount

/-- lattice.py:610-619 `mTest_neighbors` for a lattice of length `L` (5 in the code): the printed text. -/
def mTestNeighbors (L : Nat) : Py Text := do
  let lat ← Lattice.new L
  let t0 ← lat.view 0
  let t1 ← lat.view 1
  let t2 ← lat.view 2
  return t0 ++ t1 ++ t2 ++ lat.listAllSites ++ lat.listAllBonds

variable {α : Type}

/-- percolation_sq_lattice.py:65-66: one line printed by `get_site_gids`. -/
def siteGidLine (ss : Nat) (gid : Int) : Text :=
  println ("site  ".toList ++ intText ss ++ "  gid =>  ".toList ++ intText gid)

/-- percolation_sq_lattice.py:62-69 `get_site_gids(site_ids)`: the printed text and the returned list. -/
def Perc.getSiteGids (env : Env α) (S : Perc α) (ids : List Nat) : Py (Text × List Int) := do
  let gids ← ids.mapM S.lat.getSiteGid
  return ((ids.zip gids).flatMap fun p => siteGidLine p.1 p.2, env.set.iter gids)

/-- percolation_sq_lattice.py:112-118 `get_change_in_relative_index(old, new)`. -/
def getChangeInRelativeIndex (old new : Idx) : Idx := new.sub old

/-- percolation_sq_lattice.py:897-900 `BondPercolation(length=L)`: the lattice and the cluster pool made by
percolation_sq_lattice.py:14-28 `Percolation.__init__`.  `init_clusters` is not called. -/
def bondPercolation (L : Nat) : Py (Lattice × ClusterPool) := do
  let lat ← Lattice.new L
  return (lat, .empty)

end SqPerc
