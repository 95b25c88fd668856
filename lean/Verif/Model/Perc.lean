import Verif.Model.Cluster
/-
source_py/simulation/percolation_sq_lattice.py (classes Percolation and SitePercolation),
percolation_sq_lattice_L0.py, percolation_sq_lattice_L1L2.py, percolation_sq_lattice_shortest_path.py
-/
namespace SqPerc

/-- The concrete classes: `l0` is `SitePercolation` / `SitePercolationL0` (percolation_sq_lattice_L0.py:9-30 overrides nothing that matters),
`l1`, `l2` are `SitePercolationL1/L2` (percolation_sq_lattice_L1L2.py), `sp` is `ShortestPathAfter_pc`
(percolation_sq_lattice_shortest_path.py). -/
inductive Variant
  | l0 | l1 | l2 | sp
  deriving DecidableEq, Repr

/-- The attributes of a percolation object: percolation_sq_lattice.py:24-27 (`Percolation`), 124-151 (`SitePercolation`),
percolation_sq_lattice_L1L2.py:18-21, 148-149 and percolation_sq_lattice_shortest_path.py:17 (subclasses).
`current_site` is always the site object with id `selected_id`, so it is not stored separately.  `α` is the number type of the
reported quantities. -/
structure Perc (α : Type) where
  lat : Lattice
  pool : ClusterPool
  pcBonds : Option Nat
  pcSites : Option Nat
  siteIds : List Nat
  revIds : List Nat
  currentIdx : Nat
  occupiedCount : Nat
  pcOccupied : Nat
  selected : Option Nat
  clusterCount : Nat
  largestSz : Nat
  largestId : Int
  maxEntropy : α
  entropyValue : α
  afterWrapping : Bool
  wrappingId : Int
  firstRun : Bool
  occProbList : List α
  entropyList : List α
  orderWrapList : List α
  orderLargestList : List α
  maxIter : Nat
  modeCustom : Bool
  doShuffle : Bool
  selectionFlag : Option SelectionState
  xOccupied : Nat
  yOccupied : Nat
  seqRecord : List Nat
  shortestP : α

/-- The random numbers used by one `select_site` call of L1/L2 (percolation_sq_lattice_L1L2.py:88, 98, 199, 204). -/
structure Draw where
  a : Nat
  b : Nat

/-- percolation_sq_lattice.py:71-87 `wrapping_correction_relative_index`: `-xx // abs(xx)` is `(-xx) // abs(xx)`. -/
def wrappingCorrection (d : Idx) : Idx :=
  let xx := if d.c1.natAbs > 1 then Int.fdiv (-d.c1) d.c1.natAbs else d.c1
  let yy := if d.c2.natAbs > 1 then Int.fdiv (-d.c2) d.c2.natAbs else d.c2
  ⟨xx, yy⟩

/-- percolation_sq_lattice.py:89-110 `get_relative_index(central, neighbor)`. -/
def getRelativeIndex (lat : Lattice) (central neighbor : Nat) : Py Idx := do
  let c ← lat.getSite central
  let n ← lat.getSite neighbor
  let idx := wrappingCorrection (n.index.sub c.index)
  return c.rel.add idx

/-- percolation_sq_lattice.py:192-197, the loop of `init_clusters`. -/
def initClustersLoop : List Nat → ClusterPool × Lattice → Py (ClusterPool × Lattice)
  | [], pl => .ok pl
  | bb :: bs, pl => do
    let pl ← pl.1.createNewCluster [] [bb] pl.2
    initClustersLoop bs pl

/-- percolation_sq_lattice.py:192-197 `init_clusters`. -/
def initClusters (lat : Lattice) : Py (ClusterPool × Lattice) :=
  initClustersLoop (List.range lat.bondCount) (ClusterPool.empty, lat)

/-- percolation_sq_lattice.py:213-216: `reverse_ids_indices[site_ids_indices[i]] = i`, for `i` from `i` on. -/
def fillReverse : List Nat → Nat → List Nat → Py (List Nat)
  | [], _, rev => .ok rev
  | a :: as, i, rev => do
    let rev ← pyModify rev a fun _ => i
    fillReverse as (i + 1) rev

namespace Perc
variable {α : Type}

/-- percolation_sq_lattice.py:204-221 `shuffle`. -/
def shuffle (S : Perc α) (draws : Nat → Nat) : Py (Perc α) :=
  if S.modeCustom && !S.doShuffle then .ok S
  else if S.doShuffle then do
    let ids := pyShuffle draws S.siteIds
    let rev ← fillReverse ids 0 S.revIds
    return { S with siteIds := ids, revIds := rev }
  else .ok S

/-- percolation_sq_lattice.py:15-28 and 122-154: construction `cls(length=L)`.  `math.log(bond_count)` (line 140) raises ValueError when
`bond_count` is 0.  The subclass attributes are initialised as in percolation_sq_lattice_L1L2.py:18-21, 148-149 and
percolation_sq_lattice_shortest_path.py:17.  `draws` are the random numbers of the shuffle in line 153. -/
def new (env : Env α) (L : Nat) (draws : Nat → Nat) : Py (Perc α) := do
  let lat ← Lattice.new L
  let (pool, lat) ← initClusters lat
  if lat.bondCount = 0 then .error .valueError
  else
    let me := env.ar.log (env.ar.ofNat lat.bondCount)
    shuffle
      { lat := lat, pool := pool, pcBonds := none, pcSites := none
        siteIds := List.range (lat.length ^ 2), revIds := List.replicate (lat.length ^ 2) 0
        currentIdx := 0, occupiedCount := 0, pcOccupied := 0, selected := none
        clusterCount := lat.bondCount, largestSz := 0, largestId := -1
        maxEntropy := me, entropyValue := me, afterWrapping := false, wrappingId := -1
        firstRun := true, occProbList := [], entropyList := [], orderWrapList := [], orderLargestList := []
        maxIter := lat.siteCount, modeCustom := false, doShuffle := true, selectionFlag := none
        xOccupied := 0, yOccupied := 0, seqRecord := [], shortestP := env.ar.ofNat 0 } draws

/-- `max(l)` of a non-empty list (percolation_sq_lattice.py:162, 179). -/
def pyMax : List Int → Int
  | [] => 0
  | a :: l => l.foldl max a

/-- `min(l)` of a non-empty list (percolation_sq_lattice.py:162, 179). -/
def pyMin : List Int → Int
  | [] => 0
  | a :: l => l.foldl min a

/-- percolation_sq_lattice.py:160-162 and 177-179: `max(l) > length**2 - 1 or min(l) < 0`. -/
def badIds (L : Nat) (ids : List Int) : Bool := decide (pyMax ids > (L : Int) ^ 2 - 1) || decide (pyMin ids < 0)

/-- percolation_sq_lattice.py:156-170 `set_custome_site_id_list`; `max([])` raises ValueError.  The ids are stored as `Nat` once
they are known to be in range.  (The code stores the caller's list itself; what follows from that is the subject of Model/World.lean.) -/
def setCustomIds (S : Perc α) (ids : List Int) (doShuffle : Bool) (draws : Nat → Nat) : Py (Perc α) :=
  if ids.isEmpty then .error .valueError
  else if badIds S.lat.length ids then .ok S
  else
    shuffle { S with siteIds := ids.map Int.toNat, modeCustom := true, doShuffle := doShuffle,
                     maxIter := ids.length } draws

/-- percolation_sq_lattice.py:172-187 `set_custome_site_index_list`; the entries are tuples/lists of ints. -/
def setCustomIndices (S : Perc α) (idxs : List (List Int)) (doShuffle : Bool) (draws : Nat → Nat) : Py (Perc α) :=
  let ids := idxs.map S.lat.calculateIdFromIndex
  if ids.isEmpty then .error .valueError
  else if badIds S.lat.length ids then .ok S
  else
    shuffle { S with siteIds := ids.map Int.toNat, modeCustom := true, doShuffle := doShuffle,
                     maxIter := (ids.map Int.toNat).length } draws

/-- percolation_sq_lattice.py:234-242 `swap_ids`. -/
def swapIds (S : Perc α) (id1 id2 : Nat) : Py (Perc α) :=
  if id1 = id2 then .ok S
  else do
    let ix1 ← pyGet S.revIds id1
    let ix2 ← pyGet S.revIds id2
    let ids ← pyModify S.siteIds ix1 fun _ => id2
    let ids ← pyModify ids ix2 fun _ => id1
    let rev ← pyModify S.revIds id2 fun _ => ix1
    let rev ← pyModify rev id1 fun _ => ix2
    return { S with siteIds := ids, revIds := rev }

/-- percolation_sq_lattice.py:226-232 `get_index_sequence` (l1 overrides it: percolation_sq_lattice_L1L2.py:32-38). -/
def getIndexSequence (v : Variant) (S : Perc α) : Py (List (List Int)) :=
  let ids := match v with
    | .l1 => S.seqRecord
    | _ => S.siteIds
  ids.mapM fun id => do
    let st ← S.lat.getSite id
    return [st.index.c1, st.index.c2]

/-- percolation_sq_lattice.py:30-35 and 244-271 `SitePercolation.reset`. -/
def resetBase (S : Perc α) (draws : Nat → Nat) : Py (Perc α) := do
  let lat := S.lat.reset
  let (pool, lat) ← initClusters lat
  let S ← shuffle { S with lat := lat, pool := pool, pcBonds := none, pcSites := none } draws
  return { S with
    currentIdx := 0, pcOccupied := 0, afterWrapping := false, wrappingId := -1
    largestSz := 0, largestId := -1, entropyValue := S.maxEntropy, occupiedCount := 0
    selectionFlag := none
    occProbList := if S.firstRun then [] else S.occProbList
    entropyList := [], orderWrapList := [], orderLargestList := [] }

/-- `reset` of the concrete class: percolation_sq_lattice_L0.py:26-30, percolation_sq_lattice_L1L2.py:26-30 and 154-158,
percolation_sq_lattice_shortest_path.py:20-22. -/
def reset (env : Env α) (v : Variant) (S : Perc α) (draws : Nat → Nat) : Py (Perc α) := do
  let S ← resetBase S draws
  match v with
  | .l0 => return S
  | .l1 => return { S with siteIds := List.range (S.lat.length ^ 2), xOccupied := 0, seqRecord := [] }
  | .l2 => return { S with siteIds := List.range (S.lat.length ^ 2), xOccupied := 0, yOccupied := 0 }
  | .sp => return { S with shortestP := env.ar.ofNat 0 }

/-- percolation_sq_lattice.py:315-327 `get_neighbor_site`. -/
def getNeighborSite (S : Perc α) (central bond : Nat) : Py Nat := S.lat.otherEnd central bond

/-- percolation_sq_lattice.py:330-346 `get_connected_sites`. -/
def getConnectedSites (S : Perc α) (site : Nat) (bonds : List Nat) : Py (List Nat) :=
  bonds.mapM (S.lat.otherEnd site)

/-- percolation_sq_lattice.py:349-364 `SitePercolation.select_site`. -/
def selectL0 (S : Perc α) : Py (Perc α × SelectionState) :=
  if S.currentIdx ≥ S.maxIter then .ok (S, .emptySiteList)
  else do
    let k ← pyGet S.siteIds S.currentIdx
    let site ← S.lat.getSite k
    pyAssert (decide (site.gid = -1))
    return ({ S with selected := some k, currentIdx := S.currentIdx + 1,
                     occupiedCount := S.occupiedCount + 1 }, .success)

/-- The end of `select_site` of L1 and L2 (percolation_sq_lattice_L1L2.py:120-127 and 239-244): site `k` is selected. -/
def finishSelect (S : Perc α) (k : Nat) : Py (Perc α × SelectionState) := do
  let site ← S.lat.getSite k
  pyAssert (decide (site.gid = -1))
  return ({ S with selected := some k, occupiedCount := S.occupiedCount + 1 }, .success)

/-- `site_ids_indices[rnd] = site_ids_indices[current_idx]; current_idx += 1` (percolation_sq_lattice_L1L2.py:106-109, 229-231). -/
def dropCandidate (S : Perc α) (rnd : Nat) : Py (Perc α) := do
  let c ← pyGet S.siteIds S.currentIdx
  let ids ← pyModify S.siteIds rnd fun _ => c
  return { S with siteIds := ids, currentIdx := S.currentIdx + 1 }

/-- percolation_sq_lattice_L1L2.py:78-127 `SitePercolationL1.select_site`. -/
def selectL1 (S : Perc α) (d : Draw) : Py (Perc α × SelectionState) :=
  if S.currentIdx ≥ S.lat.siteCount then .ok (S, .emptySiteList)
  else do
    let rnd ← randint S.currentIdx S.siteIds.length d.a
    let x ← pyGet S.siteIds rnd
    let xs ← S.lat.getSite x
    if xs.isOccupied then
      let S := { S with xOccupied := S.xOccupied + 1 }
      let sites ← S.lat.getAllNeighborSites x
      let r2 ← randint 0 sites.length d.b
      let y ← pyGet sites r2
      let ys ← S.lat.getSite y
      if ys.isOccupied then
        let xs ← xs.reduceNn1
        let sts ← pyModify S.lat.sites x fun _ => xs
        let S := { S with lat := { S.lat with sites := sts } }
        if xs.isRemovable 1 then
          let S ← S.dropCandidate rnd
          return (S, .currentSiteNotEmpty)
        else return (S, .currentSiteNotEmpty)
      else finishSelect { S with seqRecord := S.seqRecord ++ [y] } y
    else finishSelect { S with seqRecord := S.seqRecord ++ [x] } x

/-- percolation_sq_lattice_L1L2.py:184-187 `correct_index_for_periodicity`. -/
def correctPeriodicity (L : Nat) (i : Idx) : Idx := ⟨Int.fmod i.c1 L, Int.fmod i.c2 L⟩

/-- percolation_sq_lattice_L1L2.py:214-223: the site Z beyond Y as seen from X. -/
def siteBeyond (lat : Lattice) (x y : Nat) : Py Nat := do
  let xs ← lat.getSite x
  let ys ← lat.getSite y
  let delta := (ys.index.sub xs.index).normalize
  let z := correctPeriodicity lat.length (ys.index.add delta)
  let zs ← lat.getSiteByIndex z
  return zs.id

/-- percolation_sq_lattice_L1L2.py:189-244 `SitePercolationL2.select_site`. -/
def selectL2 (S : Perc α) (d : Draw) : Py (Perc α × SelectionState) :=
  if S.currentIdx ≥ S.lat.siteCount then .ok (S, .emptySiteList)
  else do
    let rnd ← randint S.currentIdx S.siteIds.length d.a
    let x ← pyGet S.siteIds rnd
    let xs ← S.lat.getSite x
    if xs.isOccupied then
      let sites ← S.lat.getAllNeighborSites x
      let r2 ← randint 0 sites.length d.b
      let y ← pyGet sites r2
      let S := { S with xOccupied := S.xOccupied + 1 }
      let ys ← S.lat.getSite y
      if ys.isOccupied then
        let xs ← xs.reduceNn1
        let sts ← pyModify S.lat.sites x fun _ => xs
        let S := { S with lat := { S.lat with sites := sts } }
        let z ← siteBeyond S.lat x y
        let zs ← S.lat.getSite z
        if zs.isOccupied then
          let S := { S with yOccupied := S.yOccupied + 1 }
          let xs ← xs.reduceNn2
          let sts ← pyModify S.lat.sites x fun _ => xs
          let S := { S with lat := { S.lat with sites := sts } }
          if xs.isRemovable 2 then
            let S ← S.dropCandidate rnd
            return (S, .currentSiteNotEmpty)
          else return (S, .currentSiteNotEmpty)
        else finishSelect S z
      else finishSelect S y
    else finishSelect S x

/-- `select_site` of the concrete class. -/
def selectSite (v : Variant) (S : Perc α) (d : Draw) : Py (Perc α × SelectionState) :=
  match v with
  | .l0 | .sp => selectL0 S
  | .l1 => selectL1 S d
  | .l2 => selectL2 S d

/-- percolation_sq_lattice.py:407-413: the gids (other than -1) of the bonds, in the order they are added to the set. -/
def entropyGids (S : Perc α) : List Nat → Py (List Int)
  | [] => .ok []
  | bb :: bs => do
    let g ← S.lat.getBondGid bb
    let rest ← entropyGids S bs
    return if g = -1 then rest else g :: rest

/-- percolation_sq_lattice.py:416-423: `H += mu * log(mu)` over the clusters; empty clusters are skipped. -/
def entropyLoop (env : Env α) (S : Perc α) : List Int → α → Py α
  | [], h => .ok h
  | g :: gs, h => do
    let bc ← S.pool.bondCount g
    if bc = 0 then entropyLoop env S gs h
    else
      let mu := env.ar.div (env.ar.ofNat bc) (env.ar.ofNat S.lat.bondCount)
      entropyLoop env S gs (env.ar.add h (env.ar.mul mu (env.ar.log mu)))

/-- percolation_sq_lattice.py:403-428 `entropy_subtract` for the selected site `k`. -/
def entropySubtract (env : Env α) (S : Perc α) (k : Nat) : Py (Perc α) := do
  let bonds ← S.lat.getNeighborBonds k
  let gids ← entropyGids S bonds
  let h ← entropyLoop env S (env.set.iter gids) (env.ar.ofNat 0)
  return { S with entropyValue := env.ar.add S.entropyValue h }

/-- percolation_sq_lattice.py:430-437 `entropy_add`; `math.log(0)` raises ValueError. -/
def entropyAdd (env : Env α) (S : Perc α) (c : Int) : Py (Perc α) := do
  let bc ← S.pool.bondCount c
  if bc = 0 then .error .valueError
  else
    let mu := env.ar.div (env.ar.ofNat bc) (env.ar.ofNat S.lat.bondCount)
    return { S with entropyValue := env.ar.sub S.entropyValue (env.ar.mul mu (env.ar.log mu)) }

/-- percolation_sq_lattice.py:395-401 `track_largest_cluster`. -/
def trackLargest (S : Perc α) (c : Int) : Py (Perc α) := do
  let sz ← S.pool.bondCount c
  return if sz > S.largestSz then { S with largestId := c, largestSz := sz } else S

/-- percolation_sq_lattice.py:55-60 `get_bond_gids`. -/
def getBondGids (env : Env α) (S : Perc α) (bonds : List Nat) : Py (List Int) := do
  let gids ← bonds.mapM S.lat.getBondGid
  return env.set.iter gids

/-- percolation_sq_lattice.py:505-517, the loop of `uniqe_gid_bond_neighbors`: keeps the first bond of every gid. -/
def uniqueBondLoop (lat : Lattice) : List Nat → List Int → Py (List Nat)
  | [], _ => .ok []
  | bb :: bs, seen => do
    let g ← lat.getBondGid bb
    if g ∈ seen then uniqueBondLoop lat bs seen
    else
      let rest ← uniqueBondLoop lat bs (seen ++ [g])
      return bb :: rest

/-- percolation_sq_lattice.py:530-542: choice of the root cluster; `wrap` is the condition of line 533. -/
def chooseRoot (pool : ClusterPool) (wrap : Bool) (wid : Int) : List Int → Int → Nat → Py Int
  | [], root, _ => .ok root
  | g :: gs, root, ref =>
    if wrap then .ok wid
    else do
      let sz ← pool.bondCount g
      if sz ≥ ref then chooseRoot pool wrap wid gs g sz
      else chooseRoot pool wrap wid gs root ref

/-- percolation_sq_lattice.py:545-569: the selected site `k` joins the root cluster and gets its relative index from the neighbour
behind the root bond, if that neighbour is occupied. -/
def assignLoop (k : Nat) (root : Int) : List Nat → Perc α → Py (Perc α)
  | [], S => .ok S
  | bb :: bs, S => do
    let g ← S.lat.getBondGid bb
    if g = root then
      let lat ← S.lat.setSiteGid k root
      let pool ← S.pool.addSite root k
      let S := { S with lat := lat, pool := pool }
      let n ← S.getNeighborSite k bb
      let ng ← S.lat.getSiteGid n
      if ng ≥ 0 then
        let r ← getRelativeIndex S.lat n k
        let lat ← S.lat.setRelativeIndex k r
        assignLoop k root bs { S with lat := lat }
      else assignLoop k root bs S
    else assignLoop k root bs S

/-- percolation_sq_lattice.py:615-631: add `change` to the relative index of every listed site. -/
def shiftSites (change : Idx) : List Nat → Lattice → Py Lattice
  | [], lat => .ok lat
  | ss :: rest, lat => do
    let sites ← pyModify lat.sites ss fun s => { s with rel := s.rel.add change }
    shiftSites change rest { lat with sites := sites }

/-- percolation_sq_lattice.py:592-634 `relabel_relative_indices(connecting_bond)` for the selected site `k`. -/
def relabelRelativeIndices (S : Perc α) (k bb : Nat) : Py (Perc α) := do
  let bond ← S.lat.getBond bb
  let n ← S.getNeighborSite k bond.id
  let toRelabel ← S.pool.getSites bond.gid
  if toRelabel.length = 0 then return S
  else
    let ns ← S.lat.getSite n
    let newRel ← getRelativeIndex S.lat k n
    let cg ← S.lat.getSiteGid k
    if cg ≥ 0 then
      let lat ← shiftSites (newRel.sub ns.rel) toRelabel S.lat
      return { S with lat := lat }
    else return S

/-- percolation_sq_lattice.py:572-581: relabel and merge the other clusters into the root cluster. -/
def mergeLoop (k : Nat) (root : Int) : List Nat → Perc α → Py (Perc α)
  | [], S => .ok S
  | bb :: bs, S => do
    let g ← S.lat.getBondGid bb
    if g = root then mergeLoop k root bs S
    else
      let S ← S.relabelRelativeIndices k bb
      let (pool, lat) ← S.pool.mergeClusterWith root g S.lat
      mergeLoop k root bs { S with pool := pool, lat := lat }

/-- percolation_sq_lattice.py:583-587: clear the merged clusters. -/
def clearLoop (root : Int) : List Int → ClusterPool → Py ClusterPool
  | [], pool => .ok pool
  | g :: gs, pool =>
    if g = root then clearLoop root gs pool
    else do
      let pool ← pool.clearCluster g
      clearLoop root gs pool

/-- percolation_sq_lattice.py:519-590 `merge_clusters_v2` for the selected site `k`. -/
def mergeClustersV2 (env : Env α) (S : Perc α) (k : Nat) (bonds : List Nat) : Py (Perc α × Int) := do
  let ub ← uniqueBondLoop S.lat bonds []
  let gids ← getBondGids env S ub
  let root0 ← pyGet gids 0
  let root ← chooseRoot S.pool (S.afterWrapping && decide (S.wrappingId ∈ gids)) S.wrappingId gids root0 0
  let S ← assignLoop k root ub S
  let S ← mergeLoop k root ub S
  let pool ← clearLoop root gids S.pool
  return ({ S with pool := pool }, root)

/-- percolation_sq_lattice.py:372-381: the part of `place_one_site` that runs after a successful selection of site `k`. -/
def placeSelected (env : Env α) (S : Perc α) (k : Nat) : Py (Perc α) := do
  let lat ← S.lat.initRelativeIndex k
  let S := { S with lat := lat }
  let bonds ← S.lat.getNeighborBonds k
  let S ← S.entropySubtract env k
  let (S, c) ← S.mergeClustersV2 env k bonds
  let S ← S.trackLargest c
  S.entropyAdd env c

/-- percolation_sq_lattice.py:366-393 `place_one_site`. -/
def placeOneSite (env : Env α) (v : Variant) (S : Perc α) (d : Draw) : Py (Perc α × Bool) := do
  let (S, flag) ← S.selectSite v d
  let S := { S with selectionFlag := some flag }
  match flag with
  | .success =>
    match S.selected with
    | none => .error .typeError
    | some k => do
      let S ← S.placeSelected env k
      return (S, true)
  | .currentSiteNotEmpty => return (S, true)
  | .emptySiteList => return (S, false)

/-- percolation_sq_lattice.py:643-658: whether some listed neighbour has a relative index more than one unit away. -/
def wrapScan (lat : Lattice) (central : Idx) : List Nat → Py Bool
  | [] => .ok false
  | ss :: rest => do
    let s ← lat.getSite ss
    let dx := central.c1 - s.rel.c1
    let dy := central.c2 - s.rel.c2
    if dx.natAbs > 1 ∨ dy.natAbs > 1 then return true
    else wrapScan lat central rest

/-- percolation_sq_lattice.py:636-659 `detect_wrapping`.  Before the first selection `selected_id` is None and the list access in
lattice.py:173 raises TypeError. -/
def detectWrapping (S : Perc α) : Py (Perc α × Bool) :=
  if S.afterWrapping then .ok (S, true)
  else match S.selected with
    | none => .error .typeError
    | some k => do
      let nbrs ← S.lat.getSitesForWrappingTest k
      let c ← S.lat.getSite k
      let hit ← wrapScan S.lat c.rel nbrs
      if hit then
        let bc ← S.pool.bondCount c.gid
        let sc ← S.pool.siteCount c.gid
        return ({ S with afterWrapping := true, wrappingId := c.gid, pcOccupied := S.occupiedCount,
                         pcBonds := some bc, pcSites := some sc }, true)
      else return (S, false)

/-- percolation_sq_lattice.py:273-278 `get_pc`. -/
def getPc (env : Env α) (S : Perc α) : α :=
  if S.afterWrapping then env.ar.div (env.ar.ofNat S.pcOccupied) (env.ar.ofNat S.lat.siteCount)
  else env.ar.ofNat 0

/-- percolation_sq_lattice.py:280-284 `get_site_count_wrapping_cluster_pc`. -/
def getSiteCountPc (S : Perc α) : Nat := match S.pcSites with | some n => n | none => 0

/-- percolation_sq_lattice.py:286-290 `get_bond_count_wrapping_cluster_pc`. -/
def getBondCountPc (S : Perc α) : Nat := match S.pcBonds with | some n => n | none => 0

/-- percolation_sq_lattice.py:439-440 `occupation_prob`. -/
def occupationProb (env : Env α) (S : Perc α) : α :=
  env.ar.div (env.ar.ofNat S.occupiedCount) (env.ar.ofNat S.lat.siteCount)

/-- percolation_sq_lattice.py:442-447 `entropy` / `entropy_v2`. -/
def entropy (S : Perc α) : α := S.entropyValue

/-- percolation_sq_lattice.py:451-459: the loop of `entropy_v1` over the cluster positions `i`; the test `mu == 0` is the test
that the bond count is 0. -/
def entropyV1Loop (env : Env α) (S : Perc α) : List Nat → α → Py α
  | [], h => .ok h
  | i :: is, h => do
    let bc ← S.pool.bondCount i
    if bc = 0 then entropyV1Loop env S is h
    else
      let mu := env.ar.div (env.ar.ofNat bc) (env.ar.ofNat S.lat.bondCount)
      entropyV1Loop env S is (env.ar.add h (env.ar.mul mu (env.ar.log mu)))

/-- percolation_sq_lattice.py:449-462 `entropy_v1`. -/
def entropyV1 (env : Env α) (S : Perc α) : Py α := do
  let h ← entropyV1Loop env S (List.range S.clusterCount) (env.ar.ofNat 0)
  return env.ar.neg h

/-- percolation_sq_lattice.py:464-465 `largest_cluster`. -/
def largestCluster (S : Perc α) : Nat := S.largestSz

/-- percolation_sq_lattice.py:467-468 `order_param_largest_clstr`. -/
def orderLargest (env : Env α) (S : Perc α) : α :=
  env.ar.div (env.ar.ofNat S.largestSz) (env.ar.ofNat S.lat.bondCount)

/-- percolation_sq_lattice.py:470-478 `order_param_wrapping`. -/
def orderWrapping (env : Env α) (S : Perc α) : Py α :=
  if S.afterWrapping then do
    let c ← S.pool.bondCount S.wrappingId
    return env.ar.div (env.ar.ofNat c) (env.ar.ofNat S.lat.bondCount)
  else .ok (env.ar.ofNat 0)

/-- percolation_sq_lattice.py:674-684: append the current observables to the data lists. -/
def record (env : Env α) (S : Perc α) : Py (Perc α) := do
  let p1 ← S.orderWrapping env
  return { S with
    occProbList := if S.firstRun then S.occProbList ++ [S.occupationProb env] else S.occProbList
    entropyList := S.entropyList ++ [S.entropy]
    orderWrapList := S.orderWrapList ++ [p1]
    orderLargestList := S.orderLargestList ++ [S.orderLargest env] }

/-- percolation_sq_lattice.py:670-684: the `while` loop of `run_once`, with fuel; `ds i` are the random numbers of the `i`-th call of
`place_one_site`. -/
def runLoop (env : Env α) (v : Variant) : Nat → (Nat → Draw) → Perc α → Py (Perc α)
  | 0, _, _ => .error .outOfFuel
  | fuel + 1, ds, S => do
    let (S, more) ← S.placeOneSite env v (ds 0)
    if more then
      if S.selectionFlag = some .success then
        let (S, _) ← S.detectWrapping
        let S ← S.record env
        runLoop env v fuel (fun i => ds (i + 1)) S
      else runLoop env v fuel (fun i => ds (i + 1)) S
    else return S

/-- percolation_sq_lattice.py:663-721 `SitePercolation.run_once` (used by L0, L1 and L2). -/
def runOnce (env : Env α) (v : Variant) (fuel : Nat) (ds : Nat → Draw) (S : Perc α) : Py (Perc α) := do
  let S ← runLoop env v fuel ds S
  return { S with firstRun := false }

/-- percolation_sq_lattice.py:730-748: the `while` loop of `test_run_once`. -/
def testRunLoop (env : Env α) (v : Variant) : Nat → (Nat → Draw) → Perc α → Py (Perc α)
  | 0, _, _ => .error .outOfFuel
  | fuel + 1, ds, S => do
    let (S, more) ← S.placeOneSite env v (ds 0)
    if more then
      if S.selectionFlag = some .success then
        let (S, w) ← S.detectWrapping
        if w then do
          -- `pc_site_count_wrapping_cluster` is an int here because wrapping has been detected
          pyAssert (decide (S.pcOccupied > S.getSiteCountPc))
          return S
        else
          let S ← S.record env
          testRunLoop env v fuel (fun i => ds (i + 1)) S
      else testRunLoop env v fuel (fun i => ds (i + 1)) S
    else return S

/-- percolation_sq_lattice.py:723-751 `test_run_once`. -/
def testRunOnce (env : Env α) (v : Variant) (fuel : Nat) (ds : Nat → Draw) (S : Perc α) : Py (Perc α) := do
  let S ← testRunLoop env v fuel ds S
  return { S with firstRun := false }

/-- percolation_sq_lattice.py:301-310 `get_data_array`: rows `(p, H, P_largest, P_wrapping)`; `np.c_` raises ValueError when the columns
have different lengths. -/
def getDataArray (S : Perc α) : Py (List (List α)) :=
  if S.occProbList.length = S.entropyList.length ∧ S.entropyList.length = S.orderLargestList.length ∧
      S.orderLargestList.length = S.orderWrapList.length then
    .ok ((S.occProbList.zip (S.entropyList.zip (S.orderLargestList.zip S.orderWrapList))).map
      fun r => [r.1, r.2.1, r.2.2.1, r.2.2.2])
  else .error .valueError

/-- percolation_sq_lattice.py:761-772: the loop of `test_clusters` over the cluster positions; returns `(bsum, ssum)`. -/
def testClustersLoop (S : Perc α) : List Nat → Nat → Nat → Py (Nat × Nat)
  | [], bs, ss => .ok (bs, ss)
  | g :: gs, bs, ss => do
    let b1 ← S.pool.bondCount g
    let s1 ← S.pool.siteCount g
    if (g : Int) = S.wrappingId then do
      pyAssert (decide (b1 = S.lat.bondCount))
      pyAssert (decide (s1 = S.lat.siteCount))
      testClustersLoop S gs bs ss
    else testClustersLoop S gs (bs + b1) (ss + s1)

/-- percolation_sq_lattice.py:753-776 `test_clusters`. -/
def testClusters (S : Perc α) : Py Unit :=
  if S.occupiedCount < S.lat.siteCount then .ok ()
  else do
    let ids := List.range (2 * S.lat.length ^ 2)
    let (bs, ss) ← testClustersLoop S ids 0 0
    pyAssert (decide (bs = 0))
    pyAssert (decide (ss = 0))
    pyAssert (decide (S.largestSz = ids.length))

/-- percolation_sq_lattice.py:778-793 `test_lattice`. -/
def testLattice (S : Perc α) : Py Unit := do
  S.lat.testNeighborCount
  S.lat.testRelativeIndex
  S.lat.scanBonds
  S.lat.scanSites
  if S.occupiedCount = S.lat.siteCount then S.lat.testLattice S.wrappingId else return ()

/-- percolation_sq_lattice.py:486-492: the root of `merge_clusters`: the last cluster of maximal bond count, starting from cluster 0. -/
def mergeV1Root (pool : ClusterPool) : List Int → Int → Nat → Py Int
  | [], root, _ => .ok root
  | g :: gs, root, ref => do
    let sz ← pool.bondCount g
    if sz ≥ ref then mergeV1Root pool gs g sz else mergeV1Root pool gs root ref

/-- percolation_sq_lattice.py:494-500: the merging loop of `merge_clusters`. -/
def mergeV1Loop (root : Int) : List Int → ClusterPool × Lattice → Py (ClusterPool × Lattice)
  | [], pl => .ok pl
  | g :: gs, pl =>
    if g = root then mergeV1Loop root gs pl
    else do
      let pl ← pl.1.mergeClusterWith root g pl.2
      mergeV1Loop root gs pl

/-- percolation_sq_lattice.py:481-503 `merge_clusters` (first version, unused by `place_one_site`). -/
def mergeClustersV1 (env : Env α) (S : Perc α) (bonds : List Nat) : Py (Perc α × Int) := do
  let gids ← getBondGids env S bonds
  let root ← mergeV1Root S.pool gids 0 0
  let (pool, lat) ← mergeV1Loop root gids (S.pool, S.lat)
  return ({ S with pool := pool, lat := lat }, root)

/-- percolation_sq_lattice_L1L2.py:59-62: `for ss in sites: if ss == central: sites.remove(ss)`.  A Python `for` over a list keeps a position
`i` and stops when `i` reaches the current length, so removing skips elements.  The fuel `8` given below is enough: the position grows
each time and the list has eight elements. -/
def removeWhileIterating (central : Nat) : Nat → Nat → List Nat → List Nat
  | 0, _, sites => sites
  | fuel + 1, i, sites =>
    match sites[i]? with
    | none => sites
    | some ss =>
      if ss = central then removeWhileIterating central fuel (i + 1) (sites.erase ss)
      else removeWhileIterating central fuel (i + 1) sites

/-- percolation_sq_lattice_L1L2.py:47-76 `SitePercolationL1.get_four_neighbor_sites`. -/
def getFourNeighborSites (S : Perc α) (central : Nat) : Py (List Nat) := do
  let bonds ← S.lat.getNeighborBonds central
  let lists ← bonds.mapM S.lat.getNeighborSites
  let sites := lists.flatten
  let sites := removeWhileIterating central sites.length 0 sites
  pyAssert (decide (sites.length = 4))
  return sites

/-! ### ShortestPathAfter_pc -/

/-- percolation_sq_lattice_shortest_path.py:103-127 `scan_row_col_of_selected_site`: the loop; flags for the row `rr` (called
`column_flag` in the code) and the column `cc` (called `row_flag`). -/
def scanLines (S : Perc α) (rr cc : Nat) : List Nat → Bool × Bool → Py (Bool × Bool)
  | [], flags => .ok flags
  | x :: xs, flags => do
    let g1 ← S.lat.getSiteGid (S.lat.getIdFromIndex rr x)
    let f1 := if g1 ≠ S.wrappingId then false else flags.1
    let g2 ← S.lat.getSiteGid (S.lat.getIdFromIndex x cc)
    let f2 := if g2 ≠ S.wrappingId then false else flags.2
    scanLines S rr cc xs (f1, f2)

/-- percolation_sq_lattice_shortest_path.py:103-127. -/
def scanRowCol (S : Perc α) (rr cc : Nat) : Py (Bool × Bool) :=
  scanLines S rr cc (List.range S.lat.length) (true, true)

/-- percolation_sq_lattice_shortest_path.py:66-76 and 86-96: whether all listed sites carry the wrapping gid. -/
def lineFlag (S : Perc α) : List Nat → Bool → Py Bool
  | [], flag => .ok flag
  | id :: ids, flag => do
    let g ← S.lat.getSiteGid id
    lineFlag S ids (if g ≠ S.wrappingId then false else flag)

/-- percolation_sq_lattice_shortest_path.py:65-80 / 85-100: does one of the listed lines consist of wrapping-cluster sites. -/
def anyLine (S : Perc α) : List (List Nat) → Py Bool
  | [] => .ok false
  | l :: ls => do
    let f ← lineFlag S l true
    if f then return true else anyLine S ls

/-- percolation_sq_lattice_shortest_path.py:62-80 `scan_all_rows` (which scans the columns `cc`). -/
def scanAllRows (S : Perc α) : Py Bool :=
  if S.wrappingId < 0 then .ok false
  else anyLine S ((List.range S.lat.length).map fun cc =>
    (List.range S.lat.length).map fun rr => S.lat.getIdFromIndex rr cc)

/-- percolation_sq_lattice_shortest_path.py:82-100 `scan_all_cols` (which scans the rows `rr`). -/
def scanAllCols (S : Perc α) : Py Bool :=
  if S.wrappingId < 0 then .ok false
  else anyLine S ((List.range S.lat.length).map fun rr =>
    (List.range S.lat.length).map fun cc => S.lat.getIdFromIndex rr cc)

/-- percolation_sq_lattice_shortest_path.py:37-56: the `while` loop of `ShortestPathAfter_pc.run_once`.  The second component tells
whether the loop was left by `break`.  The site index is read from the site object (lines 44, 104). -/
def spLoop (env : Env α) : Nat → Perc α → Py (Perc α × Bool)
  | 0, _ => .error .outOfFuel
  | fuel + 1, S => do
    let (S, more) ← S.placeOneSite env .sp ⟨0, 0⟩
    if more then
      if S.selectionFlag = some .success then
        let (S, w) ← S.detectWrapping
        if w then
          match S.selected with
          | none => .error .typeError
          | some k => do
            let st ← S.lat.getSite k
            let (f1, f2) ← S.scanRowCol st.index.c1.toNat st.index.c2.toNat
            if f1 || f2 then return ({ S with shortestP := S.occupationProb env }, true)
            else spLoop env fuel S
        else spLoop env fuel S
      else spLoop env fuel S
    else return (S, false)

/-- percolation_sq_lattice_shortest_path.py:30-60 `ShortestPathAfter_pc.run_once`. -/
def spRunOnce (env : Env α) (fuel : Nat) (S : Perc α) : Py (Perc α) := do
  let (S, _) ← spLoop env fuel S
  return { S with firstRun := false }

end Perc
end SqPerc
