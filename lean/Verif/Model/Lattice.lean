import Verif.Model.Elements
/-
source_py/simulation/lattice.py
-/
namespace SqPerc

/-- lattice.py:5-16 `Lattice`: `length`, `site_matrix`, `bond_matrix`.  `site_ids`/`bond_ids` are `range(site_count)`/`range(bond_count)`
(lattice.py:11-12). -/
structure Lattice where
  length : Nat
  sites : List Site
  bonds : List Bond
  deriving DecidableEq, Repr

namespace Lattice

/-- lattice.py:9 `site_count = length ** 2`. -/
def siteCount (lat : Lattice) : Nat := lat.length ^ 2

/-- lattice.py:8 `bond_count = 2*length**2`. -/
def bondCount (lat : Lattice) : Nat := 2 * lat.length ^ 2

/-- The pairs `(rr, cc)` in the order of the loops `for rr in range(length): for cc in range(length)`
(lattice.py:27-28 and 210-211). -/
def gridPairs (L : Nat) : List (Nat × Nat) :=
  (List.range L).flatMap fun rr => (List.range L).map fun cc => (rr, cc)

/-- lattice.py:6-13: the matrices before `init_lattice` hold the placeholder `0`; here placeholder objects. -/
def blank (L : Nat) : Lattice :=
  { length := L
    sites := List.replicate (L ^ 2) (Site.new 0 0 0)
    bonds := List.replicate (2 * L ^ 2) (Bond.new 0 0 0 0) }

/-- lattice.py:29-37 body of the loop of `init_lattice`. -/
def initLatticeStep (lat : Lattice) (rc : Nat × Nat) : Lattice :=
  let s := rc.1 * lat.length + rc.2
  let v := s + lat.length ^ 2
  { lat with
    sites := lat.sites.set s (Site.new rc.1 rc.2 s)
    bonds := (lat.bonds.set s (Bond.new rc.1 rc.2 0 s)).set v (Bond.new rc.1 rc.2 1 v) }

/-- lattice.py:25-42 `init_lattice`. -/
def initLattice (lat : Lattice) : Lattice :=
  (gridPairs lat.length).foldl initLatticeStep lat

/-- lattice.py:109-111 `bottom_bond_of_site`. -/
def bottomBond (lat : Lattice) (s : Nat) : Nat := s + lat.siteCount

/-- lattice.py:113-120 `top_bond_of_site`.  `bond_count - length` is non-negative for every length, so the subtraction is on `Nat`. -/
def topBond (lat : Lattice) (s : Nat) : Nat :=
  lat.bottomBond ((s + lat.bondCount - lat.length) % lat.siteCount)

/-- lattice.py:122-123 `right_bond_of_site`. -/
def rightBond (_lat : Lattice) (s : Nat) : Nat := s

/-- lattice.py:135-138 `get_row_col_from_id`, which returns `(col, row)` in this order. -/
def getRowColFromId (lat : Lattice) (s : Nat) : Nat × Nat := (s % lat.length, s / lat.length)

/-- lattice.py:125-133 `left_bond_of_site`. -/
def leftBond (lat : Lattice) (s : Nat) : Nat :=
  let cr := lat.getRowColFromId s
  lat.rightBond (cr.2 * lat.length + (cr.1 + lat.length - 1) % lat.length)

/-- lattice.py:140-149 `find_neighbor_bonds`: right, bottom, left, top. -/
def findNeighborBonds (lat : Lattice) (s : Nat) : List Nat :=
  [lat.rightBond s, lat.bottomBond s, lat.leftBond s, lat.topBond s]

/-- lattice.py:239-241 `set_site_gid_by_id` (element.py:18-27 `set_gid`). -/
def setSiteGid (lat : Lattice) (id : Nat) (gid : Int) : Py Lattice := do
  let sites ← pyModify lat.sites id fun s => { s with gid := gid }
  return { lat with sites := sites }

/-- lattice.py:243-246 `set_bond_gid_by_id`. -/
def setBondGid (lat : Lattice) (id : Nat) (gid : Int) : Py Lattice := do
  let bonds ← pyModify lat.bonds id fun b => { b with gid := gid }
  return { lat with bonds := bonds }

/-- lattice.py:231-233 `get_site_by_id`. -/
def getSite (lat : Lattice) (id : Nat) : Py Site := pyGet lat.sites id

/-- lattice.py:235-237 `get_bond_by_id`. -/
def getBond (lat : Lattice) (id : Nat) : Py Bond := pyGet lat.bonds id

/-- lattice.py:248-250 `get_site_gid_by_id`. -/
def getSiteGid (lat : Lattice) (id : Nat) : Py Int := do
  let s ← lat.getSite id
  return s.gid

/-- lattice.py:252-255 `get_bond_gid_by_id`. -/
def getBondGid (lat : Lattice) (id : Nat) : Py Int := do
  let b ← lat.getBond id
  return b.gid

/-- lattice.py:216-217 `for bb in bonds: self.bond_matrix[bb].add_connected_site(s0_index)`. -/
def addSiteToBonds (s : Nat) : List Nat → Lattice → Py Lattice
  | [], lat => .ok lat
  | bb :: bs, lat => do
    let bonds ← pyModify lat.bonds bb fun b => b.addConnectedSite s
    addSiteToBonds s bs { lat with bonds := bonds }

/-- lattice.py:212-217 body of the loop of `init_ids`. -/
def initIdsStep (lat : Lattice) (rc : Nat × Nat) : Py Lattice := do
  let s := rc.1 * lat.length + rc.2
  let bonds := lat.findNeighborBonds s
  pyAssert (decide (bonds.length = 4))
  let sites ← pyModify lat.sites s fun st => st.addConnectingBonds bonds
  addSiteToBonds s bonds { lat with sites := sites }

/-- lattice.py:209-229 `init_ids`. -/
def initIds (lat : Lattice) : Py Lattice :=
  (gridPairs lat.length).foldlM initIdsStep lat

/-- lattice.py:6-16 `Lattice(length)`. -/
def new (L : Nat) : Py Lattice := initIds (initLattice (blank L))

/-- lattice.py:18-23 `reset`. -/
def reset (lat : Lattice) : Lattice :=
  { lat with sites := lat.sites.map Site.reset, bonds := lat.bonds.map Bond.reset }

/-- lattice.py:44-58 `calculate_id_from_index` on the list of components (`Index.as_list()`, or a tuple/list given by the caller):
the sum of `length**k * component`, highest power first; `map` stops at the shorter of the two lists (they have equal length). -/
def calculateIdFromIndex (lat : Lattice) (idx : List Int) : Int :=
  let multipliers := ((List.range idx.length).map fun k => ((lat.length : Int) ^ k)).reverse
  (List.zipWith (fun a b => a * b) multipliers idx).sum

/-- lattice.py:265-267 `get_id_from_index(row, col)`. -/
def getIdFromIndex (lat : Lattice) (row col : Nat) : Nat := row * lat.length + col

/-- lattice.py:257-263 `get_site_by_index`. -/
def getSiteByIndex (lat : Lattice) (idx : Idx) : Py Site :=
  pyGetI lat.sites (idx.c1 * lat.length + idx.c2)

/-- lattice.py:277-291 `get_bond_by_index(row, col, hv_flag)`. -/
def getBondByIndex (lat : Lattice) (row col hv : Int) : Py Bond :=
  pyGetI lat.bonds (row * lat.length + col + hv * (lat.length : Int) ^ 2)

/-- lattice.py:151-153 `get_neighbor_bonds`. -/
def getNeighborBonds (lat : Lattice) (s : Nat) : Py (List Nat) := do
  let st ← lat.getSite s
  return st.bonds

/-- lattice.py:155-156 `get_neighbor_sites`. -/
def getNeighborSites (lat : Lattice) (b : Nat) : Py (List Nat) := do
  let bd ← lat.getBond b
  return bd.sites

/-- lattice.py:164-167, 179-182, 432-442: the sites of bond `b` without one occurrence of `s`, first element. -/
def otherEnd (lat : Lattice) (s b : Nat) : Py Nat := do
  let nn ← lat.getNeighborSites b
  let nn ← pyRemove nn s
  pyGet nn 0

/-- lattice.py:158-169 `get_site_neighbor_of_site`. -/
def getSiteNeighborOfSite (lat : Lattice) (s : Nat) : Py (List Nat) := do
  let bonds ← lat.getNeighborBonds s
  bonds.mapM (lat.otherEnd s)

/-- lattice.py:171-187 `get_sites_for_wrapping_test`, the loop over the bonds. -/
def wrappingTestLoop (lat : Lattice) (s : Nat) (gid : Int) : List Nat → Py (List Nat)
  | [] => .ok []
  | bb :: bs => do
    let n ← lat.otherEnd s bb
    let g ← lat.getSiteGid n
    let rest ← wrappingTestLoop lat s gid bs
    return if g = gid then n :: rest else rest

/-- lattice.py:171-187 `get_sites_for_wrapping_test`: the neighbours with the gid of the site itself. -/
def getSitesForWrappingTest (lat : Lattice) (s : Nat) : Py (List Nat) := do
  let central ← lat.getSite s
  wrappingTestLoop lat s central.gid central.bonds

/-- lattice.py:418-421 `init_relative_index`. -/
def initRelativeIndex (lat : Lattice) (id : Nat) : Py Lattice := do
  let sites ← pyModify lat.sites id Site.initRel
  return { lat with sites := sites }

/-- lattice.py:423-426 `set_relative_index` (site.py:115-117). -/
def setRelativeIndex (lat : Lattice) (id : Nat) (r : Idx) : Py Lattice := do
  let sites ← pyModify lat.sites id fun s => { s with rel := r }
  return { lat with sites := sites }

/-- lattice.py:431-443, the loop of `get_all_neighbor_sites` with its assertion that a bond lists two sites. -/
def allNeighborLoop (lat : Lattice) (s : Nat) : List Nat → Py (List Nat)
  | [] => .ok []
  | bb :: bs => do
    let cs ← lat.getNeighborSites bb
    pyAssert (decide (cs.length = 2))
    let tmp ← pyRemove cs s
    let n ← pyGet tmp 0
    let rest ← allNeighborLoop lat s bs
    return n :: rest

/-- lattice.py:428-457 `get_all_neighbor_sites`. -/
def getAllNeighborSites (lat : Lattice) (s : Nat) : Py (List Nat) := do
  let bonds ← lat.getNeighborBonds s
  let four ← lat.allNeighborLoop s bonds
  pyAssert (decide (four.length = 4))
  return four

/-- lattice.py:459-475 `distance_btn_sites` on the indices of the two sites. -/
def distanceBtnSites (lat : Lattice) (i1 i2 : Idx) : Int × Int :=
  let dRow : Int := (i1.c1 - i2.c1).natAbs
  let dRow := if dRow = (lat.length : Int) - 1 then 1 else dRow
  let dCol : Int := (i1.c2 - i2.c2).natAbs
  let dCol := if dCol = (lat.length : Int) - 1 then 1 else dCol
  (dRow, dCol)

/-- lattice.py:77-86: the checks of `scan_sites` on one site. -/
def scanSite (lat : Lattice) (ss : Site) : Py Unit := do
  pyAssert (decide ((ss.id : Int) = lat.calculateIdFromIndex [ss.index.c1, ss.index.c2]))
  pyAssert (decide (ss.bonds.length = 4))
  ss.bonds.forM fun bb => do
    let siteids ← lat.getNeighborSites bb
    pyAssert (decide (ss.id ∈ siteids))

/-- lattice.py:72-89 `scan_sites`. -/
def scanSites (lat : Lattice) : Py Unit := lat.sites.forM lat.scanSite

/-- lattice.py:96-105: the checks of `scan_bonds` on one bond. -/
def scanBond (lat : Lattice) (bb : Bond) : Py Unit := do
  pyAssert (decide ((bb.id : Int) = lat.calculateIdFromIndex bb.getIndex))
  pyAssert (decide (bb.sites.length = 2))
  bb.sites.forM fun ss => do
    let bondids ← lat.getNeighborBonds ss
    pyAssert (decide (bb.id ∈ bondids))

/-- lattice.py:91-107 `scan_bonds`. -/
def scanBonds (lat : Lattice) : Py Unit := lat.bonds.forM lat.scanBond

/-- lattice.py:477-486 `test_neighbor_count`. -/
def testNeighborCount (lat : Lattice) : Py Unit := do
  lat.sites.forM fun ss => pyAssert (decide (ss.bonds.eraseDups.length = 4))
  lat.bonds.forM fun bb => pyAssert (decide (bb.sites.length = 2))

/-- site.py:25-31 `test_site` and lattice.py:491-494. -/
def testLatticeSite (gid : Int) (ss : Site) : Py Unit := do
  pyAssert (decide (ss.bonds.length = 4))
  pyAssert (decide (ss.bonds.eraseDups.length = 4))
  pyAssert (decide (ss.gid = gid))

/-- bond.py:31-37 `test_bond` and lattice.py:495-498. -/
def testLatticeBond (gid : Int) (bb : Bond) : Py Unit := do
  pyAssert (decide (bb.sites.length = 2))
  pyAssert (decide (bb.sites.eraseDups.length = 2))
  pyAssert (decide (bb.gid = gid))

/-- lattice.py:488-499 `test_lattice(gid)`. -/
def testLattice (lat : Lattice) (gid : Int) : Py Unit := do
  lat.sites.forM (testLatticeSite gid)
  lat.bonds.forM (testLatticeBond gid)

/-- lattice.py:512-530, the loop over the four neighbours in `test_relative_index`: returns the number of active neighbours seen and
whether `column_wise or row_wise` became true (the loop breaks as soon as it does). -/
def testRelLoop (lat : Lattice) (central : Idx) : List Nat → Nat → Py (Nat × Bool)
  | [], active => .ok (active, false)
  | n :: ns, active => do
    let site ← lat.getSite n
    if site.gid < 0 then testRelLoop lat central ns active
    else
      let dx := central.c1 - site.rel.c1
      let dy := central.c2 - site.rel.c2
      if ((dy.natAbs : Int) = 1 ∨ (dy.natAbs : Int) = (lat.length : Int) - 1) ∨
          ((dx.natAbs : Int) = 1 ∨ (dx.natAbs : Int) = (lat.length : Int) - 1) then
        return (active + 1, true)
      else testRelLoop lat central ns (active + 1)

/-- lattice.py:503-536: one iteration of `test_relative_index`. -/
def testRelSite (lat : Lattice) (ss : Site) : Py Unit :=
  if ss.gid < 0 then .ok ()
  else do
    let four ← lat.getAllNeighborSites ss.id
    let r ← lat.testRelLoop ss.rel four 0
    if r.1 > 0 then pyAssert r.2 else return ()

/-- lattice.py:501-536 `test_relative_index`. -/
def testRelativeIndex (lat : Lattice) : Py Unit := lat.sites.forM lat.testRelSite

/-- lattice.py:545-566: the inner loop of `test_rwo_col_scan`, over the columns of row `rr`; `prev` is `site_prev`. -/
def scanRow (lat : Lattice) (rr : Nat) : List Nat → Option Site → Py Unit
  | [], _ => .ok ()
  | cc :: cs, prev => do
    let site ← lat.getSite (rr * lat.length + cc)
    if site.gid < 0 then scanRow lat rr cs none
    else match prev with
      | none => scanRow lat rr cs (some site)
      | some p => do
        if site.gid = p.gid ∧ p.gid ≥ 0 ∧ site.gid ≥ 0 then
          let dy := p.rel.c2 - site.rel.c2
          pyAssert (decide ((dy.natAbs : Int) = 1 ∨ (dy.natAbs : Int) = (lat.length : Int) - 1))
        scanRow lat rr cs (some site)

/-- lattice.py:538-567 `test_rwo_col_scan`. -/
def testRowColScan (lat : Lattice) : Py Unit :=
  (List.range lat.length).forM fun rr => lat.scanRow rr (List.range lat.length) none

end Lattice
end SqPerc
