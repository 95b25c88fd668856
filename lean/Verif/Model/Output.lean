import Verif.Model.Perc
/-
What the viewers print: the text written to the standard output by site.py, bond.py, index.py, lattice.py, cluster.py and
percolation_sq_lattice.py:37-53.  A text is a list of characters; `print(a, b)` writes `str(a)`, a blank, `str(b)` and a line feed.
-/
namespace SqPerc

/-- A printed text. -/
abbrev Text := List Char

/-- `str(i)` of an int. -/
def intText : Int → Text
  | .ofNat n => Nat.toDigits 10 n
  | .negSucc n => '-' :: Nat.toDigits 10 (n + 1)

/-- `k` blanks. -/
def blanks (k : Nat) : Text := List.replicate k ' '

/-- `"{:w}".format(i)` of an int, and `"{:>w}".format(s)`: blanks on the left. -/
def fmtRight (w : Nat) (t : Text) : Text := blanks (w - t.length) ++ t

/-- `"{:<w}".format(i)`: blanks on the right. -/
def fmtLeft (w : Nat) (t : Text) : Text := t ++ blanks (w - t.length)

/-- `"{:^w}".format(i)`: blanks on both sides, the odd one on the right. -/
def fmtCentre (w : Nat) (t : Text) : Text :=
  blanks ((w - t.length) / 2) ++ t ++ blanks ((w - t.length) - (w - t.length) / 2)

/-- Elements separated by `", "`. -/
def commaSep : List Text → Text
  | [] => []
  | [t] => t
  | t :: ts => t ++ ", ".toList ++ commaSep ts

/-- `str(l)` of a list of ints. -/
def intListText (l : List Nat) : Text := "[".toList ++ commaSep (l.map fun n : Nat => intText n) ++ "]".toList

/-- `str(l)` of a list of strings (none of which contains a quote or a backslash). -/
def strListText (l : List Text) : Text := "[".toList ++ commaSep (l.map fun t => "'".toList ++ t ++ "'".toList) ++ "]".toList

/-- `print(s)`: the text and a line feed. -/
def println (t : Text) : Text := t ++ ['\n']

/-- index.py:51-52 `Index.__str__`. -/
def Idx.indexStr (i : Idx) : Text := "(".toList ++ fmtRight 3 (intText i.c1) ++ ",".toList ++ fmtRight 3 (intText i.c2) ++ ")".toList

/-- index.py:88-89 `RelativeIndex.__str__`. -/
def Idx.relStr (i : Idx) : Text := "<".toList ++ fmtRight 3 (intText i.c1) ++ ",".toList ++ fmtRight 3 (intText i.c2) ++ ">".toList

/-- site.py:79-88 `Site.get_str(formatt)`; site.py:33-40 `__str__` is format 0. -/
def Site.getStr (s : Site) (fmt : Int) : Text :=
  if fmt = 1 then "(".toList ++ fmtCentre 5 (intText s.gid) ++ ", ".toList ++ fmtCentre 5 (intText s.id) ++ ")".toList
  else if fmt = 2 then
    fmtCentre 5 (intText s.id) ++ "(".toList ++ fmtCentre 5 (intText s.index.c1) ++ ",".toList ++ fmtCentre 5 (intText s.index.c2) ++ ")".toList
  else "(".toList ++ fmtCentre 5 (intText s.index.c1) ++ ",".toList ++ fmtCentre 5 (intText s.index.c2) ++ ")".toList

/-- bond.py:48-56 `Bond.get_str(formatt)`; bond.py:39-46 `__str__` is format 1, since `g_id` is never `None`. -/
def Bond.getStr (b : Bond) (fmt : Int) : Text :=
  if fmt = 1 then "(".toList ++ fmtCentre 5 (intText b.gid) ++ ", ".toList ++ fmtCentre 5 (intText b.id) ++ ")".toList
  else if fmt = 2 then
    fmtCentre 5 (intText b.id) ++ "(".toList ++ fmtCentre 5 (intText b.row) ++ ",".toList ++ fmtCentre 5 (intText b.col) ++ ")".toList
  else "(".toList ++ fmtCentre 5 (intText b.row) ++ ",".toList ++ fmtCentre 5 (intText b.col) ++ ",".toList
    ++ (if b.type = 0 then "h" else "v").toList ++ ")".toList

namespace Lattice

/-- lattice.py:380-389 `print_row_separator(str_sz)`. -/
def rowSeparator (lat : Lattice) (sz : Nat) : Text :=
  println ((List.range lat.length).flatMap fun _ => List.replicate sz '-')

/-- lattice.py:394-400: one entry of `get_row_str`. -/
def rowCell (lat : Lattice) (row : Nat) (fmt : Int) (cc : Nat) : Py Text := do
  let s ← lat.getSite (row * lat.length + cc)
  let b ← lat.getBond (row * lat.length + cc)
  let str1 := s.getStr fmt
  let str2 := b.getStr fmt
  return str1 ++ blanks (str2.length - str1.length) ++ "  ".toList ++ str2

/-- lattice.py:391-401 `get_row_str(row, format)`. -/
def getRowStr (lat : Lattice) (row : Nat) (fmt : Int) : Py (List Text) := (List.range lat.length).mapM (lat.rowCell row fmt)

/-- lattice.py:406-413: one entry of `get_row_v_str`. -/
def rowVCell (lat : Lattice) (row : Nat) (fmt : Int) (cc : Nat) : Py Text := do
  let b ← lat.getBond (row * lat.length + cc + lat.length ^ 2)
  let str3 := b.getStr fmt
  return str3 ++ "  ".toList ++ blanks str3.length

/-- lattice.py:403-416 `get_row_v_str(row, format)`. -/
def getRowVStr (lat : Lattice) (row : Nat) (fmt : Int) : Py (List Text) := (List.range lat.length).mapM (lat.rowVCell row fmt)

/-- lattice.py:307-312: one row of `view`. -/
def viewRow (lat : Lattice) (fmt : Int) (rr : Nat) : Py Text := do
  let a ← lat.getRowStr rr fmt
  let b ← lat.getRowVStr rr fmt
  return println (strListText a) ++ println (strListText b) ++ lat.rowSeparator 34

/-- lattice.py:300-315 `view(formatt)`. -/
def view (lat : Lattice) (fmt : Int) : Py Text := do
  let rows ← (List.range lat.length).mapM (lat.viewRow fmt)
  return println "format : ".toList ++ println "{site}           {horizontal bond}".toList ++ println "{vertical bond}  {               }".toList
    ++ println "The lattice : ".toList ++ println "<--VIEW BEGIN-->".toList ++ lat.rowSeparator 34 ++ rows.flatten ++ println "<--VIEW END-->".toList

/-- lattice.py:318-324 and 349-355: the first seven lines of `view_relative_index` and `view_site_gids`. -/
def viewHead : Text :=
  println "Upper Left corner is <0,0>".toList ++ println "<x,y> means relative index".toList
    ++ println "90 degree Clockwise rotated Coordinate system".toList ++ println "y value increases as we go rightward. Like columns".toList
    ++ println "x value increases as we go downward . Like rows".toList ++ println "Format 'gid<x,y>'".toList
    ++ println "<--Relative index - VIEW BEGIN-->".toList

/-- lattice.py:335-339: one entry of the table of `view_relative_index`. -/
def relCell (lat : Lattice) (rr cc : Nat) : Py Text := do
  let s ← lat.getSite (rr * lat.length + cc)
  return fmtRight 2 (intText s.gid) ++ " ".toList ++ s.rel.relStr ++ "|".toList

/-- lattice.py:333-342: one row of the table of `view_relative_index`. -/
def relRow (lat : Lattice) (rr : Nat) : Py Text := do
  let cells ← (List.range lat.length).mapM (lat.relCell rr)
  return println (fmtRight 3 (intText rr) ++ " |".toList ++ cells.flatten)

/-- lattice.py:317-346 `view_relative_index`. -/
def viewRelativeIndex (lat : Lattice) : Py Text := do
  let rows ← (List.range lat.length).mapM lat.relRow
  return viewHead ++ lat.rowSeparator 14
    ++ println (fmtRight 5 "|".toList ++ (List.range lat.length).flatMap fun cc : Nat => fmtLeft 6 (intText cc) ++ fmtRight 7 "|".toList)
    ++ lat.rowSeparator 14 ++ rows.flatten ++ lat.rowSeparator 14 ++ println "<--Relative index - VIEW END-->".toList

/-- lattice.py:366-370: one entry of the table of `view_site_gids`. -/
def gidCell (lat : Lattice) (rr cc : Nat) : Py Text := do
  let s ← lat.getSite (rr * lat.length + cc)
  return fmtRight 3 (intText s.gid) ++ "|".toList

/-- lattice.py:364-373: one row of the table of `view_site_gids`. -/
def gidRow (lat : Lattice) (rr : Nat) : Py Text := do
  let cells ← (List.range lat.length).mapM (lat.gidCell rr)
  return println (fmtRight 3 (intText rr) ++ " |".toList ++ cells.flatten)

/-- lattice.py:348-378 `view_site_gids`. -/
def viewSiteGids (lat : Lattice) : Py Text := do
  let rows ← (List.range lat.length).mapM lat.gidRow
  return viewHead ++ lat.rowSeparator 5
    ++ println (fmtRight 5 "|".toList ++ (List.range lat.length).flatMap fun cc : Nat => fmtLeft 3 (intText cc) ++ fmtRight 1 "|".toList)
    ++ lat.rowSeparator 5 ++ rows.flatten ++ lat.rowSeparator 5 ++ println "<--Relative index - VIEW END-->".toList

/-- lattice.py:62-63: one line of `list_all_sites`. -/
def siteLine (s : Site) : Text :=
  println (intText s.id ++ "   ".toList ++ intText s.gid ++ "   ".toList ++ s.index.indexStr ++ "   ".toList ++ s.rel.relStr ++ "   ".toList
    ++ intListText s.bonds)

/-- lattice.py:60-64 `list_all_sites`. -/
def listAllSites (lat : Lattice) : Text :=
  println "id, gid, index, relative_index, connecting_bond_ids".toList ++ lat.sites.flatMap siteLine

/-- lattice.py:68-69: one line of `list_all_bonds`; `get_index()` is a tuple of three ints. -/
def bondLine (b : Bond) : Text :=
  println (intText b.id ++ "   ".toList ++ intText b.gid ++ "   (".toList ++ intText b.type ++ ", ".toList ++ intText b.row ++ ", ".toList
    ++ intText b.col ++ ")   ".toList ++ intListText b.sites)

/-- lattice.py:66-70 `list_all_bonds`. -/
def listAllBonds (lat : Lattice) : Text :=
  println "id, gid, index, connecting_site_ids".toList ++ lat.bonds.flatMap bondLine

/-- lattice.py:191-196: one bond of `print_bonds`. -/
def printBond (lat : Lattice) (i : Nat) : Py Text := do
  let b ← lat.getBond i
  return (if b.sites.length ≠ 2 then println "warning : number of connected sites must be 2".toList else [])
    ++ println ("[ ".toList ++ intText i ++ " ] gid= ".toList ++ intText b.gid ++ "  id= ".toList ++ intText b.id ++ "  sites= ".toList
      ++ intListText b.sites)

/-- lattice.py:189-197 `print_bonds`. -/
def printBonds (lat : Lattice) : Py Text := do
  let ls ← (List.range lat.bondCount).mapM lat.printBond
  return println "print_bonds".toList ++ ls.flatten

/-- lattice.py:201-206: one site of `print_sites`. -/
def printSite (lat : Lattice) (i : Nat) : Py Text := do
  let s ← lat.getSite i
  return (if s.bonds.length ≠ 4 then println "warning : number of connecting bonds must be 4".toList else [])
    ++ println ("[ ".toList ++ intText i ++ " ] gid= ".toList ++ intText s.gid ++ "  id= ".toList ++ intText s.id ++ "  sites= ".toList
      ++ intListText s.bonds)

/-- lattice.py:199-207 `print_sites`. -/
def printSites (lat : Lattice) : Py Text := do
  let ls ← (List.range lat.siteCount).mapM lat.printSite
  return println "print_sites".toList ++ ls.flatten

end Lattice

/-- cluster.py:84-91 `OneCluster.view`: the printed text. -/
def OneCluster.viewText (c : OneCluster) : Text :=
  if c.isEmpty then []
  else println ("cluster [ ".toList ++ intText c.id ++ " ] (gid  ".toList ++ intText c.gid ++ " ) :{".toList)
    ++ println ("  sites (".toList ++ intText c.siteIds.length ++ ")  ".toList ++ intListText c.siteIds)
    ++ println ("  bonds (".toList ++ intText c.bondIds.length ++ ")  ".toList ++ intListText c.bondIds)
    ++ println "}".toList

/-- cluster.py:189-206 `ClusterPool.view`. -/
def ClusterPool.viewText (p : ClusterPool) : Text :=
  println "View cluster < BEGIN".toList ++ p.clusters.flatMap OneCluster.viewText ++ println "\n View cluster END >".toList
    ++ println ("Number of clusters  ".toList ++ intText (p.clusters.map OneCluster.view).sum)

namespace Perc

variable {α : Type}

/-- percolation_sq_lattice.py:37-49 `viewLattice(formatt)`. -/
def viewLattice (S : Perc α) (fmt : Int) : Py Text :=
  if fmt < 0 then .ok (println "undefined format".toList)
  else if fmt = 3 then S.lat.viewRelativeIndex
  else if fmt = 4 then S.lat.viewSiteGids
  else S.lat.view fmt

/-- percolation_sq_lattice.py:51-53 `viewCluster`. -/
def viewCluster (S : Perc α) : Text := S.pool.viewText

end Perc

end SqPerc
