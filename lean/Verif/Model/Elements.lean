import Verif.Model.Py
/-
source_py/simulation/index.py, element.py, site.py, bond.py, states.py
-/
namespace SqPerc

/-- index.py:4-53 `Index` and index.py:55-112 `RelativeIndex`: a pair of ints `component_1` (row / x) and `component_2` (column / y).
Simplification: the two classes share one record; the class tag matters only in `Lattice.calculate_id_from_index`
(lattice.py:44-58), where it is an explicit argument.  The coercion `int(row)` of non-int arguments is not modelled. -/
structure Idx where
  c1 : Int
  c2 : Int
  deriving DecidableEq, Repr

namespace Idx

/-- index.py:23-28 `Index.__add__` (inherited by `RelativeIndex`). -/
def add (a b : Idx) : Idx := ⟨a.c1 + b.c1, a.c2 + b.c2⟩

/-- index.py:18-21 `Index.__sub__`, index.py:91-109 `RelativeIndex.__sub__`. -/
def sub (a b : Idx) : Idx := ⟨a.c1 - b.c1, a.c2 - b.c2⟩

/-- index.py:41-49 `Index.normalize`: divides the single non-zero component by its absolute value (`//` is floor division);
any other index is left alone. -/
def normalize (a : Idx) : Idx :=
  if a.c1 = 0 ∧ a.c2 ≠ 0 then ⟨a.c1, Int.fdiv a.c2 a.c2.natAbs⟩
  else if a.c1 ≠ 0 ∧ a.c2 = 0 then ⟨Int.fdiv a.c1 a.c1.natAbs, a.c2⟩
  else a

/-- index.py:66-68 `RelativeIndex()` default `(0, 0)`. -/
def zero : Idx := ⟨0, 0⟩

end Idx

/-- states.py:5-8 `SelectionState`. -/
inductive SelectionState
  | success
  | currentSiteNotEmpty
  | emptySiteList
  deriving DecidableEq, Repr

/-- site.py:5-15 `Site` with the fields inherited from element.py:2-6 `Element`.
`id` is set right after construction (lattice.py:31-32), so it is not optional here. -/
structure Site where
  id : Nat
  gid : Int
  index : Idx
  rel : Idx
  bonds : List Nat
  nn1 : Int
  nn2 : Int
  deriving DecidableEq, Repr

namespace Site

/-- site.py:6-15 `Site.__init__(row, col)` followed by element.py:12-13 `set_id(id)`; element.py:3-6 `g_id = -1`. -/
def new (row col : Nat) (id : Nat) : Site :=
  { id := id, gid := -1, index := ⟨row, col⟩, rel := Idx.zero, bonds := [], nn1 := 4, nn2 := 4 }

/-- site.py:17-23 `Site.reset` and element.py:8-10 `Element.reset`: id, index and connecting bonds are kept. -/
def reset (s : Site) : Site := { s with gid := -1, rel := Idx.zero, nn1 := 4, nn2 := 4 }

/-- site.py:73-74 `is_occupied`. -/
def isOccupied (s : Site) : Bool := decide (0 ≤ s.gid)

/-- site.py:45-49 `reduce_1st_nn`. -/
def reduceNn1 (s : Site) : Py Site :=
  if s.nn1 ≤ 0 then do
    pyAssert (decide (s.nn1 ≥ 0))
    return s
  else return { s with nn1 := s.nn1 - 1 }

/-- site.py:51-55 `reduce_2st_directional_nn`. -/
def reduceNn2 (s : Site) : Py Site :=
  if s.nn2 ≤ 0 then do
    pyAssert (decide (s.nn2 ≥ 0))
    return s
  else return { s with nn2 := s.nn2 - 1 }

/-- site.py:57-63 `is_removable(type)`. -/
def isRemovable (s : Site) (type : Nat) : Bool :=
  if type = 1 then decide (s.nn1 = 0)
  else if type = 2 then decide (s.nn2 = 0)
  else false

/-- site.py:90-103 `add_connecting_bond(bond_id)` with a list argument: ignored if the site already has four bonds or the list has not
length four. -/
def addConnectingBonds (s : Site) (bs : List Nat) : Site :=
  if 4 ≤ s.bonds.length then s
  else if bs.length = 4 then { s with bonds := s.bonds ++ bs }
  else s

/-- site.py:108-110 `init_relative_index`. -/
def initRel (s : Site) : Site := { s with rel := ⟨0, 0⟩ }

end Site

/-- bond.py:4-17 `Bond`; `type` 0 is horizontal, 1 is vertical. -/
structure Bond where
  id : Nat
  gid : Int
  row : Nat
  col : Nat
  type : Nat
  sites : List Nat
  deriving DecidableEq, Repr

namespace Bond

/-- bond.py:5-17 `Bond.__init__(row, col, type)` followed by `set_id(id)` (element.py:12-13). -/
def new (row col type : Nat) (id : Nat) : Bond :=
  { id := id, gid := -1, row := row, col := col, type := type, sites := [] }

/-- bond.py:19-22 `Bond.reset`. -/
def reset (b : Bond) : Bond := { b with gid := -1 }

/-- bond.py:24-28 `get_index`. -/
def getIndex (b : Bond) : List Int := [b.type, b.row, b.col]

/-- bond.py:58-70 `add_connected_site(site_id)` with an int argument: ignored if two sites are already listed. -/
def addConnectedSite (b : Bond) (s : Nat) : Bond :=
  if 2 ≤ b.sites.length then b else { b with sites := b.sites ++ [s] }

end Bond

end SqPerc
