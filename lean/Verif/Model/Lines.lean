import Verif.Model.Misc
import Mathlib.Algebra.Field.Defs
/-
source_py/analyze/lines.py: the lines drawn beside the curves and the plotting variant of `find_intersection`.  Numbers are elements of an
ordered field instead of floats.
-/
namespace SqPerc

section
variable {K : Type} [Field K]

/-- `np.linspace(a, b, n)`: `arange(0, n) * step + a` with `step = (b - a) / (n - 1)`, the last element replaced by `b` if there are at least two;
ValueError for a negative number of points. -/
def npLinspace (a b : K) (n : Int) : Py (List K) :=
  if n < 0 then .error .valueError
  else .ok ((List.range n.toNat).map fun i => if 2 ≤ n.toNat ∧ i + 1 = n.toNat then b else i * ((b - a) / ((n - 1 : Int) : K)) + a)

/-- `np.ones(n)`; ValueError for a negative number. -/
def npOnes (n : Int) : Py (List K) := if n < 0 then .error .valueError else .ok (List.replicate n.toNat 1)

/-- lines.py:4-14 `draw_vertical_line_at(xval, yrange, size)`: the pair `xx, yy`.  `yrange` is a tuple or a list of numbers. -/
def drawVerticalLineAt (xval : K) (yrange : List K) (size : Int) : Py (List K × List K) := do
  let a ← pyGetI yrange 0
  let b ← pyGetI yrange 1
  let yy ← npLinspace a b size
  let ones ← npOnes size
  return (ones.map (xval * ·), yy)

/-- lines.py:17-27 `draw_horizontal_line_at(yval, xrange, size)`: the pair `xx, yy`. -/
def drawHorizontalLineAt (yval : K) (xrange : List K) (size : Int) : Py (List K × List K) := do
  let a ← pyGetI xrange 0
  let b ← pyGetI xrange 1
  let xx ← npLinspace a b size
  let ones ← npOnes size
  return (xx, ones.map (yval * ·))

/-- lines.py:4: the default values of `yrange` and `size` of `draw_vertical_line_at`. -/
def verticalDefaults : List K × Int := ([0, 1], 100)

/-- lines.py:17: the default values of `xrange` and `size` of `draw_horizontal_line_at`. -/
def horizontalDefaults : List K × Int := ([], 100)

end

section
variable {α : Type} [AddCommGroup α] [LinearOrder α]

/-- lines.py:47-67 `find_intersection_and_plot(line1, line2, col=None, ax)`: the curves passed to `ax.plot`, as far as they are drawn, and the
result.  `axes = false` stands for `ax=None`. -/
def findIntersectionAndPlot (x1 x2 : List α) (axes : Bool) : List (List Nat × List Int) × Py Nat :=
  match npSub x1 x2 with
  | .error e => ([], .error e)
  | .ok d =>
    if axes then
      let ii := List.range d.length
      let sg := d.map npSign
      let dx := npDiff sg
      ([(ii, sg), (ii.drop 1, dx)], npArgmax (dx.map Int.natAbs))
    else ([], .error .attributeError)

end

end SqPerc
