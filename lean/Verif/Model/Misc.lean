import Verif.Model.Py
import Mathlib.Algebra.Order.Group.Defs
import Mathlib.Order.Defs.LinearOrder
import Mathlib.Data.Rat.Floor
/-
source_py/analyze/lines.py `find_intersection`, main.py `print_duration`
-/
namespace SqPerc

section lines
variable {α : Type} [AddCommGroup α] [LinearOrder α]

/-- `np.sign`. -/
def npSign (x : α) : Int := if x < 0 then -1 else if 0 < x then 1 else 0

/-- numpy `x1 - x2` on one-dimensional arrays: equal lengths, or a one-element array is broadcast; ValueError otherwise. -/
def npSub (x1 x2 : List α) : Py (List α) :=
  if x1.length = x2.length then .ok (List.zipWith (· - ·) x1 x2)
  else match x1, x2 with
    | [a], l => .ok (l.map fun b => a - b)
    | l, [b] => .ok (l.map fun a => a - b)
    | _, _ => .error .valueError

/-- `np.diff`: differences of consecutive elements. -/
def npDiff : List Int → List Int
  | a :: b :: rest => (b - a) :: npDiff (b :: rest)
  | _ => []

/-- `np.argmax` on non-negative numbers, continuing after the first element: `best` is the maximum so far, at position `pos`;
`i` is the position of the next element. -/
def argmaxFrom : List Nat → Nat → Nat → Nat → Nat
  | [], _, _, pos => pos
  | x :: xs, i, best, pos => if best < x then argmaxFrom xs (i + 1) x i else argmaxFrom xs (i + 1) best pos

/-- `np.argmax`: the first position of the maximum; ValueError on an empty array. -/
def npArgmax : List Nat → Py Nat
  | [] => .error .valueError
  | x :: xs => .ok (argmaxFrom xs 1 x 0)

/-- lines.py:30-44 `find_intersection(line1, line2)` with `col=None`. -/
def findIntersection (x1 x2 : List α) : Py Nat := do
  let d ← npSub x1 x2
  npArgmax ((npDiff (d.map npSign)).map Int.natAbs)

/-- lines.py:30-44 `find_intersection(line1, line2, col)` on two-dimensional arrays given as lists of rows. -/
def findIntersectionCol (l1 l2 : List (List α)) (col : Int) : Py Nat := do
  let x1 ← l1.mapM fun row => pyGetI row col
  let x2 ← l2.mapM fun row => pyGetI row col
  findIntersection x1 x2

end lines

/-- Python `int(x)`: truncation towards zero. -/
def pyInt (x : ℚ) : Int := if 0 ≤ x then ⌊x⌋ else ⌈x⌉

/-- main.py:47-52 `print_duration`: the three printed numbers (before formatting).  The time is an exact rational instead of a float. -/
def printDuration (t : ℚ) : Int × Int × ℚ :=
  let hhh := Int.fdiv (pyInt t) 3600
  let t := t - hhh * 3600
  let mmm := Int.fdiv (pyInt t) 60
  let sss := t - mmm * 60
  (hhh, mmm, sss)

end SqPerc
