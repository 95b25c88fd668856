import Verif.Model.Double
import Verif.Model.Json
import Verif.Spec.Float
/-
Writing and reading Python's floats in JSON: `float.__repr__`, which `json.dumps` uses (run_py/rsbd_percolatioin_run.py:53), and `float(…)`, which
`json.loads` uses (test_py/test_data_json.py:24).
-/
namespace SqPerc
namespace Dbl
open Classical

/-- The exponent of the last of `n` digits of a positive number. -/
noncomputable def lastExp (x : ℝ) (n : Nat) : ℤ := Int.log 10 x + 1 - n

/-- The number with `n` digits that is printed for the positive double `x` if `n` digits are enough: the one nearest to `x` if it reads back as `x`,
else the other one next to `x` if that does.  (CPython's `repr` takes the shortest string of digits that reads back as `x`, and of these the one
closest to `x`.) -/
noncomputable def digitsOf (x : ℝ) (n : Nat) : Option ℤ :=
  let q := lastExp x n
  let y := x * 10 ^ (-q)
  if nearest ((roundEven y : ℝ) * 10 ^ q) = x then some (roundEven y)
  else if nearest ((⌊y⌋ : ℝ) * 10 ^ q) = x then some ⌊y⌋
  else if nearest ((⌈y⌉ : ℝ) * 10 ^ q) = x then some ⌈y⌉
  else none

/-- The digits (as one number), how many there are, and the exponent of the last one: the fewest digits that are enough; 17 always are.  If
rounding gives one digit too many the exponent goes up. -/
noncomputable def shortest (x : ℝ) : Nat × Nat × ℤ :=
  match (List.range 17).findSome? fun i => (digitsOf x (i + 1)).map fun m => (m, i + 1) with
  | none => (0, 0, 0)
  | some (m, n) => if m = 10 ^ n then (10 ^ (n - 1), n, lastExp x n + 1) else (m.toNat, n, lastExp x n)

end Dbl

/-- Digits with the decimal point at place `d` (the number is `0.digits` times `10 ^ d`): with an exponent if `d` is -4 or less, or more than 16. -/
def pointText (ds : Text) (d : ℤ) : Text :=
  if d ≤ -4 ∨ 16 < d then
    match ds with
    | [] => []
    | [c] => c :: 'e' :: expText (d - 1)
    | c :: cs => c :: '.' :: cs ++ 'e' :: expText (d - 1)
  else if d ≤ 0 then '0' :: '.' :: List.replicate d.natAbs '0' ++ ds
  else if ds.length ≤ d.natAbs then ds ++ List.replicate (d.natAbs - ds.length) '0' ++ ['.', '0']
  else ds.take d.natAbs ++ '.' :: ds.drop d.natAbs

namespace Dbl
open Classical

/-- The text of a positive double. -/
noncomputable def reprPos (x : ℝ) : Text := pointText (Nat.toDigits 10 (shortest x).1) ((shortest x).2.1 + (shortest x).2.2)

/-- `float.__repr__` as `json.dumps` writes it. -/
noncomputable def repr : Dbl → Text
  | fin x _ => if x < 0 then '-' :: reprPos (-x) else if x = 0 then "0.0".toList else reprPos x
  | nzero => "-0.0".toList
  | inf s => if s then "-Infinity".toList else "Infinity".toList
  | nan => "NaN".toList

/-- `float(text)`: the number that is written, correctly rounded. -/
noncomputable def ofText : Text → Option Dbl
  | '-' :: t => (readNumber t).map fun q : ℚ => round true (-(q : ℝ))
  | t => (readNumber t).map fun q : ℚ => round false (q : ℝ)

/-- `abs(pc - pc_tmp) < 1e-6` (test_data_json.py:47); comparisons with NaN are false. -/
noncomputable def near (x y : Dbl) : Bool := decide ((x.sub y).Finite ∧ |(x.sub y).val| < nearest (1 / 10 ^ 6))

end Dbl

end SqPerc
