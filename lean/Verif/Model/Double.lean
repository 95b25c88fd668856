import Verif.Model.Table
import Mathlib.Data.Real.Basic
import Mathlib.Data.Int.Log
import Mathlib.Analysis.SpecialFunctions.Log.Basic
/-
Python's `float`: IEEE 754 binary64 numbers, with signed zeros, infinities and NaN, rounding to nearest, ties to even.  These are the numbers in
`entropy_value`, `H`, `mu`, the lists of results (source_py/simulation/percolation_sq_lattice.py:140, 410-460, 527-560) and the arrays of the drivers
(run_py/ensemble.py:23-41, 181-201; numpy's float64 is the same format).
-/
namespace SqPerc

/-- The finite doubles as real numbers: an integer of at most 53 bits times a power of two with exponent between -1074 and 971. -/
def IsDbl (x : ℝ) : Prop := ∃ m e : ℤ, |m| < 2 ^ 53 ∧ -1074 ≤ e ∧ e ≤ 971 ∧ x = m * 2 ^ e

/-- A Python `float`.  `fin 0` is `0.0`, `nzero` is `-0.0`, `inf true` is `-inf`. -/
inductive Dbl
  | fin (x : ℝ) (h : IsDbl x)
  | nzero
  | inf (neg : Bool)
  | nan

namespace Dbl
open Classical

/-- The number meant; infinities and NaN have none (0 is a placeholder). -/
def val : Dbl → ℝ
  | fin x _ => x
  | _ => 0

/-- Neither an infinity nor NaN. -/
def Finite : Dbl → Prop
  | fin _ _ => True
  | nzero => True
  | _ => False

/-- The sign bit. -/
noncomputable def neg? : Dbl → Bool
  | fin x _ => decide (x < 0)
  | nzero => true
  | inf s => s
  | nan => false

theorem zero_isDbl : IsDbl 0 := ⟨0, 0, by norm_num, by norm_num, by norm_num, by norm_num⟩

theorem neg_isDbl {x : ℝ} (h : IsDbl x) : IsDbl (-x) := by
  obtain ⟨m, e, h1, h2, h3, rfl⟩ := h
  exact ⟨-m, e, by rwa [abs_neg], h2, h3, by push_cast; ring⟩

/-- A zero with the given sign. -/
noncomputable def zero (s : Bool) : Dbl := if s then nzero else fin 0 zero_isDbl

/-- The exponent of the unit in the last place of a number of the size of `x`. -/
noncomputable def unitExp (x : ℝ) : ℤ := max (Int.log 2 |x| - 52) (-1074)

/-- `x` rounded to a multiple of that unit. -/
noncomputable def nearest (x : ℝ) : ℝ := (roundEven (x * 2 ^ (-unitExp x)) : ℝ) * 2 ^ unitExp x

/-- Rounding of the exact result of an operation; `s` is the sign of the result if it is rounded to zero or to infinity. -/
noncomputable def round (s : Bool) (x : ℝ) : Dbl :=
  if nearest x = 0 then zero s else if h : IsDbl (nearest x) then fin (nearest x) h else inf s

/-- `x + y`. -/
noncomputable def add : Dbl → Dbl → Dbl
  | nan, _ => nan
  | _, nan => nan
  | inf s, inf t => if s = t then inf s else nan
  | inf s, _ => inf s
  | _, inf t => inf t
  | x, y => if x.val + y.val = 0 then zero (x.neg? && y.neg?) else round (decide (x.val + y.val < 0)) (x.val + y.val)

/-- `-x`. -/
noncomputable def neg : Dbl → Dbl
  | fin x h => if x = 0 then nzero else fin (-x) (neg_isDbl h)
  | nzero => fin 0 zero_isDbl
  | inf s => inf !s
  | nan => nan

/-- `x - y`. -/
noncomputable def sub (x y : Dbl) : Dbl := x.add y.neg

/-- `x * y`. -/
noncomputable def mul : Dbl → Dbl → Dbl
  | nan, _ => nan
  | _, nan => nan
  | inf s, y => match y with
    | inf t => inf (s ^^ t)
    | y => if y.val = 0 then nan else inf (s ^^ y.neg?)
  | x, inf t => if x.val = 0 then nan else inf (x.neg? ^^ t)
  | x, y => round (x.neg? ^^ y.neg?) (x.val * y.val)

/-- `x / y`.  (Python raises ZeroDivisionError for a zero denominator; the value `nan` here is a placeholder, the program never divides by zero.) -/
noncomputable def div : Dbl → Dbl → Dbl
  | nan, _ => nan
  | _, nan => nan
  | inf s, y => match y with
    | inf _ => nan
    | y => inf (s ^^ y.neg?)
  | x, inf t => zero (x.neg? ^^ t)
  | x, y => if y.val = 0 then nan else round (x.neg? ^^ y.neg?) (x.val / y.val)

/-- `float(n)`; integers up to `2⁵³` are exact. -/
noncomputable def ofNat (n : Nat) : Dbl := round false n

/-- The arithmetic of Python's floats; `lg` is `math.log`, which the C library provides.  (The code divides integers, e.g. percolation_sq_lattice.py:527;
Python rounds the exact quotient once, which is the same as long as the integers are at most `2⁵³`.) -/
noncomputable def arith (lg : Dbl → Dbl) : Arith Dbl := ⟨ofNat, add, sub, mul, div, neg, lg⟩

/-- What is assumed of `math.log`: on positive finite numbers the result is finite and has a relative error of at most `u`. -/
def GoodLog (lg : Dbl → Dbl) (u : ℝ) : Prop :=
  ∀ x, x.Finite → 0 < x.val → (lg x).Finite ∧ |(lg x).val - Real.log x.val| ≤ u * |Real.log x.val|

/-- `"%.10e" % x`. -/
noncomputable def fmt : Dbl → Text
  | fin x _ => fmtE x
  | nzero => "-0.0000000000e+00".toList
  | inf s => if s then "-inf".toList else "inf".toList
  | nan => "nan".toList

end Dbl

end SqPerc
