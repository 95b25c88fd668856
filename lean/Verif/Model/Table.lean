import Verif.Model.Launch
import Verif.Model.Output
import Mathlib.Data.Int.Log
/-
The text of the table files: `np.savetxt(filename, data, fmt="%.10e", header=header_str)` (run_py/ensemble.py:72, 93, 154;
run_py/shortest_path_run.py:46).  The numbers are elements of an ordered field (a finite `float` is a rational number); infinities, NaN and
`-0.0` are in `Model/Double`.
-/
namespace SqPerc

variable {K : Type} [Field K] [LinearOrder K] [IsStrictOrderedRing K] [FloorRing K]

/-- Rounding to the nearest integer, ties to even. -/
def roundEven (x : K) : Int :=
  if Int.fract x < 1 / 2 then ⌊x⌋ else if 1 / 2 < Int.fract x then ⌊x⌋ + 1 else if ⌊x⌋ % 2 = 0 then ⌊x⌋ else ⌊x⌋ + 1

/-- The eleven digits (as one number) and the decimal exponent that `%.10e` prints for a positive number: correctly rounded; if rounding gives
one digit too many the exponent goes up. -/
def sciParts (x : K) : Nat × Int :=
  let e := Int.log 10 x
  let m := (roundEven (x * 10 ^ (10 - e))).toNat
  if m = 10 ^ 11 then (10 ^ 10, e + 1) else (m, e)

/-- The exponent in `%e`: a sign and at least two digits. -/
def expText (e : Int) : Text := (if e < 0 then '-' else '+') :: (pad 2 e.natAbs).toList

/-- The digits with the point after the first one, and the exponent. -/
def sciText (m : Nat) (e : Int) : Text := match Nat.toDigits 10 m with
  | [] => []
  | c :: cs => c :: '.' :: cs ++ 'e' :: expText e

/-- `"%.10e" % x`. -/
def fmtE (x : K) : Text :=
  if x < 0 then '-' :: sciText (sciParts (-x)).1 (sciParts (-x)).2
  else if x = 0 then "0.0000000000e+00".toList
  else sciText (sciParts x).1 (sciParts x).2

/-- Strings joined by a separator. -/
def joinText (sep : Text) : List Text → Text
  | [] => []
  | [t] => t
  | t :: ts => t ++ sep ++ joinText sep ts

/-- `np.savetxt`: the header, after `# `, on the first line (a line break in it would be followed by another `# `; `json.dumps` writes none),
then one line per row, the numbers, printed by `fmt`, separated by blanks. -/
def saveWith {α : Type} (fmt : α → Text) (header : Text) (rows : List (List α)) : Text :=
  println ("# ".toList ++ header) ++ rows.flatMap fun row => println (joinText [' '] (row.map fmt))

/-- `np.savetxt` with `fmt="%.10e"`. -/
def saveText (header : Text) (rows : List (List K)) : Text := saveWith fmtE header rows

/-- The array that is given to `np.savetxt`: the averaged table, or the collected rows (ensemble.py:23-26, 181-184; shortest_path_run.py:72-74)
converted to an array of floats.  (The cross-check file is not written with `np.savetxt`.) -/
def FileData.rows {α : Type} (env : Env α) : FileData α → List (List α)
  | .table _ rows => rows
  | .critical _ rows => rows.map fun r => [r.pc, env.ar.ofNat r.sites, env.ar.ofNat r.bonds]
  | .path _ rows => rows.map fun r => [r.1, r.2]
  | .cross _ => []

end SqPerc
