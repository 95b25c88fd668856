import Verif.Spec.Text
import Mathlib.Algebra.Order.Field.Rat
/-
Reading decimal numbers and tables of them.
-/
namespace SqPerc

/-- The value of a non-empty string of digits. -/
def readNat (t : List Char) : Option Nat := if t ≠ [] ∧ t.all Char.isDigit = true then some (Nat.ofDigitChars 10 t 0) else none

/-- An integer with a mandatory sign. -/
def readSigned : List Char → Option Int
  | '+' :: t => (readNat t).map fun n : Nat => (n : Int)
  | '-' :: t => (readNat t).map fun n : Nat => -(n : Int)
  | _ => none

/-- `digits . digits e sign digits`. -/
def readSci (t : List Char) : Option ℚ :=
  match fields 'e' t with
  | [m, x] => match fields '.' m with
    | [a, b] => match readNat (a ++ b), readSigned x with
      | some n, some e => some ((n : ℚ) * 10 ^ (e - (b.length : Int)))
      | _, _ => none
    | _ => none
  | _ => none

/-- The number written by a text in scientific notation. -/
def readDecimal : List Char → Option ℚ
  | '-' :: t => (readSci t).map fun x => -x
  | t => readSci t

/-- The table written in a text: lines that start with `#` and empty lines are skipped, the entries of a row are separated by blanks. -/
def readTable (t : List Char) : Option (List (List ℚ)) :=
  ((lines t).filter fun l => l ≠ [] ∧ l.head? ≠ some '#').mapM fun l => (fields ' ' l).mapM readDecimal

-- samples
example : readDecimal "-1.5e-01".toList = some (-3 / 20) := by decide +kernel

end SqPerc
