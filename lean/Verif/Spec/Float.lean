import Verif.Spec.Decimal
/-
Reading numbers in decimal notation, with or without a fraction and an exponent.
-/
namespace SqPerc

/-- An integer with an optional sign. -/
def readExponent : List Char → Option Int
  | '+' :: t => (readNat t).map fun n : Nat => (n : Int)
  | '-' :: t => (readNat t).map fun n : Nat => -(n : Int)
  | t => (readNat t).map fun n : Nat => (n : Int)

/-- `digits` or `digits . digits`, times a power of ten. -/
def readMantissa (t : List Char) (e : Int) : Option ℚ :=
  match fields '.' t with
  | [a] => (readNat a).map fun n : Nat => (n : ℚ) * 10 ^ e
  | [a, b] => (readNat (a ++ b)).map fun n : Nat => (n : ℚ) * 10 ^ (e - (b.length : Int))
  | _ => none

/-- A number without a sign. -/
def readNumber (t : List Char) : Option ℚ :=
  match fields 'e' t with
  | [m] => readMantissa m 0
  | [m, x] => (readExponent x).bind (readMantissa m)
  | _ => none

-- samples
example : readNumber "12.50".toList = some (25 / 2) ∧ readNumber "5e-324".toList = some (5 * 10 ^ (-324 : Int)) ∧ readNumber "7".toList = some 7 ∧
    readNumber "1.5e+16".toList = some 15000000000000000 ∧ readNumber "1.2.3".toList = none ∧ readNumber "".toList = none := by decide +kernel

end SqPerc
