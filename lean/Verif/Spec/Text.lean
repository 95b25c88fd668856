/-
Reading a printed text: its lines and the integers written in it.
-/
namespace SqPerc

/-- The pieces of a text between the occurrences of `sep`. -/
def fields (sep : Char) : List Char → List (List Char)
  | [] => [[]]
  | c :: t => if c = sep then [] :: fields sep t else
    match fields sep t with
    | [] => [[c]]
    | f :: fs => (c :: f) :: fs

/-- The lines of a text. -/
def lines (t : List Char) : List (List Char) := fields '\n' t

/-- Characters of which numbers are made. -/
def isNum (c : Char) : Bool := c.isDigit || c == '-'

/-- The maximal runs of digits and minus signs; `cur` is the run being read. -/
def runs : List Char → List Char → List (List Char)
  | cur, [] => if cur = [] then [] else [cur]
  | cur, c :: t => if isNum c then runs (cur ++ [c]) t else if cur = [] then runs [] t else cur :: runs [] t

/-- The value of a run. -/
def runValue : List Char → Int
  | '-' :: ds => -(Nat.ofDigitChars 10 ds 0 : Int)
  | ds => (Nat.ofDigitChars 10 ds 0 : Int)

/-- The integers written in a text, from left to right. -/
def numbers (t : List Char) : List Int := (runs [] t).map runValue

-- a sample
example : numbers "  3 |  0| -1| 12|".toList = [3, 0, -1, 12] := by decide +kernel

example : lines "ab\ncd\n".toList = ["ab".toList, "cd".toList, []] := by decide +kernel

end SqPerc
