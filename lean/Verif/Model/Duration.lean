import Verif.Model.Misc
import Verif.Model.Table
/-
The line printed by `print_duration` (main.py:47-52).
-/
namespace SqPerc

/-- `"{:.4f}".format(x)`: correctly rounded to four digits after the point, ties to even; a negative number keeps its sign.  (`-0.0` is not
modelled.) -/
def fmtF4 (x : ℚ) : Text :=
  let n := (roundEven (|x| * 10000)).toNat
  (if x < 0 then ['-'] else []) ++ intText ((n / 10000 : Nat) : Int) ++ ['.'] ++ (pad 4 (n % 10000)).toList

/-- main.py:47-52 `print_duration(total_time_spent)`: what it prints.  The time is an exact rational; for floats below 2^53 both subtractions
are exact (the difference is a multiple of the last place of the time, and smaller). -/
def durationText (t : ℚ) : Text :=
  let (hhh, mmm, sss) := printDuration t
  println ("Total time elapsed ".toList ++ intText hhh ++ "h ".toList ++ intText mmm ++ "m ".toList ++ fmtF4 sss ++ "s".toList)

end SqPerc
