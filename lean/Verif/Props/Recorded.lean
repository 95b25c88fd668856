import Verif.Props.Demo
import Verif.Model.Ensemble
/-
The smallest of the five data files of /repo/data_pytest, written by a run of the real program, checked against the model by evaluation
in the kernel: a test of the model, not a claim.  The numbers are compared as exact fractions (the decimals of the files are the exact values
`n / L²` and `n / 2L²` for this length).  The entropies cannot be compared this way; Verif/Conformance.lean compares them, and the larger
files, in double precision.
-/
namespace SqPerc

/-- Fractions; only `ofNat` and `div` of two literals are used by the numbers that are compared. -/
def fracArith : Arith (Nat × Nat) := ⟨fun n => (n, 1), fun a _ => a, fun a _ => a, fun a _ => a, fun a b => (a.1, b.1), id, id⟩

/-- The fractions have the same value. -/
def sameFrac (a b : Nat × Nat) : Bool := a.1 * b.2 == a.2 * b.1

def sameFracs : List (Nat × Nat) → List (Nat × Nat) → Bool
  | [], [] => true
  | a :: as, b :: bs => sameFrac a b && sameFracs as bs
  | _, _ => false

/-- test_data_json.py:38-60 without the comparison of the entropies; also the recorded ids are compared with the recorded indices. -/
def recordedOk (L : Nat) (f : CrossFile (Nat × Nat)) : Bool :=
  match crossReplay ⟨demoSet, fracArith⟩ L (fun _ => 0) (fun _ => 0) f (L * L + 1) (fun _ => ⟨0, 0⟩) with
  | .error _ => false
  | .ok g => sameFrac f.pc g.pc && f.siteCount == g.siteCount && f.bondCount == g.bondCount && sameFracs f.orderLargestList g.orderLargestList &&
    sameFracs f.orderWrappingList g.orderWrappingList && (f.siteIdSequence.map fun (s : Nat) => [((s / L : Nat) : Int), ((s % L : Nat) : Int)]) == f.siteIndexSequence

/-- data_pytest/SitePercolationL0__percolation_cross_check_data_L5_20210329_192337.txt (without the entropies). -/
def recorded5 : CrossFile (Nat × Nat) where
  siteIdSequence := [20, 18, 14, 21, 8, 9, 10, 2, 0, 6, 12, 4, 15, 23, 22, 5, 19, 13, 17, 11, 24, 3, 7, 1, 16]
  siteIndexSequence := [[4, 0], [3, 3], [2, 4], [4, 1], [1, 3], [1, 4], [2, 0], [0, 2], [0, 0], [1, 1], [2, 2], [0, 4], [3, 0], [4, 3], [4, 2],
    [1, 0], [3, 4], [2, 3], [3, 2], [2, 1], [4, 4], [0, 3], [1, 2], [0, 1], [3, 1]]
  pc := (52, 100)
  siteCount := 9
  bondCount := 27
  entropyList := []
  orderLargestList := [(8, 100), (8, 100), (8, 100), (14, 100), (14, 100), (2, 10), (26, 100), (26, 100), (26, 100), (26, 100), (26, 100), (5, 10),
    (54, 100), (54, 100), (78, 100), (86, 100), (88, 100), (96, 100), (98, 100), (10, 10), (10, 10), (10, 10), (10, 10),
    (10, 10), (10, 10)]
  orderWrappingList := [(0, 10), (0, 10), (0, 10), (0, 10), (0, 10), (0, 10), (0, 10), (0, 10), (0, 10), (0, 10), (0, 10), (0, 10), (54, 100),
    (54, 100), (78, 100), (86, 100), (88, 100), (96, 100), (98, 100), (10, 10), (10, 10), (10, 10), (10, 10), (10, 10), (10, 10)]

example : recordedOk 5 recorded5 = true := by decide +kernel

/-- A recorded number that were different would be noticed. -/
example : recordedOk 5 { recorded5 with bondCount := 26 } = false := by decide +kernel

end SqPerc
