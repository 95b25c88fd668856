import Lean.Data.Json
import Verif.Model.Ensemble
import Mathlib.Data.List.Dedup
import Mathlib.Tactic.Tauto
/-
Comparison of the model with data recorded from runs of the real program (a test of the model, not part of the proofs).

/repo/data_pytest has five files written by `single_realization` in 2021, with the order in which sites were placed and everything the
object reported.  This program runs the model of `test_data_json.py` (`crossReplay`) on them with double precision arithmetic and the
iteration order of CPython's small sets, and compares all reported numbers for equality (not up to a tolerance).

  cd lean; lake build Verif.Model.Ensemble; lake env lean --run Verif/Conformance.lean /repo/data_pytest/*_L5_* /repo/data_pytest/*_L10_*
The output for the five files is in conformance/RESULT.txt.
-/
open Lean

namespace SqPerc.Conformance

/-- Double precision arithmetic. -/
def floatArith : Arith Float :=
  ⟨Float.ofNat, (· + ·), (· - ·), (· * ·), (· / ·), fun x => -x, Float.log⟩

/-- Insertion into a CPython set with a table of 8 slots (Objects/setobject.c, at most four elements, so that no resize happens):
start at `hash & 7`, next slots `i = (5 i + 1 + perturb) & 7` with `perturb` shifted right by 5 each time. -/
def insertSlot (t : List (Option Int)) (x : Int) : Nat → Nat → Nat → List (Option Int)
  | 0, _, _ => t
  | fuel + 1, i, perturb =>
    match t[i]? with
    | some none => t.set i (some x)
    | some (some y) => if x = y then t else insertSlot t x fuel ((i * 5 + 1 + perturb / 32) % 8) (perturb / 32)
    | none => t

def cpythonOrder (l : List Int) : List Int :=
  (l.foldl (fun t x => let h := if x = -1 then 2 ^ 64 - 2 else x.toNat; insertSlot t x 100 (h % 8) h) (List.replicate 8 none)).filterMap id

def cpythonSet : SetOrder where
  iter l := (l ++ ((cpythonOrder l).filter (· ∈ l)).reverse).dedup.reverse
  iter_nodup l := List.nodup_reverse.2 (List.nodup_dedup _)
  iter_mem l x := by
    rw [List.mem_reverse, List.mem_dedup, List.mem_append, List.mem_reverse, List.mem_filter]
    simp only [decide_eq_true_eq]
    tauto

def maxDiff (xs ys : List Float) : Float := (List.zipWith (fun a b => (a - b).abs) xs ys).foldl max 0

def readFile (p : String) : IO (Nat × CrossFile Float) := do
  let t ← IO.FS.readFile p
  let j ← IO.ofExcept (Json.parse t)
  let nat (k : String) : IO Nat := IO.ofExcept (j.getObjValAs? Nat k)
  let floats (k : String) : IO (List Float) := do
    let a ← IO.ofExcept (j.getObjValAs? (Array JsonNumber) k)
    return (a.map (·.toFloat)).toList
  let ids ← IO.ofExcept (j.getObjValAs? (Array Nat) "site_id_sequence")
  let idxs ← IO.ofExcept (j.getObjValAs? (Array (Array Int)) "site_index_sequence")
  let pc ← IO.ofExcept (j.getObjValAs? JsonNumber "pc")
  return (← nat "length", ⟨ids.toList, (idxs.map (·.toList)).toList, pc.toFloat, ← nat "site_count_wrapping_cluster_pc",
    ← nat "bond_count_wrapping_cluster_pc", ← floats "entropy_list", ← floats "order_largest_list", ← floats "order_wrapping_list"⟩)

end SqPerc.Conformance

open SqPerc SqPerc.Conformance in
/-- Compares the files given on the command line. -/
def main (args : List String) : IO Unit := do
  for p in args do
    let (L, f) ← readFile p
    match crossReplay ⟨cpythonSet, floatArith⟩ L (fun _ => 0) (fun _ => 0) f (L * L + 1) (fun _ => ⟨0, 0⟩) with
    | .error _ => IO.println s!"{p}: raises"
    | .ok g =>
      let lens := [g.entropyList.length, g.orderLargestList.length, g.orderWrappingList.length, f.entropyList.length, f.orderLargestList.length, f.orderWrappingList.length]
      IO.println s!"L={L} pc {f.pc == g.pc} sites {f.siteCount == g.siteCount} bonds {f.bondCount == g.bondCount} largest equal {f.orderLargestList == g.orderLargestList} wrapping equal {f.orderWrappingList == g.orderWrappingList} entropy equal {f.entropyList == g.entropyList}, max difference {maxDiff f.entropyList g.entropyList} lengths {lens}"
