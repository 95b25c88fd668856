import Verif.Spec.Torus
import Mathlib.Data.Finset.Lattice.Fold
/-
Specification of the quantities reported for a sequence of occupied sites.  Nothing here refers to the code.
-/
namespace SqPerc

open Classical in
/-- The first site of the sequence whose occupation makes the configuration wrap, together with the sites occupied before it; `pre` are
the sites already occupied. -/
noncomputable def firstWrap (L : Nat) : List Nat → List Nat → Option (List Nat × Nat)
  | _, [] => none
  | pre, k :: rest => if Wraps L (· ∈ pre ++ [k]) then some (pre, k) else firstWrap L (pre ++ [k]) rest

/-- Number of bonds of the largest component after occupying the sites of `seq` (0 when there is none). -/
noncomputable def seqLargest (L : Nat) (seq : List Nat) : Nat :=
  if seq = [] then 0 else (bondComps L (· ∈ seq)).sup Finset.card

/-- Number of bonds of the component containing the site that closed the first loop; 0 before that.  (On lattices with `L ≤ 2` the code
does not see loops.) -/
noncomputable def seqWrapping (L : Nat) (seq : List Nat) : Nat :=
  if L < 3 then 0
  else match firstWrap L [] seq with
    | some (_, k) => (bondComp L (· ∈ seq) (bondAt L k .right)).card
    | none => 0

/-- Whether a loop has been closed by occupying the sites of `seq` (for `L ≤ 2` the code does not see loops). -/
def HasWrapped (L : Nat) (seq : List Nat) : Prop := 3 ≤ L ∧ Wraps L (· ∈ seq)

/-- The configurations passed when the sites of `seq` are occupied one after the other, starting from `pre`. -/
def stages : List Nat → List Nat → List (List Nat)
  | _, [] => []
  | pre, k :: rest => (pre ++ [k]) :: stages (pre ++ [k]) rest

theorem stages_length (pre seq : List Nat) : (stages pre seq).length = seq.length := by
  induction seq generalizing pre with
  | nil => rfl
  | cons k rest ih => simp [stages, ih]

/-- The `i`-th stage. -/
theorem stages_getElem? (pre seq : List Nat) (i : Nat) : (stages pre seq)[i]? = if i < seq.length then some (pre ++ seq.take (i + 1)) else none := by
  induction seq generalizing pre i with
  | nil => simp [stages]
  | cons k rest ih =>
    cases i with
    | zero => simp [stages]
    | succ i => simp [stages, ih]

end SqPerc
