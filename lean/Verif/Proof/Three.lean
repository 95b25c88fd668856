import Verif.Proof.Mean
import Verif.Props.LineLaw
/-
The loops of the smallest lattice that can wrap.
-/
namespace SqPerc

/-- The closed walk along the directions `ds` from `s` stays in `T`. -/
def stays (T : Finset Nat) : Nat → List Dir → Bool
  | _, [] => true
  | s, d :: ds => decide (nbr 3 s d ∈ T) && stays T (nbr 3 s d) ds

theorem stays_walk {T : Finset Nat} : ∀ (ds : List Dir) {s t : Nat} {v : Int × Int}, Walk 3 (· ∈ T) t s v → stays T s ds = true →
    Walk 3 (· ∈ T) t (ds.foldl (nbr 3) s) (ds.foldl (fun v d => v + d.vec) v)
  | [], _, _, _, w, _ => w
  | d :: ds, _, _, _, w, h => by
    simp only [stays, Bool.and_eq_true, decide_eq_true_eq] at h
    exact stays_walk ds (w.snoc d h.1) h.2

/-- The shapes of the loops: a row, a column and the two staircases. -/
def loops3 : List (List Dir) :=
  [[.right, .right, .right], [.down, .down, .down], [.right, .down, .right, .down, .right, .down], [.left, .down, .left, .down, .left, .down]]

/-- `T` contains one of the loops. -/
def loop3 (T : Finset Nat) : Bool := (List.range 9).any fun s => decide (s ∈ T) && loops3.any fun ds => stays T s ds

/-- One round that gives positions in the plane to the neighbours of the sites that have one. -/
def spread3 (T : Finset Nat) (f : List (Option (Int × Int))) : List (Option (Int × Int)) :=
  (List.range 9).map fun s =>
    match f.getD s none with
    | some v => some v
    | none => if s ∈ T then Dir.all.firstM fun d => (f.getD (nbr 3 s d) none).map (· - d.vec) else none

/-- Positions in the plane for all sites of `T`, component by component. -/
def place3 (T : Finset Nat) : List (Option (Int × Int)) :=
  (List.range 9).foldl (fun f s => if s ∈ T ∧ f.getD s none = none then spread3 T (spread3 T (spread3 T (spread3 T (f.set s (some 0))))) else f)
    (List.replicate 9 none)

/-- The positions agree along all occupied edges. -/
def flat3 (T : Finset Nat) : Bool :=
  let f := place3 T
  (List.range 9).all fun s => Dir.all.all fun d =>
    decide (s ∈ T → nbr 3 s d ∈ T → (f.getD (nbr 3 s d) none).getD 0 - (f.getD s none).getD 0 = d.vec)

theorem table3 : ∀ T ∈ (Finset.range 9).powerset, (loop3 T || flat3 T) = true := by decide +kernel

theorem wraps3_iff {T : Finset Nat} (hT : T ⊆ Finset.range 9) : Wraps 3 (· ∈ T) ↔ loop3 T = true := by
  constructor
  · rintro ⟨s, v, hv, w⟩
    have h := table3 T (Finset.mem_powerset.2 hT)
    rw [Bool.or_eq_true] at h
    refine h.resolve_right fun hf => hv ?_
    simp only [flat3, List.all_eq_true, decide_eq_true_eq] at hf
    have := w.eq_potential (fun s => ((place3 T).getD s none).getD 0) fun t d h1 h2 =>
      hf t (List.mem_range.2 (Finset.mem_range.1 (hT h1))) d (by cases d <;> decide) h1 h2
    rw [this]; simp
  · intro h
    simp only [loop3, List.any_eq_true, Bool.and_eq_true, decide_eq_true_eq, List.mem_range] at h
    obtain ⟨s, hs9, hs, ds, hds, h⟩ := h
    have w := stays_walk ds (.nil hs) h
    have key : ∀ s < 9, ∀ ds ∈ loops3, ds.foldl (nbr 3) s = s ∧ ds.foldl (fun v d => v + d.vec) (0 : Int × Int) ≠ 0 := by decide +kernel
    obtain ⟨k1, k2⟩ := key s hs9 ds hds
    rw [k1] at w
    exact ⟨s, _, k2, w⟩

/-- `T` contains a row or a column. -/
def line3 (T : Finset Nat) : Bool :=
  ((List.range 3).any fun r => (List.range 3).all fun c => decide (r * 3 + c ∈ T)) ||
  ((List.range 3).any fun c => (List.range 3).all fun r => decide (r * 3 + c ∈ T))

theorem line3_iff {T : Finset Nat} : HasLine 3 (· ∈ T) ↔ line3 T = true := by
  simp only [HasLine, RowIn, ColIn, line3, Bool.or_eq_true, List.any_eq_true, List.all_eq_true, decide_eq_true_eq, List.mem_range]

theorem micro_count {N n : Nat} {P : Finset Nat → Prop} {b : Finset Nat → Bool} (h : ∀ T ⊆ Finset.range N, P T ↔ b T = true) :
    (micro N n fun T => ind (P T)) = ((((Finset.range N).powersetCard n).filter fun T => b T = true).card : ℝ) / N.choose n := by
  rw [micro]
  congr 1
  rw [Finset.card_filter]
  push_cast
  refine Finset.sum_congr rfl fun T hT => ?_
  have := h T (Finset.mem_powersetCard.1 hT).1
  unfold ind
  by_cases hb : b T = true
  · rw [if_pos (this.2 hb), if_pos hb]
  · rw [if_neg fun hP => hb (this.1 hP), if_neg hb]

/-- How many of the sets of `n` sites wrap. -/
theorem wraps3_count : (List.range 10).map (fun n => (((Finset.range 9).powersetCard n).filter fun T => loop3 T = true).card) =
    [0, 0, 0, 6, 36, 81, 84, 36, 9, 1] := by decide +kernel

/-- How many of the sets of `n` sites contain a row or a column. -/
theorem line3_count : (List.range 10).map (fun n => (((Finset.range 9).powersetCard n).filter fun T => line3 T = true).card) =
    [0, 0, 0, 6, 36, 81, 78, 36, 9, 1] := by decide +kernel

end SqPerc
