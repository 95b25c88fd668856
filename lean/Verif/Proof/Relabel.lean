import Verif.Proof.Wrap
import Verif.Proof.Refine
import Mathlib.Data.Nat.Log
/-
Smaller clusters are merged into larger ones, so a bond changes its cluster seldom.
-/
namespace SqPerc

variable {α : Type} {L k b : Nat} {V V' : LV} {P P' : PV} {r : Int} {env : Env α}

/-- Doublings of the cluster of `b` so far, plus one if it is the wrapping cluster. -/
def Abs.rank (A : Abs α) (b : Nat) : Nat :=
  Nat.log 2 (A.P.len (A.V.bg b)) + if A.aw = true ∧ A.V.bg b = A.wid then 1 else 0

/-- What a step does to the rank of `b`. -/
def RankUp (A A' : Abs α) (b : Nat) : Prop := A.rank b + (if A'.V.bg b = A.V.bg b then 0 else 1) ≤ A'.rank b

theorem RankUp.refl (A : Abs α) (b : Nat) : RankUp A A b := by
  unfold RankUp; rw [if_pos rfl]; omega

theorem RankUp.trans {A A' A'' : Abs α} (h : RankUp A A' b) (h' : RankUp A' A'' b) : RankUp A A'' b := by
  unfold RankUp at *
  by_cases h1 : A'.V.bg b = A.V.bg b
  · rw [h1] at h'
    rw [if_pos h1] at h
    omega
  · rw [if_neg h1] at h
    split <;> omega

theorem log_mono_two {a b : Nat} (ha : 1 ≤ a) (h : 2 * a ≤ b) : Nat.log 2 a + 1 ≤ Nat.log 2 b := by
  rw [← Nat.log_mul_base (by omega) (by omega)]
  exact Nat.log_mono_right (by omega)

theorem AStep.rankUp {A A' : Abs α} (hA : AReach env L A) (hs : AStep env L A A') (hb : b < 2 * (L * L)) : RankUp A A' b := by
  have C := hA.inv.core
  have hA' := hA.step hs
  cases hs with
  | @place k r V' P' hk hu E R =>
    unfold RankUp Abs.rank
    show _ + (if V'.bg b = A.V.bg b then 0 else 1) ≤ Nat.log 2 (P'.len (V'.bg b)) + if A.aw = true ∧ V'.bg b = A.wid then 1 else 0
    by_cases hadj : Adj L A.V k (A.V.bg b)
    · rw [E.bgAdj b hb hadj]
      have hpos := C.len_pos hk hadj
      have hle := E.len_le_root hadj
      have hlog := Nat.log_mono_right (b := 2) hle
      by_cases hr : r = A.V.bg b
      · rw [if_pos hr, ← hr]
        rw [← hr] at hlog
        omega
      · rw [if_neg hr]
        have hadd := E.len_add_le hadj E.adj (Ne.symm hr)
        by_cases hw : A.aw = true ∧ Adj L A.V k A.wid
        · have hrw := R.1 hw.1 hw.2
          rw [if_pos (⟨hw.1, hrw⟩ : A.aw = true ∧ r = A.wid)]
          rw [if_neg (fun h : A.aw = true ∧ A.V.bg b = A.wid => hr (hrw.trans h.2.symm))]
          omega
        · have hmax : A.P.len (A.V.bg b) ≤ A.P.len r := R.2 hw _ hadj
          rw [if_neg (fun h : A.aw = true ∧ A.V.bg b = A.wid => hw ⟨h.1, h.2 ▸ hadj⟩)]
          have := log_mono_two hpos (by omega : 2 * A.P.len (A.V.bg b) ≤ P'.len r)
          omega
    · rw [E.bgFar b hb hadj, if_pos rfl, E.len_kept hadj]
      omega
  | tick h =>
    unfold RankUp Abs.rank
    simp only [h.2.2]
    simp
  | @detect k ha hsel h0 hH =>
    unfold RankUp Abs.rank Abs.detected
    simp [ha]
  | reselect _ _ => exact RankUp.refl A b

theorem ASteps.rankUp {A A' : Abs α} (hA : AReach env L A) (hs : ASteps env L A A') (hb : b < 2 * (L * L)) : RankUp A A' b := by
  induction hs with
  | refl => exact RankUp.refl A b
  | tail h1 h2 ih => exact ih.trans (AStep.rankUp (hA.steps h1) h2 hb)

theorem AReach.rank_le {A : Abs α} (hA : AReach env L A) (hb : b < 2 * (L * L)) : A.rank b ≤ Nat.log 2 (2 * (L * L)) + 1 := by
  have C := hA.inv.core
  have := Nat.log_mono_right (b := 2) (C.len_le (mem_gids.2 (C.bgr b hb)))
  unfold Abs.rank
  split <;> omega

/-- Occupied sites stay occupied. -/
theorem ASteps.occ_keep {A A' : Abs α} (hA : AReach env L A) (hs : ASteps env L A A') {s : Nat} (h : VOcc L A.V s) : VOcc L A'.V s := by
  induction hs with
  | refl => exact h
  | @tail B B' h1 h2 ih =>
    have hB := hA.steps h1
    cases h2 with
    | @place k r V' P' hk hu E R => exact (E.occ_iff hB.inv.core hk s).2 (Or.inl ih)
    | tick h => show VOcc L _ s; rw [h.vocc]; exact ih
    | detect _ _ _ _ => exact ih
    | reselect _ _ => exact ih

end SqPerc
