import Verif.Proof.Double
import Verif.Props.TableFiles
/-
Property C106: with the floats of Python (IEEE doubles with infinities, NaN and signed zeros) nothing overflows, nothing becomes NaN, and the bounds
of C65, C88 and C89 hold.
-/
namespace SqPerc

variable {L : Nat} {v : Variant} {lg : Dbl → Dbl} {u : ℝ} {so : SetOrder}

namespace Dbl

/-- The arithmetic of Python's floats is the standard model of floating point as long as the results are not too large or too small. -/
theorem rounded (hu : 2⁻¹ ^ 53 ≤ u) (h : GoodLog lg u) : Rounded (arith lg) val Finite u tiny big (2 ^ 53) where
  ofNat n hn := ofNat_val hn
  add x y hx hy hb := by
    obtain ⟨h1, h2⟩ := add_val hx hy hb
    refine ⟨h1, ?_⟩
    show |(x.add y).val - _| ≤ _
    rw [h2]
    exact (nearest_sum_err (val_isDbl x) (val_isDbl y)).trans (mul_le_mul_of_nonneg_right hu (abs_nonneg _))
  sub x y hx hy hb := by
    obtain ⟨g1, g2⟩ := neg_val hy
    have e : x.val - y.val = x.val + y.neg.val := by rw [g2, sub_eq_add_neg]
    rw [e] at hb ⊢
    obtain ⟨h1, h2⟩ := add_val hx g1 hb
    refine ⟨h1, ?_⟩
    show |(x.add y.neg).val - _| ≤ _
    rw [h2]
    exact (nearest_sum_err (val_isDbl x) (val_isDbl _)).trans (mul_le_mul_of_nonneg_right hu (abs_nonneg _))
  mul x y hx hy hlo hb := by
    obtain ⟨h1, h2⟩ := mul_val hx hy hb
    refine ⟨h1, ?_⟩
    show |(x.mul y).val - _| ≤ _
    rw [h2]
    rcases hlo with h0 | hlo
    · rw [h0, nearest_zero]; simp
    · have := nearest_err (x.val * y.val)
      rw [max_eq_left hlo] at this
      exact this.trans (mul_le_mul_of_nonneg_right hu (abs_nonneg _))
  div x y hx hy h0 hlo hb := by
    obtain ⟨h1, h2⟩ := div_val hx hy h0 hb
    refine ⟨h1, ?_⟩
    show |(x.div y).val - _| ≤ _
    rw [h2]
    have := nearest_err (x.val / y.val)
    rw [max_eq_left hlo] at this
    exact this.trans (mul_le_mul_of_nonneg_right hu (abs_nonneg _))
  div_self x hx h0 := by
    have e : x.val / x.val = ((1 : Nat) : ℝ) := by rw [div_self h0, Nat.cast_one]
    have hb : |x.val / x.val| ≤ big := by
      rw [div_self h0, abs_one]
      exact one_le_big
    obtain ⟨h1, h2⟩ := div_val hx hx h0 hb
    rw [e, nearest_nat (by norm_num), Nat.cast_one] at h2
    exact ⟨h1, h2⟩
  neg x hx := neg_val hx
  log x hx h0 _ _ := h x hx h0

theorem gradual (hu : 2⁻¹ ^ 53 ≤ u) : Gradual (arith lg) val Finite u tiny big := by
  intro x y hx hy h0 hb
  obtain ⟨h1, h2⟩ := div_val hx hy h0 hb
  refine ⟨h1, ?_⟩
  show |(x.div y).val - _| ≤ _
  rw [h2]
  exact (nearest_err _).trans (mul_le_mul_of_nonneg_right hu (le_max_of_le_left (abs_nonneg _)))

/-- Finite numbers are printed as numbers; negative zero as `-0.0000000000e+00`, which reads as 0. -/
theorem prints {x : Dbl} (hx : x.Finite) : Prints fmt x (shown x.val) := by
  cases x with
  | fin x h =>
    have := prints_fmtE x
    exact ⟨this.reads, this.ne, this.blank, this.line, this.hash⟩
  | nzero =>
    have e : shown (0 : ℝ) = 0 := by unfold shown; simp
    show Prints fmt nzero (shown (0 : ℝ))
    rw [e]
    exact ⟨by decide +kernel, by decide +kernel, by decide +kernel, by decide +kernel, by decide +kernel⟩
  | inf s => exact hx.elim
  | nan => exact hx.elim

/-- Quotients of integers are rounded monotonically. -/
theorem frac_val {x z : Nat} (hz : 0 < z) (hxz : x ≤ z) (hz' : z ≤ 2 ^ 53) :
    ((ofNat x).div (ofNat z)).Finite ∧ ((ofNat x).div (ofNat z)).val = nearest ((x : ℝ) / z) := by
  obtain ⟨h1, e1⟩ := ofNat_val (hxz.trans hz')
  obtain ⟨h2, e2⟩ := ofNat_val hz'
  have hz0 : (0 : ℝ) < z := by exact_mod_cast hz
  have hb : |(ofNat x).val / (ofNat z).val| ≤ big := by
    rw [e1, e2, abs_of_nonneg (by positivity)]
    have h3 : (x : ℝ) / z ≤ 1 := by rw [div_le_one hz0]; exact_mod_cast hxz
    exact h3.trans one_le_big
  have := div_val h1 h2 (by rw [e2]; exact hz0.ne') hb
  rwa [e1, e2] at this

theorem frac_mono : ∀ x y z : Nat, 0 < x → x ≤ y → y ≤ z → z ≤ 2 ^ 53 →
    val ((arith lg).div ((arith lg).ofNat x) ((arith lg).ofNat z)) ≤ val ((arith lg).div ((arith lg).ofNat y) ((arith lg).ofNat z)) := by
  intro x y z hx hxy hyz hz
  show ((ofNat x).div (ofNat z)).val ≤ ((ofNat y).div (ofNat z)).val
  rw [(frac_val (by omega) (by omega) hz).2, (frac_val (by omega) hyz hz).2]
  have hz0 : (0 : ℝ) < z := by exact_mod_cast (by omega : 0 < z)
  exact nearest_mono (div_pos (by exact_mod_cast hx) hz0) (div_le_div_of_nonneg_right (by exact_mod_cast hxy) hz0.le)

end Dbl

/-- C106: the model of the format: the result of rounding is a double and no double is closer to the exact result. -/
theorem C106_correctly_rounded {x : ℝ} (hx : |x| ≤ Dbl.big) :
    IsDbl (Dbl.nearest x) ∧ ∀ d, IsDbl d → |Dbl.nearest x - x| ≤ |d - x| := by
  refine ⟨Dbl.nearest_isDbl hx, ?_⟩
  -- multiples of the unit
  have key : ∀ k : ℤ, |Dbl.nearest x - x| ≤ |(k : ℝ) * 2 ^ Dbl.unitExp x - x| := by
    intro k
    have h := roundEven_nearest (x * 2 ^ (-Dbl.unitExp x)) k
    have e : ∀ m : ℤ, (m : ℝ) * 2 ^ Dbl.unitExp x - x = ((m : ℝ) - x * 2 ^ (-Dbl.unitExp x)) * 2 ^ Dbl.unitExp x := by
      intro m
      rw [sub_mul, Dbl.cancel]
    rw [Dbl.nearest, e, e, abs_mul, abs_mul]
    exact mul_le_mul_of_nonneg_right h (abs_nonneg _)
  rintro d ⟨m, e, hm, he, _, rfl⟩
  rcases le_or_gt (Dbl.unitExp x) e with hq | hq
  · have := key (m * 2 ^ (e - Dbl.unitExp x).toNat)
    push_cast at this
    rw [mul_assoc, ← zpow_natCast, ← zpow_add₀ Dbl.two_ne, show ((e - Dbl.unitExp x).toNat : ℤ) + Dbl.unitExp x = e by omega] at this
    exact this
  · -- a double with smaller digits is smaller than the power of two below `|x|`
    have hu : Dbl.unitExp x = Int.log 2 |x| - 52 := by unfold Dbl.unitExp at hq ⊢; omega
    rcases eq_or_ne x 0 with rfl | h0
    · rw [Dbl.nearest_zero, sub_self, abs_zero]
      exact abs_nonneg _
    have h1 : (2 : ℝ) ^ (Dbl.unitExp x + 52) ≤ |x| := by
      rw [hu, sub_add_cancel]
      exact_mod_cast Int.zpow_log_le_self (b := 2) (by norm_num) (abs_pos.2 h0)
    have h2 : |(m : ℝ) * 2 ^ e| ≤ 2 ^ (Dbl.unitExp x + 52) := by
      rw [abs_mul, abs_of_pos (Dbl.zpow_pos2 e)]
      have h3 : |(m : ℝ)| ≤ 2 ^ (53 : ℤ) := by exact_mod_cast hm.le
      refine (mul_le_mul_of_nonneg_right h3 (Dbl.zpow_pos2 e).le).trans ?_
      rw [← zpow_add₀ Dbl.two_ne]
      exact zpow_le_zpow_right₀ (by norm_num) (by omega)
    have e52 : (2 : ℝ) ^ (Dbl.unitExp x + 52) = ((2 ^ 52 : ℤ) : ℝ) * 2 ^ Dbl.unitExp x := by
      rw [add_comm, zpow_add₀ Dbl.two_ne]
      norm_num
    generalize (2 : ℝ) ^ (Dbl.unitExp x + 52) = B at *
    rw [abs_le] at h2
    rcases lt_or_gt_of_ne h0 with hn | hp
    · have h5 := key (-2 ^ 52)
      rw [show ((-2 ^ 52 : ℤ) : ℝ) * 2 ^ Dbl.unitExp x = -B by rw [e52]; push_cast; ring] at h5
      rw [abs_of_neg hn] at h1
      rw [abs_of_nonneg (by linarith : 0 ≤ -B - x)] at h5
      exact h5.trans (le_trans (by linarith [h2.1]) (le_abs_self _))
    · have h5 := key (2 ^ 52)
      rw [← e52] at h5
      rw [abs_of_pos hp] at h1
      rw [abs_of_nonpos (by linarith : B - x ≤ 0)] at h5
      exact h5.trans (le_trans (by linarith [h2.2]) (neg_le_abs _))

open Dbl in
/-- Every side up to `2²²` fits, with a logarithm that is off by at most one unit in the last place. -/
theorem fits_ieee (hL : 0 < L) (h : L ≤ 2 ^ 22) : Fits (2⁻¹ ^ 52) tiny big L := by
  have h1 : 2 * (L * L) ≤ 2 ^ 45 := by
    have := Nat.mul_le_mul h h
    omega
  have h2 : ((2 * (L * L) : Nat) : ℝ) ≤ 2 ^ 45 := by exact_mod_cast h1
  have h0 : (0 : ℝ) ≤ (2 * (L * L) : Nat) := Nat.cast_nonneg _
  refine ⟨hL, by positivity, ?_, ?_, ?_⟩
  · have h3 : (64 : ℝ) * (2⁻¹ ^ 52 * (2 * (L * L) : Nat)) ≤ 64 * (2⁻¹ ^ 52 * 2 ^ 45) := by gcongr
    norm_num at h3 ⊢
    linarith
  · have h3 : ((2 * (L * L) : Nat) : ℝ) * (2 * (L * L) : Nat) ≤ 2 ^ 45 * 2 ^ 45 := mul_le_mul h2 h2 h0 (by positivity)
    have h4 : tiny ≤ 2 ^ (-93 : ℤ) := zpow_le_zpow_right₀ (by norm_num) (by norm_num)
    have h5 := mul_le_mul h4 (mul_le_mul_of_nonneg_left h3 (by norm_num : (0 : ℝ) ≤ 8)) (by positivity) (by positivity)
    refine h5.trans ?_
    norm_num
  · have h4 : (4 : ℝ) * 2 ^ 45 ≤ 2 ^ 53 - 1 := by norm_num
    linarith [big_ge]

theorem half_le : (2⁻¹ : ℝ) ^ 53 ≤ 2⁻¹ ^ 52 := by norm_num

theorem fitsE_ieee {E : Nat} (hL : 0 < L) (h : L ≤ 2 ^ 20) (hE0 : 0 < E) (hE : E ≤ 2 ^ 30) : FitsE (2⁻¹ ^ 52) Dbl.tiny Dbl.big L E := by
  have F := fits_ieee hL (h.trans (by norm_num))
  have hEr : (E : ℝ) ≤ 2 ^ 30 := by exact_mod_cast hE
  refine ⟨F, hE0, ?_, ?_⟩
  · have : (2⁻¹ : ℝ) ^ 52 * (E + 2) ≤ 2⁻¹ ^ 52 * (2 ^ 30 + 2) := by gcongr
    norm_num at this ⊢
    linarith
  · have h1 : 2 * (L * L) ≤ 2 ^ 41 := by
      have := Nat.mul_le_mul h h
      omega
    have h2 : ((2 * (L * L) : Nat) : ℝ) ≤ 2 ^ 41 := by exact_mod_cast h1
    have h3 : scale L ≤ 2 ^ 41 := by unfold scale; linarith [F.log_le]
    have h4 : 4 * scale L * (E + 2) ≤ 4 * 2 ^ 41 * (2 ^ 30 + 2) := by
      refine mul_le_mul (by linarith) (by linarith) (by positivity) (by positivity)
    refine h4.trans ?_
    have h5 : (2 : ℝ) ^ (50 : ℤ) ≤ 2 ^ (971 : ℤ) := zpow_le_zpow_right₀ (by norm_num) (by norm_num)
    unfold Dbl.big
    have h6 : (4 : ℝ) * 2 ^ 41 * (2 ^ 30 + 2) ≤ (2 ^ 53 - 1) * 2 ^ (50 : ℤ) := by norm_num
    exact h6.trans (mul_le_mul_of_nonneg_left h5 (by norm_num))

/-- C106: in every reachable state both entropies are finite numbers close to the Shannon entropy. -/
theorem C106_entropy (hlg : Dbl.GoodLog lg (2⁻¹ ^ 52)) (hL : L ≤ 2 ^ 22) {S : Perc Dbl} (h : Reach ⟨so, Dbl.arith lg⟩ v L S) :
    (S.entropy.Finite ∧ |S.entropy.val - shannon L S.Occ| ≤ 20 * 2⁻¹ ^ 52 * (Real.log (2 * (L * L) : Nat) + 1) * (S.occupiedCount + 1)) ∧
      ∃ x, S.entropyV1 ⟨so, Dbl.arith lg⟩ = .ok x ∧ x.Finite ∧
        |x.val - shannon L S.Occ| ≤ 2 * 2⁻¹ ^ 52 * (Real.log (2 * (L * L) : Nat) + 1) * ((2 * (L * L) : Nat) + 4) := by
  have h0 : 0 < L := h.sim.1
  have hN : 2 * (L * L) ≤ 2 ^ 53 := by
    have := Nat.mul_le_mul hL hL
    omega
  have R0 := Dbl.rounded half_le hlg
  have R : Rounded (Dbl.arith lg) Dbl.val Dbl.Finite (2⁻¹ ^ 52) Dbl.tiny Dbl.big (2 * (L * L)) := { R0 with ofNat := fun n hn => R0.ofNat n (hn.trans hN) }
  exact ⟨C65_drift (env := ⟨so, Dbl.arith lg⟩) (fits_ieee h0 hL) R h, C65_v1 (env := ⟨so, Dbl.arith lg⟩) (fits_ieee h0 hL) R h⟩

/-- C106: all entropies recorded by a complete `run_once()` are finite and close to the exact ones. -/
theorem C106_run (hlg : Dbl.GoodLog lg (2⁻¹ ^ 52)) (hL : L ≤ 2 ^ 22) {S : Perc Dbl} (h : Fresh ⟨so, Dbl.arith lg⟩ v L S) {fuel : Nat}
    {ds : Nat → Draw} (hf : initBudget L v < fuel) :
    ∃ S' seq es, S.runOnce ⟨so, Dbl.arith lg⟩ v fuel ds = .ok S' ∧ seq.Perm (List.range (L * L)) ∧ S'.entropyList = S.entropyList ++ es ∧
      es.length = L * L ∧ List.Forall₂ (fun x q => x.Finite ∧
        |x.val - shannon L (· ∈ q)| ≤ 20 * 2⁻¹ ^ 52 * (Real.log (2 * (L * L) : Nat) + 1) * (q.length + 1)) es (stages [] seq) := by
  have h0 : 0 < L := h.defReach.reach.sim.1
  have hN : 2 * (L * L) ≤ 2 ^ 53 := by
    have := Nat.mul_le_mul hL hL
    omega
  have R0 := Dbl.rounded half_le hlg
  have R : Rounded (Dbl.arith lg) Dbl.val Dbl.Finite (2⁻¹ ^ 52) Dbl.tiny Dbl.big (2 * (L * L)) := { R0 with ofNat := fun n hn => R0.ofNat n (hn.trans hN) }
  obtain ⟨S', seq, es, h1, h2, h3, h4, h5, _⟩ := C65_run (env := ⟨so, Dbl.arith lg⟩) (fits_ieee h0 hL) R h (ds := ds) hf
  exact ⟨S', seq, es, h1, h2, h3, h4, h5⟩

theorem occCount_le (occ : Nat → Prop) : occCount L occ ≤ L * L := by
  classical
  unfold occCount
  exact (Finset.card_filter_le _ _).trans_eq (Finset.card_range _)

/-- C106: the occupation probability is a finite number between 0 and 1, exactly 1.0 on the full lattice, and larger when more sites are
occupied. -/
theorem C106_prob (hL : L * L ≤ 2 ^ 52) {S : Perc Dbl} (h : Reach ⟨so, Dbl.arith lg⟩ v L S) :
    (S.occupationProb ⟨so, Dbl.arith lg⟩).Finite ∧ 0 ≤ (S.occupationProb ⟨so, Dbl.arith lg⟩).val ∧
      (S.occupationProb ⟨so, Dbl.arith lg⟩).val ≤ 1 ∧ ((∀ s < L * L, S.Occ s) ↔ (S.occupationProb ⟨so, Dbl.arith lg⟩).val = 1) ∧
      ∀ S' : Perc Dbl, Reach ⟨so, Dbl.arith lg⟩ v L S' → S.occupiedCount < S'.occupiedCount →
        (S.occupationProb ⟨so, Dbl.arith lg⟩).val < (S'.occupationProb ⟨so, Dbl.arith lg⟩).val := by
  have hL0 : 0 < L := h.sim.1
  have hN0 : 0 < L * L := Nat.mul_pos hL0 hL0
  have hN : (0 : ℝ) < (L * L : Nat) := by exact_mod_cast hN0
  have hcnt : ∀ {T : Perc Dbl}, Reach ⟨so, Dbl.arith lg⟩ v L T → T.occupiedCount ≤ L * L ∧
      (T.occupationProb ⟨so, Dbl.arith lg⟩).Finite ∧ (T.occupationProb ⟨so, Dbl.arith lg⟩).val = Dbl.nearest ((T.occupiedCount : ℝ) / (L * L : Nat)) := by
    intro T hT
    have h1 : T.occupiedCount ≤ L * L := by rw [C11_counter hT]; exact occCount_le _
    rw [C11_occupation_prob hT, ← C11_counter hT]
    exact ⟨h1, Dbl.frac_val hN0 h1 (hL.trans (by norm_num))⟩
  -- fractions below 1 are rounded to numbers below 1
  have hsep : ∀ n m : Nat, n < m → m ≤ L * L → Dbl.nearest ((n : ℝ) / (L * L : Nat)) < Dbl.nearest ((m : ℝ) / (L * L : Nat)) := by
    intro n m hnm hm
    have e1 := Dbl.nearest_err ((n : ℝ) / (L * L : Nat))
    have e2 := Dbl.nearest_err ((m : ℝ) / (L * L : Nat))
    have g0 : 0 ≤ (n : ℝ) / (L * L : Nat) := by positivity
    have g1 : (n : ℝ) / (L * L : Nat) + 1 / (L * L : Nat) ≤ (m : ℝ) / (L * L : Nat) := by
      rw [← add_div, div_le_div_iff_of_pos_right hN]; exact_mod_cast hnm
    have g2 : (m : ℝ) / (L * L : Nat) ≤ 1 := by rw [div_le_one hN]; exact_mod_cast hm
    have g3 : (2⁻¹ : ℝ) ^ 52 ≤ 1 / (L * L : Nat) := by
      rw [le_div_iff₀ hN]
      have : ((L * L : Nat) : ℝ) ≤ 2 ^ 52 := by exact_mod_cast hL
      have := mul_le_mul_of_nonneg_left this (by positivity : (0 : ℝ) ≤ 2⁻¹ ^ 52)
      norm_num at this ⊢
      linarith
    have g4 : Dbl.tiny ≤ 2⁻¹ ^ 52 := by
      have : Dbl.tiny ≤ 2 ^ (-52 : ℤ) := zpow_le_zpow_right₀ (by norm_num) (by norm_num)
      norm_num at this ⊢
      exact this
    have g5 : max |(n : ℝ) / (L * L : Nat)| Dbl.tiny ≤ 1 - 2⁻¹ ^ 52 := by
      rw [abs_of_nonneg g0]
      refine max_le (by linarith) (g4.trans (by norm_num))
    have g6 : max |(m : ℝ) / (L * L : Nat)| Dbl.tiny ≤ 1 := by
      rw [abs_of_nonneg (by linarith [one_div_pos.2 hN])]
      exact max_le g2 (g4.trans (by norm_num))
    rw [abs_le] at e1 e2
    generalize max |(n : ℝ) / (L * L : Nat)| Dbl.tiny = a at *
    generalize max |(m : ℝ) / (L * L : Nat)| Dbl.tiny = b at *
    norm_num at *
    linarith [e1.2, e2.1]
  have hone : Dbl.nearest (((L * L : Nat) : ℝ) / (L * L : Nat)) = 1 := by
    rw [div_self hN.ne']
    exact_mod_cast Dbl.nearest_nat (n := 1) (by norm_num)
  obtain ⟨c1, c2, c3⟩ := hcnt h
  refine ⟨c2, ?_, ?_, ?_, ?_⟩
  · rw [c3]
    rcases Nat.eq_zero_or_pos S.occupiedCount with h0 | h0
    · rw [h0, Nat.cast_zero, zero_div, Dbl.nearest_zero]
    · have := hsep 0 _ h0 c1
      rw [Nat.cast_zero, zero_div, Dbl.nearest_zero] at this
      exact this.le
  · rw [c3]
    rcases eq_or_lt_of_le c1 with h0 | h0
    · rw [h0, hone]
    · have := hsep _ _ h0 le_rfl
      rw [hone] at this
      exact this.le
  · rw [c3, ← occCount_full, ← C11_counter h]
    constructor
    · intro h0; rw [h0, hone]
    · intro h0
      by_contra hne
      have := hsep _ _ (lt_of_le_of_ne c1 hne) le_rfl
      rw [hone, h0] at this
      exact lt_irrefl _ this
  · intro S' h' hlt
    obtain ⟨d1, _, d3⟩ := hcnt h'
    rw [c3, d3]
    exact hsep _ _ hlt d1

/-- C106: on the full lattice `entropy_v1()` is the negative zero, printed as `-0.0` by Python and as `-0.0000000000e+00` in the files. -/
theorem C106_negative_zero (hlg : Dbl.GoodLog lg u) (hL : 2 * (L * L) ≤ 2 ^ 53) {S : Perc Dbl} (h : Reach ⟨so, Dbl.arith lg⟩ v L S)
    (hf : ∀ s < L * L, S.Occ s) : S.entropyV1 ⟨so, Dbl.arith lg⟩ = .ok .nzero ∧ Dbl.fmt .nzero = "-0.0000000000e+00".toList := by
  refine ⟨?_, rfl⟩
  obtain ⟨hL0, A, M, hA⟩ := h.sim
  have C := hA.inv.core
  have hB : 0 < 2 * (L * L) := by have := Nat.mul_pos hL0 hL0; omega
  have hfull : ∀ s < L * L, VOcc L A.V s := by intro s hs; rw [← M.occ_eq]; exact hf s hs
  have h0 := C.full_len hfull hB
  have hr := mem_gids.2 (C.bgr 0 hB)
  obtain ⟨l, hl⟩ : ∃ l, l = ((List.range (2 * (L * L))).map fun i : Nat => (i : Int)).filter fun g => A.P.len g ≠ 0 := ⟨_, rfl⟩
  have hmem : ∀ g, g ∈ l ↔ g ∈ gids L ∧ A.P.len g ≠ 0 := by
    intro g
    rw [hl, List.mem_filter, List.mem_map, mem_gids]
    simp only [List.mem_range, decide_eq_true_eq]
    refine and_congr_left fun _ => ⟨?_, fun hg => ⟨g.toNat, by omega, by omega⟩⟩
    rintro ⟨i, hi, rfl⟩
    omega
  have hnd : l.Nodup := by
    rw [hl]
    exact (List.nodup_range.map (fun a b hab => by exact_mod_cast hab)).filter _
  have hone : ∀ g, g ∈ gids L → A.P.len g ≠ 0 → g = A.V.bg 0 := by
    intro g hg hne
    by_contra hc
    have := C.sum_len
    rw [← Finset.add_sum_erase _ _ hr, h0] at this
    have h1 : ∑ g ∈ (gids L).erase (A.V.bg 0), A.P.len g = 0 := by omega
    rw [Finset.sum_eq_zero_iff] at h1
    exact hne (h1 g (Finset.mem_erase.2 ⟨hc, hg⟩))
  have hl1 : l = [A.V.bg 0] := by
    refine List.perm_singleton.1 ((List.perm_ext_iff_of_nodup hnd (List.nodup_singleton _)).2 fun g => ?_)
    rw [hmem, List.mem_singleton]
    exact ⟨fun hg => hone g hg.1 hg.2, fun e => by rw [e]; exact ⟨hr, by rw [h0]; omega⟩⟩
  rw [Perc.entropyV1, M.cc, entropyV1Loop_foldl M _ (fun i hi => List.mem_range.1 hi), ← hl, hl1, List.foldl_cons, List.foldl_nil, h0]
  obtain ⟨f1, e1⟩ := Dbl.frac_val hB le_rfl hL
  have hB' : ((2 * (L * L) : Nat) : ℝ) ≠ 0 := by exact_mod_cast hB.ne'
  rw [div_self hB', show (1 : ℝ) = ((1 : Nat) : ℝ) by norm_num, Dbl.nearest_nat (by norm_num), Nat.cast_one] at e1
  obtain ⟨f2, e2⟩ := hlg _ f1 (by rw [e1]; norm_num)
  rw [e1, Real.log_one, abs_zero, mul_zero, sub_zero] at e2
  have e3 := abs_nonpos_iff.1 e2
  obtain ⟨f4, e4⟩ := Dbl.mul_val f1 f2 (by rw [e3, mul_zero, abs_zero]; exact zero_le_one.trans Dbl.one_le_big)
  rw [e3, mul_zero, Dbl.nearest_zero] at e4
  obtain ⟨z, hz⟩ : ∃ z, z = muLog (⟨so, Dbl.arith lg⟩ : Env Dbl) L (2 * (L * L)) := ⟨_, rfl⟩
  have fz : z.Finite := by rw [hz]; exact f4
  have ez : z.val = 0 := by rw [hz]; exact e4
  rw [← hz]
  have eo : Dbl.ofNat 0 = .fin 0 Dbl.zero_isDbl := by
    rw [Dbl.ofNat, Dbl.round, Nat.cast_zero, if_pos Dbl.nearest_zero]
    rfl
  have ea : (Dbl.ofNat 0).add z = .fin 0 Dbl.zero_isDbl := by
    rw [eo]
    cases z with
    | fin x hx =>
      have ex : x = 0 := ez
      show (if (0 : ℝ) + x = 0 then Dbl.zero (decide ((0 : ℝ) < 0) && decide (x < 0)) else _) = _
      rw [if_pos (by rw [ex, zero_add]), decide_eq_false (lt_irrefl _)]
      rfl
    | nzero =>
      show (if (0 : ℝ) + 0 = 0 then Dbl.zero (decide ((0 : ℝ) < 0) && true) else _) = _
      rw [if_pos (zero_add _), decide_eq_false (lt_irrefl _)]
      rfl
    | inf s => exact fz.elim
    | nan => exact fz.elim
  show Except.ok ((Dbl.ofNat 0).add z).neg = _
  rw [ea]
  show Except.ok (if (0 : ℝ) = 0 then Dbl.nzero else _) = _
  rw [if_pos rfl]

/-- C106: all numbers in the tables of the ensemble drivers are finite and close to the exact means; for up to `2¹⁰ × 2¹⁰` sites and `2¹⁹`
realisations the first column increases strictly. -/
theorem C106_table (hlg : Dbl.GoodLog lg (2⁻¹ ^ 52)) (hv : v ≠ .sp) {rs : List RunDraws} (hL0 : 0 < L) (hL : L ≤ 2 ^ 20) (hE0 : rs ≠ [])
    (hE : rs.length ≤ 2 ^ 30) (pl : Bool) (ctor : Nat → Nat) (hf : ∀ r ∈ rs, 5 * (L * L) < r.fuel) :
    ∃ (qs : List (List Nat)) (data : List (List Dbl)) (crit : List (CritRow Dbl)), qs.length = rs.length ∧ (∀ q ∈ qs, q.Perm (List.range (L * L))) ∧
      runEnsemble ⟨so, Dbl.arith lg⟩ v pl L ctor rs = .ok (data, crit) ∧ runEnsembleThreads ⟨so, Dbl.arith lg⟩ v L ctor rs = .ok data ∧
      (∀ row ∈ data, ∀ x ∈ row, x.Finite) ∧ (∀ r ∈ crit, r.pc.Finite) ∧ TableNear Dbl.val Dbl.Finite (2⁻¹ ^ 52) L rs.length qs data ∧
      List.Forall₂ (fun q r => ∃ r', CritOf L q r' ∧ |r.pc.val - r'.pc| ≤ 2⁻¹ ^ 52 * r'.pc ∧ r.sites = r'.sites ∧ r.bonds = r'.bonds) qs crit ∧
      (L ≤ 2 ^ 10 → rs.length ≤ 2 ^ 19 → ∀ j k p q, j < k → k < L * L → (data.getD j [])[0]? = some p → (data.getD k [])[0]? = some q →
        p.val < q.val) := by
  have hLL : L * L ≤ 2 ^ 40 := by
    have := Nat.mul_le_mul hL hL
    omega
  have F := fitsE_ieee hL0 hL (List.length_pos_iff.2 hE0) hE
  obtain ⟨qs, data, crit, q1, q2, q3, q3', q4, q5⟩ := C88_table (env := ⟨so, Dbl.arith lg⟩) (N := 2 ^ 53) hv F (Dbl.rounded half_le hlg)
    (by omega) (by omega) (Dbl.gradual half_le) pl ctor hf
  refine ⟨qs, data, crit, q1, q2, q3, q3', ?_, ?_, q4, ?_, ?_⟩
  · intro row hr x hx
    obtain ⟨i, hi, e⟩ := List.mem_iff_getElem.1 hr
    obtain ⟨p, h, a, b, e', ⟨o1, o2, o3, o4⟩, _⟩ := q4.row i (by rw [← q4.length]; exact hi)
    rw [List.getElem?_eq_getElem hi, e, Option.some.injEq] at e'
    rw [e'] at hx
    simp only [List.mem_cons, List.not_mem_nil, or_false] at hx
    rcases hx with rfl | rfl | rfl | rfl <;> assumption
  · intro r hr
    obtain ⟨i, hi, e⟩ := List.mem_iff_getElem.1 hr
    rw [List.forall₂_iff_get] at q5
    obtain ⟨_, _, o, _⟩ := q5.2 i (by rw [q5.1]; exact hi) hi
    rw [← e]
    exact o
  · exact q5.imp fun q r ⟨r', g1, _, g3⟩ => ⟨r', g1, g3⟩
  · intro hL' hE' j k p q hjk hk hp hq
    have hLL' : L * L ≤ 2 ^ 20 := by
      have := Nat.mul_le_mul hL' hL'
      omega
    have hj : j < data.length := by rw [q4.length]; omega
    have hk' : k < data.length := by rw [q4.length]; omega
    rw [List.getD_eq_getElem?_getD, List.getElem?_eq_getElem hj, Option.getD_some] at hp
    rw [List.getD_eq_getElem?_getD, List.getElem?_eq_getElem hk', Option.getD_some] at hq
    refine C88_increasing F.u0 q4 ?_ hjk hk (List.getElem?_eq_getElem hj) (List.getElem?_eq_getElem hk') hp hq
    have h1 : (rs.length : ℝ) ≤ 2 ^ 19 := by exact_mod_cast hE'
    have h2 : ((L * L : Nat) : ℝ) ≤ 2 ^ 20 := by exact_mod_cast hLL'
    have h3 : (2⁻¹ : ℝ) ^ 52 * (2 * rs.length + 9) * (2 * (L * L : Nat) + 1) ≤ 2⁻¹ ^ 52 * (2 * 2 ^ 19 + 9) * (2 * 2 ^ 20 + 1) := by gcongr
    refine h3.trans_lt ?_
    norm_num

theorem eta_ieee {E : Nat} (hE : E ≤ 4 * 10 ^ 5) : 2 * ((2⁻¹ : ℝ) ^ 52 * (2 * E + 9)) + printErr ≤ 5 / 10 ^ 10 := by
  have hEr : (E : ℝ) ≤ 4 * 10 ^ 5 := by exact_mod_cast hE
  have : 2 * ((2⁻¹ : ℝ) ^ 52 * (2 * E + 9)) ≤ 2 * (2⁻¹ ^ 52 * (2 * (4 * 10 ^ 5) + 9)) := by gcongr
  unfold printErr
  norm_num at this ⊢
  linarith

/-- C106: with Python's floats, `3 ≤ L ≤ 10⁴` and at most `4 · 10⁵` realisations the files contain no `inf` or `nan`, can be read back, and tell the
number of occupied sites in every row and at every threshold exactly. -/
theorem C106_files (hlg : Dbl.GoodLog lg (2⁻¹ ^ 52)) (hv : v ≠ .sp) {rs : List RunDraws} (hL3 : 3 ≤ L) (hL : L ≤ 10 ^ 4) (hE0 : rs ≠ [])
    (hE : rs.length ≤ 4 * 10 ^ 5) (pl : Bool) (ctor : Nat → Nat) (hf : ∀ r ∈ rs, 5 * (L * L) < r.fuel) {header : Text} (hh : '\n' ∉ header) (n : Int) :
    ∃ (qs : List (List Nat)) (data : List (List Dbl)) (crit : List (CritRow Dbl)) (T C : List (List ℚ)),
      qs.length = rs.length ∧ (∀ q ∈ qs, q.Perm (List.range (L * L))) ∧
      runEnsemble ⟨so, Dbl.arith lg⟩ v pl L ctor rs = .ok (data, crit) ∧ runEnsembleThreads ⟨so, Dbl.arith lg⟩ v L ctor rs = .ok data ∧
      readTable (saveWith Dbl.fmt header ((FileData.table n data).rows ⟨so, Dbl.arith lg⟩)) = some T ∧
      readTable (saveWith Dbl.fmt header ((FileData.critical n crit).rows ⟨so, Dbl.arith lg⟩)) = some C ∧ FilesTell L qs T C := by
  have hLL : L * L ≤ 10 ^ 8 := by
    have := Nat.mul_le_mul hL hL
    omega
  have F := fitsE_ieee (L := L) (E := rs.length) (by omega) (hL.trans (by norm_num)) (List.length_pos_iff.2 hE0) (hE.trans (by norm_num))
  exact C89_tell (env := ⟨so, Dbl.arith lg⟩) (N := 2 ^ 53) hv F (Dbl.rounded half_le hlg) (by omega) (by omega) (Dbl.gradual half_le)
    (fun x hx => Dbl.prints hx) hL3 hL (eta_ieee hE) pl ctor hf hh n

/-- C106: the same for the file of the shortest path driver. -/
theorem C106_path_file (hlg : Dbl.GoodLog lg (2⁻¹ ^ 52)) (hL3 : 3 ≤ L) (hL : L ≤ 10 ^ 4) (ctor : Nat → Nat) {rs : List RunDraws}
    (hf : ∀ r ∈ rs, L * L < r.fuel) {header : Text} (hh : '\n' ∉ header) (n : Int) :
    ∃ rows T, spEnsemble ⟨so, Dbl.arith lg⟩ L ctor rs = .ok rows ∧
      readTable (saveWith Dbl.fmt header ((FileData.path n rows).rows ⟨so, Dbl.arith lg⟩)) = some T ∧ T.length = rs.length ∧
      ∀ row ∈ T, ∃ (p s : ℚ) (m n : Nat), row = [p, s] ∧ 1 ≤ m ∧ m ≤ n ∧ n ≤ L * L ∧ p ≤ s ∧
        round (p * (L * L : Nat)) = (m : Int) ∧ round (s * (L * L : Nat)) = (n : Int) := by
  have hLL : L * L ≤ 10 ^ 8 := by
    have := Nat.mul_le_mul hL hL
    omega
  exact C89_path_tell (env := ⟨so, Dbl.arith lg⟩) (N := 2 ^ 53) hL3 hL (fits_ieee (by omega) (hL.trans (by norm_num))) (Dbl.rounded half_le hlg)
    (by omega) (Dbl.gradual half_le) (fun x hx => Dbl.prints hx) Dbl.frac_mono (by unfold printErr; norm_num) ctor hf hh n

/-! ### A correctly rounded logarithm -/

namespace Dbl

/-- The correctly rounded logarithm. -/
noncomputable def logRound (x : Dbl) : Dbl := round (decide (x.val < 1)) (Real.log x.val)

/-- A double that is not 1 is not very close to 1. -/
theorem far_from_one {x : ℝ} (h : IsDbl x) (h1 : x ≠ 1) : (2⁻¹ : ℝ) ^ 53 ≤ |x - 1| := by
  rcases lt_or_ge x 2⁻¹ with hx | hx
  · have h2 : x - 1 ≤ -2⁻¹ := by norm_num at hx ⊢; linarith
    rw [abs_of_neg (by norm_num at h2 ⊢; linarith)]
    norm_num at h2 ⊢
    linarith
  · obtain ⟨m, e, hm, _, _, rfl⟩ := h
    have he : -53 ≤ e := by
      by_contra hc
      have h2 : (m : ℝ) < 2 ^ (53 : ℤ) := by exact_mod_cast (le_abs_self m).trans_lt hm
      have h3 : (m : ℝ) * 2 ^ e < 2 ^ (53 : ℤ) * 2 ^ e := mul_lt_mul_of_pos_right h2 (zpow_pos2 e)
      rw [← zpow_add₀ two_ne] at h3
      have h4 : (2 : ℝ) ^ (53 + e) ≤ 2 ^ (-1 : ℤ) := zpow_le_zpow_right₀ (by norm_num) (by omega)
      rw [zpow_neg_one] at h4
      linarith
    have hk : (m : ℝ) * 2 ^ e = ((m * 2 ^ (e + 53).toNat : ℤ) : ℝ) * 2 ^ (-53 : ℤ) := by
      push_cast
      rw [mul_assoc, ← zpow_natCast, ← zpow_add₀ two_ne]
      congr 2
      omega
    rw [hk] at h1 ⊢
    generalize (m * 2 ^ (e + 53).toNat : ℤ) = k at h1 ⊢
    have h5 : (k : ℝ) * 2 ^ (-53 : ℤ) - 1 = ((k - 2 ^ 53 : ℤ) : ℝ) * 2⁻¹ ^ 53 := by
      push_cast
      norm_num
      ring
    have h6 : k - 2 ^ 53 ≠ 0 := by
      intro h0
      rw [h0, Int.cast_zero, zero_mul] at h5
      exact h1 (by linarith)
    have h7 : (1 : ℝ) ≤ |((k - 2 ^ 53 : ℤ) : ℝ)| := by exact_mod_cast Int.one_le_abs h6
    rw [h5, abs_mul, abs_of_pos (by positivity : (0 : ℝ) < 2⁻¹ ^ 53)]
    exact le_mul_of_one_le_left (by positivity) h7

theorem isDbl_abs_le {x : ℝ} (h : IsDbl x) : |x| ≤ big := by
  obtain ⟨m, e, hm, _, he, rfl⟩ := h
  rw [abs_mul, abs_of_pos (zpow_pos2 e), big]
  have h1 : |(m : ℝ)| ≤ 2 ^ 53 - 1 := by
    have : |m| ≤ 2 ^ 53 - 1 := by omega
    exact_mod_cast this
  exact mul_le_mul h1 (zpow_le_zpow_right₀ (by norm_num) he) (zpow_pos2 e).le (by norm_num)

theorem isDbl_ge {x : ℝ} (h : IsDbl x) (h0 : 0 < x) : (2 : ℝ) ^ (-1074 : ℤ) ≤ x := by
  obtain ⟨m, e, _, he, _, rfl⟩ := h
  have hm : 0 < m := by
    have : (0 : ℝ) < m := pos_of_mul_pos_left h0 (zpow_pos2 e).le
    exact_mod_cast this
  have h1 : (1 : ℝ) ≤ m := by exact_mod_cast hm
  have h2 : (2 : ℝ) ^ (-1074 : ℤ) ≤ 2 ^ e := zpow_le_zpow_right₀ (by norm_num) he
  nlinarith [zpow_pos2 e]

/-- It satisfies the assumption on `math.log`. -/
theorem logRound_good : GoodLog logRound (2⁻¹ ^ 53) := by
  intro x hx h0
  have hd := val_isDbl x
  generalize hy : x.val = y at *
  have hup : |Real.log y| ≤ big := by
    have h1 : Real.log y ≤ big := (Real.log_le_sub_one_of_pos h0).trans (by linarith [(le_abs_self y).trans (isDbl_abs_le hd)])
    have h2 : -1074 ≤ Real.log y := by
      have h3 := Real.log_le_log (zpow_pos2 _) (isDbl_ge hd h0)
      rw [Real.log_zpow] at h3
      have h4 := Real.log_le_sub_one_of_pos (show (0 : ℝ) < 2 by norm_num)
      push_cast at h3
      linarith
    have h5 : (1074 : ℝ) ≤ big := le_trans (by norm_num) big_ge
    rw [abs_le]
    exact ⟨by linarith, h1⟩
  obtain ⟨h1, h2⟩ := round_val (decide (y < 1)) hup
  unfold logRound
  rw [hy]
  refine ⟨h1, ?_⟩
  rw [h2]
  rcases eq_or_ne y 1 with e | hne
  · rw [e, Real.log_one, nearest_zero]; simp
  have hlow : tiny ≤ |Real.log y| := by
    have ht : tiny ≤ 2⁻¹ ^ 54 := by
      have : tiny ≤ 2 ^ (-54 : ℤ) := zpow_le_zpow_right₀ (by norm_num) (by norm_num)
      norm_num at this ⊢
      exact this
    refine ht.trans ?_
    have hfar := far_from_one hd hne
    rcases lt_or_gt_of_ne hne with hlt | hgt
    · rw [abs_of_neg (by linarith : y - 1 < 0)] at hfar
      have h3 := Real.log_le_sub_one_of_pos h0
      rw [abs_of_neg (by linarith)]
      norm_num at hfar ⊢
      linarith
    · rw [abs_of_pos (by linarith : 0 < y - 1)] at hfar
      have h3 := Real.one_sub_inv_le_log_of_pos h0
      have h4 : (2⁻¹ : ℝ) ^ 54 ≤ 1 - y⁻¹ := by
        have e : 1 - y⁻¹ = (y - 1) / y := by field_simp
        rw [e, le_div_iff₀ h0]
        norm_num at hfar ⊢
        rcases le_or_gt y 2 with h | h <;> linarith
      exact (h4.trans h3).trans (le_abs_self _)
  have := nearest_err (Real.log y)
  rwa [max_eq_left hlow] at this

theorem GoodLog.mono {u w : ℝ} (h : GoodLog lg u) (huw : u ≤ w) : GoodLog lg w := fun x hx h0 =>
  ⟨(h x hx h0).1, (h x hx h0).2.trans (mul_le_mul_of_nonneg_right huw (abs_nonneg _))⟩

end Dbl

/-- The hypotheses hold for the correctly rounded logarithm, a thousand realisations of L2 on the `128 × 128` lattice and any draws. -/
example (ctor : Nat → Nat) (sh : Nat → Nat) (ds : Nat → Draw) : ∃ out, runEnsemble ⟨demoSet, Dbl.arith Dbl.logRound⟩ .l2 true 128 ctor
    (List.replicate 1000 ⟨sh, ds, 81921⟩) = .ok out ∧ ∀ row ∈ out.1, ∀ x ∈ row, x.Finite := by
  obtain ⟨_, data, crit, _, _, h, _, h1, _⟩ := C106_table (so := demoSet) (v := .l2) (L := 128) (Dbl.logRound_good.mono half_le) (by decide)
    (rs := List.replicate 1000 ⟨sh, ds, 81921⟩) (by norm_num) (by norm_num) (List.ne_nil_of_length_pos (by rw [List.length_replicate]; norm_num))
    (by rw [List.length_replicate]; norm_num) true ctor
    (by intro r hr; rw [List.eq_of_mem_replicate hr]; show 5 * (128 * 128) < 81921; norm_num)
  exact ⟨(data, crit), h, h1⟩

/-- A complete run with L = 3 ends in a state whose `entropy_v1()` is the negative zero. -/
example : ∃ S S', Fresh ⟨demoSet, Dbl.arith Dbl.logRound⟩ .l0 3 S ∧ S.runOnce ⟨demoSet, Dbl.arith Dbl.logRound⟩ .l0 1000 (fun _ => ⟨0, 0⟩) = .ok S' ∧
    S'.entropyV1 ⟨demoSet, Dbl.arith Dbl.logRound⟩ = .ok .nzero := by
  obtain ⟨S, _, h⟩ := fresh_exists ⟨demoSet, Dbl.arith Dbl.logRound⟩ .l0 (L := 3) (by decide) (fun _ => 0)
  obtain ⟨S', seq, e, T, _, hocc, _⟩ := h.run (fuel := 1000) (ds := fun _ => ⟨0, 0⟩) (by decide)
  exact ⟨S, S', h, e, (C106_negative_zero Dbl.logRound_good (by norm_num) (.step (.runOnce 1000 fun _ => ⟨0, 0⟩) h.defReach.reach e) hocc).1⟩

/-! ### Signs, infinities and NaN -/

namespace Dbl

theorem roundEven_neg (x : ℝ) : roundEven (-x) = -roundEven x := by
  have e : x = ⌊x⌋ + Int.fract x := (Int.floor_add_fract x).symm
  have h0 := Int.fract_nonneg x
  have h1 := Int.fract_lt_one x
  rcases eq_or_lt_of_le h0 with hz | hz
  · have ex : x = ((⌊x⌋ : ℤ) : ℝ) := by linarith
    have en : -x = ((-⌊x⌋ : ℤ) : ℝ) := by push_cast; linarith
    rw [en, roundEven_int]
    conv_rhs => rw [ex]
    rw [roundEven_int]
  · have hf : ⌊-x⌋ = -⌊x⌋ - 1 := by
      rw [Int.floor_eq_iff]
      push_cast
      constructor <;> linarith
    have hr : Int.fract (-x) = 1 - Int.fract x := by
      have e' : -x = ⌊-x⌋ + Int.fract (-x) := (Int.floor_add_fract _).symm
      rw [hf] at e'
      push_cast at e'
      linarith
    unfold roundEven
    rw [hf, hr]
    split_ifs <;> first | omega | (exfalso; linarith)

theorem nearest_neg (x : ℝ) : nearest (-x) = -nearest x := by
  have e : unitExp (-x) = unitExp x := by unfold unitExp; rw [abs_neg]
  rw [nearest, e, neg_mul, roundEven_neg, nearest]
  push_cast
  ring

theorem neg_zero (s : Bool) : (zero s).neg = zero !s := by
  cases s
  · show (if (0 : ℝ) = 0 then nzero else _) = _
    rw [if_pos rfl]
    rfl
  · rfl

theorem round_neg (s : Bool) (x : ℝ) : round (!s) (-x) = (round s x).neg := by
  unfold round
  rw [nearest_neg]
  by_cases h0 : nearest x = 0
  · rw [if_pos h0, if_pos (neg_eq_zero.2 h0), neg_zero]
  · rw [if_neg h0, if_neg (fun h => h0 (neg_eq_zero.1 h))]
    by_cases hd : IsDbl (nearest x)
    · rw [dif_pos hd, dif_pos (neg_isDbl hd)]
      show _ = (if nearest x = 0 then nzero else _)
      rw [if_neg h0]
    · rw [dif_neg hd, dif_neg fun h => hd (by have := neg_isDbl h; rwa [neg_neg] at this)]
      rfl

theorem neg?_neg {x : Dbl} (h : x.Finite) : x.neg.neg? = !x.neg? := by
  cases x with
  | fin x hx =>
    show (if x = 0 then nzero else fin (-x) (neg_isDbl hx)).neg? = !decide (x < 0)
    split
    · next h0 => subst h0; simp [neg?]
    · next h0 =>
      show decide (-x < 0) = !decide (x < 0)
      rcases lt_or_gt_of_ne h0 with h1 | h1
      · rw [decide_eq_true h1, decide_eq_false (by linarith)]; rfl
      · rw [decide_eq_false (by linarith : ¬ x < 0), decide_eq_true (by linarith)]; rfl
  | nzero => show decide ((0 : ℝ) < 0) = !true; simp
  | inf s => exact h.elim
  | nan => exact h.elim

theorem mul_finite {x y : Dbl} (hx : x.Finite) (hy : y.Finite) : x.mul y = round (x.neg? ^^ y.neg?) (x.val * y.val) := by
  cases x <;> cases y <;> first | exact hx.elim | exact hy.elim | rfl

theorem add_finite {x y : Dbl} (hx : x.Finite) (hy : y.Finite) : x.add y =
    if x.val + y.val = 0 then zero (x.neg? && y.neg?) else round (decide (x.val + y.val < 0)) (x.val + y.val) := by
  cases x <;> cases y <;> first | exact hx.elim | exact hy.elim | rfl

theorem div_finite {x y : Dbl} (hx : x.Finite) (hy : y.Finite) (h0 : y.val ≠ 0) : x.div y = round (x.neg? ^^ y.neg?) (x.val / y.val) := by
  have key : ∀ a b : Dbl, b.val ≠ 0 → (if b.val = 0 then nan else round (a.neg? ^^ b.neg?) (a.val / b.val)) = round (a.neg? ^^ b.neg?) (a.val / b.val) :=
    fun a b hb => if_neg hb
  cases x <;> cases y <;> first | exact hx.elim | exact hy.elim | exact key _ _ h0

theorem neg_finite_iff (x : Dbl) : x.neg.Finite ↔ x.Finite := by
  constructor
  · intro h; cases x <;> first | trivial | exact h.elim
  · exact fun h => (neg_val h).1

end Dbl

open Dbl in
/-- C106: the signs follow the rules of IEEE 754 (so `-0.0` appears only where Python has it): negation is an involution and can be pulled out of
products and quotients; addition and multiplication commute; `x - x` is `+0.0`; adding `+0.0` to a zero gives `+0.0`. -/
theorem C106_signs (x y : Dbl) : x.neg.neg = x ∧ x.add y = y.add x ∧ x.mul y = y.mul x ∧
    (x.Finite → y.Finite → x.neg.mul y = (x.mul y).neg ∧ (y.val ≠ 0 → x.neg.div y = (x.div y).neg ∧ x.div y.neg = (x.div y).neg)) ∧
    (x.Finite → x.sub x = zero false) ∧ (x.Finite → x.val = 0 → (zero false).add x = zero false) := by
  refine ⟨?_, ?_, ?_, ?_, ?_, ?_⟩
  · cases x with
    | fin x h =>
      show (if x = 0 then nzero else fin (-x) (neg_isDbl h)).neg = _
      split
      · next h0 => subst h0; rfl
      · next h0 =>
        show (if -x = 0 then nzero else fin (- -x) _) = _
        rw [if_neg (fun h => h0 (neg_eq_zero.1 h))]
        congr 1
        exact neg_neg x
    | nzero => exact neg_zero false
    | inf s => show inf (!!s) = inf s; rw [Bool.not_not]
    | nan => rfl
  · by_cases hx : x.Finite
    · by_cases hy : y.Finite
      · rw [add_finite hx hy, add_finite hy hx, add_comm, Bool.and_comm]
      · cases y <;> first | exact absurd trivial hy | (cases x <;> first | rfl | exact hx.elim)
    · cases x with
      | fin x h => exact absurd trivial hx
      | nzero => exact absurd trivial hx
      | nan => cases y <;> rfl
      | inf s =>
        cases y with
        | inf t =>
          show (if s = t then inf s else nan) = if t = s then inf t else nan
          by_cases h : s = t
          · rw [if_pos h, if_pos h.symm, h]
          · rw [if_neg h, if_neg (Ne.symm h)]
        | fin y h => rfl
        | nzero => rfl
        | nan => rfl
  · by_cases hx : x.Finite
    · by_cases hy : y.Finite
      · rw [mul_finite hx hy, mul_finite hy hx, mul_comm, Bool.xor_comm]
      · cases y with
        | fin y h => exact absurd trivial hy
        | nzero => exact absurd trivial hy
        | nan => cases x <;> first | rfl | exact hx.elim
        | inf t =>
          cases x with
          | fin x h =>
            show (if x = 0 then nan else inf (_ ^^ t)) = if x = 0 then nan else inf (t ^^ _)
            rw [Bool.xor_comm]
          | nzero =>
            show (if (0 : ℝ) = 0 then nan else inf (_ ^^ t)) = if (0 : ℝ) = 0 then nan else inf (t ^^ _)
            rw [Bool.xor_comm]
          | inf s => exact hx.elim
          | nan => exact hx.elim
    · cases x with
      | fin x h => exact absurd trivial hx
      | nzero => exact absurd trivial hx
      | nan => cases y <;> rfl
      | inf s =>
        cases y with
        | inf t => show inf (s ^^ t) = inf (t ^^ s); rw [Bool.xor_comm]
        | fin y h =>
          show (if y = 0 then nan else inf (s ^^ _)) = if y = 0 then nan else inf (_ ^^ s)
          rw [Bool.xor_comm]
        | nzero =>
          show (if (0 : ℝ) = 0 then nan else inf (s ^^ _)) = if (0 : ℝ) = 0 then nan else inf (_ ^^ s)
          rw [Bool.xor_comm]
        | nan => rfl
  · intro hx hy
    obtain ⟨h1, h2⟩ := neg_val hx
    obtain ⟨g1, g2⟩ := neg_val hy
    refine ⟨?_, fun h0 => ⟨?_, ?_⟩⟩
    · rw [mul_finite h1 hy, mul_finite hx hy, neg?_neg hx, h2, neg_mul, ← round_neg, Bool.not_xor]
    · rw [div_finite h1 hy h0, div_finite hx hy h0, neg?_neg hx, h2, neg_div, ← round_neg, Bool.not_xor]
    · rw [div_finite hx g1 (by rw [g2]; exact neg_ne_zero.2 h0), div_finite hx hy h0, neg?_neg hy, g2, div_neg, ← round_neg, Bool.xor_not]
  · intro hx
    obtain ⟨h1, h2⟩ := neg_val hx
    rw [sub, add_finite hx h1, h2, add_neg_cancel, if_pos rfl, neg?_neg hx, Bool.and_not_self]
  · intro hx h0
    rw [add_finite (zero_val _).1 hx, (zero_val _).2, h0, add_zero, if_pos rfl]
    show zero (decide ((0 : ℝ) < 0) && _) = _
    rw [decide_eq_false (lt_irrefl _), Bool.false_and]

/-- Overflow gives an infinity, and infinities of opposite sign cancel to NaN. -/
example : Dbl.round false (2 ^ 1024) = .inf false ∧ (Dbl.inf false).add (.inf true) = .nan ∧ (Dbl.inf true).mul (.inf true) = .inf false ∧
    Dbl.fmt (.inf true) = "-inf".toList ∧ Dbl.fmt .nan = "nan".toList := by
  have hn : ¬ IsDbl ((2 : ℝ) ^ 1024) := by
    intro h
    have h1 := Dbl.isDbl_abs_le h
    rw [abs_of_pos (by positivity), Dbl.big, show (2 : ℝ) ^ 1024 = 2 ^ 53 * 2 ^ (971 : ℤ) by
      rw [← zpow_natCast, ← zpow_natCast, ← zpow_add₀ Dbl.two_ne]; norm_num] at h1
    have h2 := le_of_mul_le_mul_right h1 (Dbl.zpow_pos2 971)
    norm_num at h2
  have hk : Dbl.nearest ((2 : ℝ) ^ 1024) = 2 ^ 1024 := by
    have hl : Dbl.unitExp ((2 : ℝ) ^ 1024) = 972 := by
      have : Int.log 2 |(2 : ℝ) ^ 1024| = 1024 := by
        rw [abs_of_pos (by positivity)]
        have := Int.log_zpow (R := ℝ) (b := 2) (by norm_num) 1024
        rw [← this]
        congr 1
      unfold Dbl.unitExp
      omega
    refine Dbl.nearest_multiple (k := 2 ^ 52) ?_
    rw [hl]
    rw [show ((2 ^ 52 : ℤ) : ℝ) = 2 ^ (52 : ℤ) by norm_num, ← zpow_natCast, ← zpow_add₀ Dbl.two_ne]
    norm_num
  refine ⟨?_, rfl, rfl, rfl, rfl⟩
  rw [Dbl.round, hk, if_neg (by positivity), dif_neg hn]

end SqPerc
