import Verif.Proof.Thresholds
import Mathlib.Analysis.SpecificLimits.Normed
/-
C98: the measured threshold is neither near 0 nor near 1, however large the lattice.
-/
namespace SqPerc

variable {so : SetOrder} {L : Nat}

theorem meanOf_not {ι : Type} [Fintype ι] [Nonempty ι] (P : ι → Prop) : meanOf (fun i => ind (¬ P i)) = 1 - meanOf fun i => ind (P i) := by
  rw [← meanOf_const (ι := ι) 1, ← meanOf_sub]
  refine meanOf_congr fun i => ?_
  unfold ind
  by_cases h : P i
  · rw [if_neg (not_not.2 h), if_pos h, sub_self]
  · rw [if_pos h, if_neg h, sub_zero]

theorem ind_mono {p q : Prop} (h : p → q) : ind p ≤ ind q := by
  unfold ind
  by_cases hp : p
  · rw [if_pos hp, if_pos (h hp)]
  · rw [if_neg hp]
    split <;> norm_num

/-- The bound for the chance that `n` sites wrap. -/
noncomputable def below (L n : Nat) : ℝ := (L : ℝ) ^ 2 * ((1 + √2) * ((n : ℝ) / (L * L : Nat))) ^ L

/-- The bound for the chance that `n` sites do not wrap. -/
noncomputable def above (L n : Nat) : ℝ := (L : ℝ) ^ 2 * ((2 + √5) * (1 - (n : ℝ) / (L * L : Nat))) ^ L

theorem density_le_one (hL : 0 < L) {n : Nat} (hn : n ≤ L * L) : (n : ℝ) / (L * L : Nat) ≤ 1 := by
  rw [div_le_one (by exact_mod_cast Nat.mul_pos hL hL)]
  exact_mod_cast hn

theorem below_mono (hL : 0 < L) {n m : Nat} (h : n ≤ m) : below L n ≤ below L m := by
  have hN : (0 : ℝ) < (L * L : Nat) := by exact_mod_cast Nat.mul_pos hL hL
  refine mul_le_mul_of_nonneg_left (pow_le_pow_left₀ (by positivity) (mul_le_mul_of_nonneg_left ?_ (by positivity)) _) (by positivity)
  exact div_le_div_of_nonneg_right (by exact_mod_cast h) hN.le

theorem above_anti (hL : 0 < L) {n m : Nat} (h : n ≤ m) (hm : m ≤ L * L) : above L m ≤ above L n := by
  have hN : (0 : ℝ) < (L * L : Nat) := by exact_mod_cast Nat.mul_pos hL hL
  have h1 := density_le_one hL hm
  have h2 : (n : ℝ) / (L * L : Nat) ≤ (m : ℝ) / (L * L : Nat) := div_le_div_of_nonneg_right (by exact_mod_cast h) hN.le
  exact mul_le_mul_of_nonneg_left (pow_le_pow_left₀ (mul_nonneg (by positivity) (by linarith))
    (mul_le_mul_of_nonneg_left (by linarith) (by positivity)) _) (by positivity)

theorem above_nonneg (hL : 0 < L) {n : Nat} (hn : n ≤ L * L) : 0 ≤ above L n := by
  have h1 := density_le_one hL hn
  exact mul_nonneg (by positivity) (pow_nonneg (mul_nonneg (by positivity) (by linarith)) _)

theorem micro_wraps_le_one {n : Nat} (hn : n ≤ L * L) : micro (L * L) n (fun T => ind (Wraps L (· ∈ T))) ≤ 1 := by
  have hch : (0 : ℝ) < (L * L).choose n := by exact_mod_cast Nat.choose_pos hn
  rw [micro, div_le_one hch]
  refine (Finset.sum_le_card_nsmul _ _ 1 fun T _ => ind_le_one _).trans ?_
  rw [Finset.card_powersetCard, Finset.card_range, nsmul_eq_mul, mul_one]

theorem mean_between (hL : 0 < L) {n : Nat} (hn : n ≤ L * L) :
    (n : ℝ) / (L * L : Nat) * (1 - below L n) ≤
      (∑ k ∈ Finset.range (L * L), (1 - micro (L * L) k fun T => ind (Wraps L (· ∈ T)))) / (L * L : Nat) ∧
    (∑ k ∈ Finset.range (L * L), (1 - micro (L * L) k fun T => ind (Wraps L (· ∈ T)))) / (L * L : Nat) ≤ (n : ℝ) / (L * L : Nat) + above L n := by
  have hN : (0 : ℝ) < (L * L : Nat) := by exact_mod_cast Nat.mul_pos hL hL
  have split := Finset.sum_range_add_sum_Ico (fun k => 1 - micro (L * L) k fun T => ind (Wraps L (· ∈ T))) hn
  constructor
  · rw [div_mul_eq_mul_div]
    refine div_le_div_of_nonneg_right ?_ hN.le
    rw [← split]
    have h1 : (n : ℝ) * (1 - below L n) ≤ ∑ k ∈ Finset.range n, (1 - micro (L * L) k fun T => ind (Wraps L (· ∈ T))) := by
      have := Finset.card_nsmul_le_sum (Finset.range n) (fun k => 1 - micro (L * L) k fun T => ind (Wraps L (· ∈ T))) (1 - below L n) (by
        intro k hk
        rw [Finset.mem_range] at hk
        have := wraps_unlikely hL (n := k) (by omega)
        have h3 := below_mono hL hk.le
        simp only [below] at h3 ⊢
        linarith)
      rwa [Finset.card_range, nsmul_eq_mul] at this
    have h2 : 0 ≤ ∑ k ∈ Finset.Ico n (L * L), (1 - micro (L * L) k fun T => ind (Wraps L (· ∈ T))) :=
      Finset.sum_nonneg fun k hk => by
        rw [Finset.mem_Ico] at hk
        have := micro_wraps_le_one (L := L) (n := k) (by omega)
        linarith
    linarith
  · rw [div_le_iff₀ hN, add_mul, div_mul_cancel₀ _ hN.ne', ← split]
    have h1 : ∑ k ∈ Finset.range n, (1 - micro (L * L) k fun T => ind (Wraps L (· ∈ T))) ≤ n := by
      have := Finset.sum_le_card_nsmul (Finset.range n) (fun k => 1 - micro (L * L) k fun T => ind (Wraps L (· ∈ T))) 1 (by
        intro k hk
        have : 0 ≤ micro (L * L) k fun T => ind (Wraps L (· ∈ T)) := div_nonneg (Finset.sum_nonneg fun _ _ => ind_nonneg _) (Nat.cast_nonneg _)
        linarith)
      rwa [Finset.card_range, nsmul_eq_mul, mul_one] at this
    have h2 : ∑ k ∈ Finset.Ico n (L * L), (1 - micro (L * L) k fun T => ind (Wraps L (· ∈ T))) ≤ above L n * (L * L : Nat) := by
      have := Finset.sum_le_card_nsmul (Finset.Ico n (L * L)) (fun k => 1 - micro (L * L) k fun T => ind (Wraps L (· ∈ T))) (above L n) (by
        intro k hk
        rw [Finset.mem_Ico] at hk
        have := not_wraps_unlikely hL (n := k) (by omega)
        have h3 := above_anti hL hk.1 hk.2.le
        simp only [above] at h3 ⊢
        linarith)
      rw [Nat.card_Ico, nsmul_eq_mul, mul_comm _ (above L n)] at this
      refine this.trans (mul_le_mul_of_nonneg_left ?_ (above_nonneg hL hn))
      exact_mod_cast Nat.sub_le _ _
    linarith

/-- The two tails and the mean of a value with the law of the wrapping threshold. -/
theorem law_bounds {ι : Type} [Fintype ι] [Nonempty ι] (hL : 0 < L) {pc : ι → ℝ}
    (h1 : ∀ n ≤ L * L, meanOf (fun x => ind (pc x ≤ (n : ℝ) / (L * L : Nat))) = micro (L * L) n fun T => ind (Wraps L (· ∈ T)))
    (h2 : meanOf pc = (∑ n ∈ Finset.range (L * L), (1 - micro (L * L) n fun T => ind (Wraps L (· ∈ T)))) / (L * L : Nat)) {n : Nat} (hn : n ≤ L * L) :
    meanOf (fun x => ind (pc x ≤ (n : ℝ) / (L * L : Nat))) ≤ (L : ℝ) ^ 2 * ((1 + √2) * ((n : ℝ) / (L * L : Nat))) ^ L ∧
    meanOf (fun x => ind ((n : ℝ) / (L * L : Nat) < pc x)) ≤ (L : ℝ) ^ 2 * ((2 + √5) * (1 - (n : ℝ) / (L * L : Nat))) ^ L ∧
    (n : ℝ) / (L * L : Nat) * (1 - (L : ℝ) ^ 2 * ((1 + √2) * ((n : ℝ) / (L * L : Nat))) ^ L) ≤ meanOf pc ∧
    meanOf pc ≤ (n : ℝ) / (L * L : Nat) + (L : ℝ) ^ 2 * ((2 + √5) * (1 - (n : ℝ) / (L * L : Nat))) ^ L := by
  refine ⟨by rw [h1 n hn]; exact wraps_unlikely hL hn, ?_, ?_⟩
  · have := meanOf_not fun x => pc x ≤ (n : ℝ) / (L * L : Nat)
    simp only [not_le] at this
    rw [this, h1 n hn]
    exact not_wraps_unlikely hL hn
  · rw [h2]
    exact mean_between hL hn

/-- The bounds become sharp on large lattices. -/
theorem large_lattices {ε : ℝ} (hε : 0 < ε) : ∃ L0 : Nat, ∀ L : Nat, L0 ≤ L → 0 < L ∧
    (∃ n : Nat, n ≤ L * L ∧ √2 - 1 - ε ≤ (n : ℝ) / (L * L : Nat) ∧ below L n ≤ ε) ∧
    ∃ n : Nat, n ≤ L * L ∧ (n : ℝ) / (L * L : Nat) ≤ 3 - √5 + ε ∧ above L n ≤ ε := by
  have h2 : √2 * √2 = 2 := Real.mul_self_sqrt (by norm_num)
  have h5 : √5 * √5 = 5 := Real.mul_self_sqrt (by norm_num)
  have hs2 : 1 ≤ √2 := by rw [Real.one_le_sqrt]; norm_num
  have hs2' : √2 ≤ 2 := by
    rw [Real.sqrt_le_left (by norm_num)]
    norm_num
  have hs5 : 2 ≤ √5 := Real.le_sqrt_of_sq_le (by norm_num)
  have hs5' : √5 ≤ 3 := by
    rw [Real.sqrt_le_left (by norm_num)]
    norm_num
  have key : ∀ c y : ℝ, 0 ≤ c → c * y < 1 → ∃ L0, ∀ L : Nat, L0 ≤ L → (L : ℝ) ^ 2 * (c * max y 0) ^ L ≤ ε := by
    intro c y hc hy
    have hr1 : c * max y 0 < 1 := by
      rcases le_total y 0 with h | h
      · rw [max_eq_right h, mul_zero]; exact one_pos
      · rwa [max_eq_left h]
    have := tendsto_pow_const_mul_const_pow_of_lt_one 2 (mul_nonneg hc (le_max_right y 0)) hr1
    obtain ⟨L0, h⟩ := Filter.eventually_atTop.1 (this.eventually (gt_mem_nhds hε))
    exact ⟨L0, fun L hL => (h L hL).le⟩
  obtain ⟨L1, k1⟩ := key (1 + √2) (√2 - 1 - ε / 2) (by positivity) (by nlinarith)
  obtain ⟨L2, k2⟩ := key (2 + √5) (√5 - 2 - ε / 2) (by positivity) (by nlinarith)
  obtain ⟨L3, k3⟩ := exists_nat_gt (2 / ε)
  refine ⟨max 1 (max L1 (max L2 L3)), fun L hL => ?_⟩
  have hL0 : 0 < L := by omega
  have hN : (0 : ℝ) < (L * L : Nat) := by exact_mod_cast Nat.mul_pos hL0 hL0
  have hinv : 1 / ((L * L : Nat) : ℝ) ≤ ε / 2 := by
    rw [div_le_iff₀ hN]
    have a1 : (L3 : ℝ) ≤ (L * L : Nat) := by
      have : L3 ≤ L * L := le_trans (by omega) (Nat.le_mul_self L)
      exact_mod_cast this
    have a2 : 2 / ε < (L * L : Nat) := k3.trans_le a1
    rw [div_lt_iff₀ hε] at a2
    linarith
  refine ⟨hL0, ?_, ?_⟩
  · refine ⟨⌈(√2 - 1 - ε) * (L * L : Nat)⌉₊, ?_, ?_, ?_⟩
    · rw [Nat.ceil_le]
      nlinarith
    · rw [le_div_iff₀ hN]
      exact Nat.le_ceil _
    · refine le_trans ?_ (k1 L (by omega))
      refine mul_le_mul_of_nonneg_left (pow_le_pow_left₀ (by positivity) (mul_le_mul_of_nonneg_left ?_ (by positivity)) _) (by positivity)
      rcases le_or_gt ((√2 - 1 - ε) * (L * L : Nat)) 0 with h | h
      · rw [Nat.ceil_eq_zero.2 h, Nat.cast_zero, zero_div]
        exact le_max_right _ _
      · refine le_trans ?_ (le_max_left _ _)
        rw [div_le_iff₀ hN]
        have := Nat.ceil_lt_add_one h.le
        rw [div_le_iff₀ hN] at hinv
        nlinarith
  · by_cases hx : 1 ≤ 3 - √5 + ε
    · refine ⟨L * L, le_rfl, by rwa [div_self hN.ne'], ?_⟩
      rw [above, div_self hN.ne', sub_self, mul_zero, zero_pow (by omega), mul_zero]
      exact hε.le
    · push Not at hx
      have hx0 : 0 ≤ (3 - √5 + ε) * (L * L : Nat) := mul_nonneg (by linarith) hN.le
      have hle : ⌊(3 - √5 + ε) * (L * L : Nat)⌋₊ ≤ L * L := by
        have : (⌊(3 - √5 + ε) * (L * L : Nat)⌋₊ : ℝ) ≤ (L * L : Nat) := (Nat.floor_le hx0).trans (by nlinarith)
        exact_mod_cast this
      refine ⟨⌊(3 - √5 + ε) * (L * L : Nat)⌋₊, hle, ?_, ?_⟩
      · rw [div_le_iff₀ hN]
        exact Nat.floor_le hx0
      · refine le_trans ?_ (k2 L (by omega))
        have h1 := density_le_one hL0 hle
        refine mul_le_mul_of_nonneg_left (pow_le_pow_left₀ (mul_nonneg (by positivity) (by linarith)) (mul_le_mul_of_nonneg_left ?_ (by positivity)) _)
          (by positivity)
        refine le_trans ?_ (le_max_left _ _)
        have := Nat.lt_floor_add_one ((3 - √5 + ε) * (L * L : Nat))
        rw [sub_le_iff_le_add, ← sub_le_iff_le_add', le_div_iff₀ hN]
        rw [div_le_iff₀ hN] at hinv
        nlinarith

theorem law_limit {ε : ℝ} (hε : 0 < ε) : ∃ L0 : Nat, ∀ L : Nat, L0 ≤ L → ∀ {ι : Type} [Fintype ι] [Nonempty ι] {pc : ι → ℝ},
    (∀ n ≤ L * L, meanOf (fun x => ind (pc x ≤ (n : ℝ) / (L * L : Nat))) = micro (L * L) n fun T => ind (Wraps L (· ∈ T))) →
    meanOf pc = (∑ n ∈ Finset.range (L * L), (1 - micro (L * L) n fun T => ind (Wraps L (· ∈ T)))) / (L * L : Nat) →
    meanOf (fun x => ind (pc x ≤ √2 - 1 - ε)) ≤ ε ∧ meanOf (fun x => ind (3 - √5 + ε < pc x)) ≤ ε ∧
    √2 - 1 - ε ≤ meanOf pc ∧ meanOf pc ≤ 3 - √5 + ε := by
  obtain ⟨L0, h⟩ := large_lattices (half_pos hε)
  refine ⟨L0, fun L hL ι _ _ pc h1 h2 => ?_⟩
  obtain ⟨hL0, ⟨n, hn, n1, n2⟩, m, hm, m1, m2⟩ := h L hL
  have bn := law_bounds hL0 h1 h2 hn
  have bm := law_bounds hL0 h1 h2 hm
  unfold below at n2
  unfold above at m2
  have hx := density_le_one hL0 hn
  have hx0 : 0 ≤ (n : ℝ) / (L * L : Nat) := by positivity
  refine ⟨?_, ?_, ?_, ?_⟩
  · refine (meanOf_mono fun x => ind_mono fun h => ?_).trans (bn.1.trans (by linarith))
    linarith
  · refine (meanOf_mono fun x => ind_mono fun h => ?_).trans (bm.2.1.trans (by linarith))
    linarith
  · refine le_trans ?_ bn.2.2.1
    nlinarith
  · refine bm.2.2.2.trans ?_
    linarith

/-- C98: the threshold p_c in the critical file of L0.  For every number `n` of sites, the probability that p_c is at most `x = n / L²` is at
most `L² ((1 + √2) x)^L`, the probability that it is larger is at most `L² ((2 + √5) (1 - x))^L`, and the mean is between the values that
follow. -/
theorem C98_critical (hL : 3 ≤ L) {E : Nat} (pl : Bool) (ctor : Nat → Nat) (steps : Nat → Draw) {fuel : Nat} (hf : 5 * (L * L) < fuel) {i : Nat}
    (hi : i < E) :
    ∃ (table : (Fin E → DrawVec (L * L)) → List (List ℝ)) (crit : (Fin E → DrawVec (L * L)) → List (CritRow ℝ))
      (pc : (Fin E → DrawVec (L * L)) → ℝ),
      (∀ x, runEnsemble (realEnv so) .l0 pl L ctor (ensembleDraws steps fuel x) = .ok (table x, crit x)) ∧
      (∀ x, (crit x)[i]?.map (·.pc) = some (pc x)) ∧ ∀ n ≤ L * L,
        meanOf (fun x => ind (pc x ≤ (n : ℝ) / (L * L : Nat))) ≤ (L : ℝ) ^ 2 * ((1 + √2) * ((n : ℝ) / (L * L : Nat))) ^ L ∧
        meanOf (fun x => ind ((n : ℝ) / (L * L : Nat) < pc x)) ≤ (L : ℝ) ^ 2 * ((2 + √5) * (1 - (n : ℝ) / (L * L : Nat))) ^ L ∧
        (n : ℝ) / (L * L : Nat) * (1 - (L : ℝ) ^ 2 * ((1 + √2) * ((n : ℝ) / (L * L : Nat))) ^ L) ≤ meanOf pc ∧
        meanOf pc ≤ (n : ℝ) / (L * L : Nat) + (L : ℝ) ^ 2 * ((2 + √5) * (1 - (n : ℝ) / (L * L : Nat))) ^ L := by
  obtain ⟨table, crit, pc, h1, h2, h3, h4⟩ := C69_critical (so := so) hL pl ctor steps hf hi
  exact ⟨table, crit, pc, h1, h2, fun n hn => law_bounds (by omega) h3 h4 hn⟩

/-- C98: the same for the first column of the file of the shortest-path class. -/
theorem C98_shortest_path (hL : 3 ≤ L) {E : Nat} (ctor : Nat → Nat) (steps : Nat → Draw) {fuel : Nat} (hf : L * L < fuel) {i : Nat} (hi : i < E) :
    ∃ (rows : (Fin E → DrawVec (L * L)) → List (ℝ × ℝ)) (pc : (Fin E → DrawVec (L * L)) → ℝ),
      (∀ x, spEnsemble (realEnv so) L ctor (ensembleDraws steps fuel x) = .ok (rows x)) ∧
      (∀ x, (rows x)[i]?.map (·.1) = some (pc x)) ∧ ∀ n ≤ L * L,
        meanOf (fun x => ind (pc x ≤ (n : ℝ) / (L * L : Nat))) ≤ (L : ℝ) ^ 2 * ((1 + √2) * ((n : ℝ) / (L * L : Nat))) ^ L ∧
        meanOf (fun x => ind ((n : ℝ) / (L * L : Nat) < pc x)) ≤ (L : ℝ) ^ 2 * ((2 + √5) * (1 - (n : ℝ) / (L * L : Nat))) ^ L ∧
        (n : ℝ) / (L * L : Nat) * (1 - (L : ℝ) ^ 2 * ((1 + √2) * ((n : ℝ) / (L * L : Nat))) ^ L) ≤ meanOf pc ∧
        meanOf pc ≤ (n : ℝ) / (L * L : Nat) + (L : ℝ) ^ 2 * ((2 + √5) * (1 - (n : ℝ) / (L * L : Nat))) ^ L := by
  obtain ⟨rows, pc, h1, h2, h3, h4⟩ := C69_shortest_path (so := so) hL ctor steps hf hi
  exact ⟨rows, pc, h1, h2, fun n hn => law_bounds (by omega) h3 h4 hn⟩

/-- C98: on all sufficiently large lattices every value p_c of the critical file is, up to any given probability and tolerance, between
`√2 - 1 ≈ 0.414` and `3 - √5 ≈ 0.764`, and so is its mean. -/
theorem C98_limit {ε : ℝ} (hε : 0 < ε) : ∃ L0 : Nat, ∀ L : Nat, L0 ≤ L → 3 ≤ L → ∀ {E : Nat} (pl : Bool) (ctor : Nat → Nat) (steps : Nat → Draw) {fuel : Nat},
    5 * (L * L) < fuel → ∀ {i : Nat}, i < E →
    ∃ (table : (Fin E → DrawVec (L * L)) → List (List ℝ)) (crit : (Fin E → DrawVec (L * L)) → List (CritRow ℝ))
      (pc : (Fin E → DrawVec (L * L)) → ℝ),
      (∀ x, runEnsemble (realEnv so) .l0 pl L ctor (ensembleDraws steps fuel x) = .ok (table x, crit x)) ∧
      (∀ x, (crit x)[i]?.map (·.pc) = some (pc x)) ∧
      meanOf (fun x => ind (pc x ≤ √2 - 1 - ε)) ≤ ε ∧ meanOf (fun x => ind (3 - √5 + ε < pc x)) ≤ ε ∧
      √2 - 1 - ε ≤ meanOf pc ∧ meanOf pc ≤ 3 - √5 + ε := by
  obtain ⟨L0, h⟩ := law_limit hε
  refine ⟨L0, fun L hL hL3 E pl ctor steps fuel hf i hi => ?_⟩
  obtain ⟨table, crit, pc, h1, h2, h3, h4⟩ := C69_critical (so := so) hL3 pl ctor steps hf hi
  exact ⟨table, crit, pc, h1, h2, h L hL h3 h4⟩

/-- C98: the same for the first column of the file of the shortest-path class. -/
theorem C98_limit_shortest_path {ε : ℝ} (hε : 0 < ε) : ∃ L0 : Nat, ∀ L : Nat, L0 ≤ L → 3 ≤ L → ∀ {E : Nat} (ctor : Nat → Nat) (steps : Nat → Draw) {fuel : Nat},
    L * L < fuel → ∀ {i : Nat}, i < E →
    ∃ (rows : (Fin E → DrawVec (L * L)) → List (ℝ × ℝ)) (pc : (Fin E → DrawVec (L * L)) → ℝ),
      (∀ x, spEnsemble (realEnv so) L ctor (ensembleDraws steps fuel x) = .ok (rows x)) ∧
      (∀ x, (rows x)[i]?.map (·.1) = some (pc x)) ∧
      meanOf (fun x => ind (pc x ≤ √2 - 1 - ε)) ≤ ε ∧ meanOf (fun x => ind (3 - √5 + ε < pc x)) ≤ ε ∧
      √2 - 1 - ε ≤ meanOf pc ∧ meanOf pc ≤ 3 - √5 + ε := by
  obtain ⟨L0, h⟩ := law_limit hε
  refine ⟨L0, fun L hL hL3 E ctor steps fuel hf i hi => ?_⟩
  obtain ⟨rows, pc, h1, h2, h3, h4⟩ := C69_shortest_path (so := so) hL3 ctor steps hf hi
  exact ⟨rows, pc, h1, h2, h L hL h3 h4⟩

/-- For instance: for `L = 100` the critical value is at most 1/4, or larger than 9/10, with probability less than `10⁻¹⁷` each. -/
example {E : Nat} (ctor : Nat → Nat) (steps : Nat → Draw) {i : Nat} (hi : i < E) :
    ∃ (table : (Fin E → DrawVec (100 * 100)) → List (List ℝ)) (crit : (Fin E → DrawVec (100 * 100)) → List (CritRow ℝ))
      (pc : (Fin E → DrawVec (100 * 100)) → ℝ),
      (∀ x, runEnsemble (realEnv so) .l0 false 100 ctor (ensembleDraws steps 50001 x) = .ok (table x, crit x)) ∧
      (∀ x, (crit x)[i]?.map (·.pc) = some (pc x)) ∧
      meanOf (fun x => ind (pc x ≤ 1 / 4)) ≤ 1 / 10 ^ 17 ∧ meanOf (fun x => ind (9 / 10 < pc x)) ≤ 1 / 10 ^ 17 := by
  obtain ⟨table, crit, pc, h1, h2, h3⟩ := C98_critical (so := so) (L := 100) (by omega) false ctor steps (fuel := 50001) (by omega) hi
  have hs2' : √2 ≤ 1.42 := by
    rw [Real.sqrt_le_left (by norm_num)]
    norm_num
  have hs5' : √5 ≤ 2.24 := by
    rw [Real.sqrt_le_left (by norm_num)]
    norm_num
  refine ⟨table, crit, pc, h1, h2, ?_, ?_⟩
  · have := (h3 2500 (by omega)).1
    rw [show ((2500 : Nat) : ℝ) / (100 * 100 : Nat) = 1 / 4 by norm_num] at this
    refine this.trans ?_
    have : ((1 + √2) * (1 / 4)) ^ 100 ≤ (0.61 : ℝ) ^ 100 := pow_le_pow_left₀ (by positivity) (by linarith) _
    refine (mul_le_mul_of_nonneg_left this (by positivity)).trans ?_
    norm_num
  · have := (h3 9000 (by omega)).2.1
    rw [show ((9000 : Nat) : ℝ) / (100 * 100 : Nat) = 9 / 10 by norm_num] at this
    refine this.trans ?_
    have : ((2 + √5) * (1 - 9 / 10)) ^ 100 ≤ (0.43 : ℝ) ^ 100 := pow_le_pow_left₀ (by norm_num; positivity) (by linarith) _
    refine (mul_le_mul_of_nonneg_left this (by positivity)).trans ?_
    norm_num

end SqPerc
