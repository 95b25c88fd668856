import Verif.Proof.Small
import Verif.Props.Threshold
/-
C100: the table at low density.
-/
namespace SqPerc

variable {so : SetOrder} {L : Nat}

theorem micro_mono {N n : Nat} {f g : Finset Nat → ℝ} (h : ∀ T ⊆ Finset.range N, f T ≤ g T) : micro N n f ≤ micro N n g :=
  div_le_div_of_nonneg_right (Finset.sum_le_sum fun T hT => h T (Finset.mem_powersetCard.1 hT).1) (Nat.cast_nonneg _)

theorem micro_linear {N n : Nat} (hn : n ≤ N) (a b : ℝ) (f : Finset Nat → ℝ) : micro N n (fun T => a + b * f T) = a + b * micro N n f := by
  have hch : (N.choose n : ℝ) ≠ 0 := by exact_mod_cast (Nat.choose_pos hn).ne'
  unfold micro
  rw [Finset.sum_add_distrib, Finset.sum_const, Finset.card_powersetCard, Finset.card_range, nsmul_eq_mul, ← Finset.mul_sum]
  field_simp

/-- The event that there is a large cluster. -/
def Big (L r : Nat) (T : Finset Nat) : Prop := ∃ s ∈ T, (2 * r - 1) ^ 2 < (siteComp L (· ∈ T) s).card

theorem sup_of_not_big {r : Nat} (hr : 0 < r) {T : Finset Nat} (hT : T ⊆ Finset.range (L * L)) (h : ¬ Big L r T) {b : Nat} (hb : b < 2 * (L * L)) :
    (bondComp L (· ∈ T) b).card ≤ 4 * (2 * r - 1) ^ 2 := by
  refine bondComp_small (fun s hs => Finset.mem_range.1 (hT hs)) ?_ ?_ hb
  · have : 0 < (2 * r - 1) ^ 2 := pow_pos (by omega) 2
    omega
  · intro s hs
    by_contra hc
    exact h ⟨s, hs, Nat.lt_of_not_le hc⟩

theorem micro_largest {r : Nat} (hr : 0 < r) (hrL : r < L) {n : Nat} (hn : n ≤ L * L) :
    micro (L * L) n (fun T => ((bondComps L (· ∈ T)).sup Finset.card : ℕ) / (2 * (L * L) : Nat)) ≤
      2 * (2 * r - 1) ^ 2 / (L * L : Nat) + (L : ℝ) ^ 2 * ((1 + √2) * ((n : ℝ) / (L * L : Nat))) ^ (r + 1) := by
  classical
  have hL : 0 < L := by omega
  have hN : (0 : ℝ) < (L * L : Nat) := by exact_mod_cast Nat.mul_pos hL hL
  have hB : ((2 * (L * L) : Nat) : ℝ) = 2 * (L * L : Nat) := by push_cast; ring
  have hle := micro_mono (N := L * L) (n := n) (f := fun T => (((bondComps L (· ∈ T)).sup Finset.card : ℕ) : ℝ) / (2 * (L * L) : Nat))
    (g := fun T => 2 * (2 * r - 1) ^ 2 / (L * L : Nat) + 1 * ind (Big L r T)) (by
      intro T hT
      rw [one_mul]
      by_cases hb : Big L r T
      · rw [ind, if_pos hb]
        have : ((bondComps L (· ∈ T)).sup Finset.card : ℕ) ≤ 2 * (L * L) := by
          refine Finset.sup_le fun X hX => ?_
          obtain ⟨b, _, rfl⟩ := Finset.mem_image.1 hX
          refine (Finset.card_filter_le _ _).trans ?_
          rw [Finset.card_range]
        have h1 : (((bondComps L (· ∈ T)).sup Finset.card : ℕ) : ℝ) / (2 * (L * L) : Nat) ≤ 1 := by
          rw [div_le_one (by rw [hB]; linarith)]
          exact_mod_cast this
        have : (0 : ℝ) ≤ 2 * (2 * r - 1) ^ 2 / (L * L : Nat) := by positivity
        linarith
      · rw [ind, if_neg hb, add_zero]
        have : ((bondComps L (· ∈ T)).sup Finset.card : ℕ) ≤ 4 * (2 * r - 1) ^ 2 := by
          refine Finset.sup_le fun X hX => ?_
          obtain ⟨b, hb', rfl⟩ := Finset.mem_image.1 hX
          exact sup_of_not_big hr hT hb (Finset.mem_range.1 hb')
        have h1 : (((bondComps L (· ∈ T)).sup Finset.card : ℕ) : ℝ) ≤ 4 * (2 * r - 1) ^ 2 := by
          have e : ((4 * (2 * r - 1) ^ 2 : Nat) : ℝ) = 4 * (2 * r - 1) ^ 2 := by
            rw [Nat.cast_mul, Nat.cast_pow, Nat.cast_sub (by omega)]
            push_cast
            ring
          rw [← e]
          exact_mod_cast this
        rw [hB, div_le_div_iff₀ (by linarith) hN]
        nlinarith)
  refine hle.trans ?_
  rw [micro_linear hn, one_mul]
  exact add_le_add le_rfl (big_unlikely hrL hn)

theorem micro_shannon {r : Nat} (hr : 0 < r) (hrL : r < L) (hbig : 2 * (2 * r - 1) ^ 2 ≤ L * L) {n : Nat} (hn : n ≤ L * L) :
    Real.log ((L * L : Nat) / (2 * (2 * r - 1) ^ 2)) * (1 - (L : ℝ) ^ 2 * ((1 + √2) * ((n : ℝ) / (L * L : Nat))) ^ (r + 1)) ≤
      micro (L * L) n (fun T => shannon L (· ∈ T)) := by
  have hL : 0 < L := by omega
  have hN : (0 : ℝ) < (L * L : Nat) := by exact_mod_cast Nat.mul_pos hL hL
  have hpow : 0 < (2 * r - 1) ^ 2 := pow_pos (by omega) 2
  have e : (((2 * r - 1) ^ 2 : Nat) : ℝ) = (2 * r - 1) ^ 2 := by
    rw [Nat.cast_pow, Nat.cast_sub (by omega)]
    push_cast
    ring
  have hpow' : (0 : ℝ) < (2 * r - 1) ^ 2 := by
    rw [← e]
    exact_mod_cast hpow
  have hlog : 0 ≤ Real.log ((L * L : Nat) / (2 * (2 * r - 1) ^ 2)) := by
    refine Real.log_nonneg ?_
    rw [one_le_div (by positivity), ← e]
    exact_mod_cast hbig
  have hle := micro_mono (N := L * L) (n := n)
    (f := fun T => Real.log ((L * L : Nat) / (2 * (2 * r - 1) ^ 2)) + -Real.log ((L * L : Nat) / (2 * (2 * r - 1) ^ 2)) * ind (Big L r T))
    (g := fun T => shannon L (· ∈ T)) (by
      intro T hT
      by_cases hb : Big L r T
      · rw [ind, if_pos hb, mul_one, add_neg_cancel]
        exact shannon_nonneg hL _
      · rw [ind, if_neg hb, mul_zero, add_zero]
        have := shannon_ge hL (occ := (· ∈ T)) (M := 4 * (2 * r - 1) ^ 2) (by omega) (fun b hb' => sup_of_not_big hr hT hb hb')
        refine le_trans (le_of_eq ?_) this
        congr 1
        rw [Nat.cast_mul (m := 4), e, Nat.cast_mul (m := 2), show ((4 : Nat) : ℝ) = 2 * 2 by norm_num, mul_assoc, show ((2 : Nat) : ℝ) = 2 by norm_num,
          mul_div_mul_left _ _ (by norm_num : (2 : ℝ) ≠ 0)])
  refine le_trans ?_ hle
  rw [micro_linear hn]
  have hb : micro (L * L) n (fun T => ind (Big L r T)) ≤ _ := big_unlikely hrL hn
  have := mul_le_mul_of_nonneg_left hb hlog
  linarith

/-- C100: the table of L0 at low density.  Let `x = (k + 1) / L²` be the density in row `k`.  For every length `r` the expected relative size of
the largest cluster is at most `2 (2 r - 1)² / L² + L² ((1 + √2) x)^(r + 1)`, and the expected entropy is at least
`log (L² / (2 (2 r - 1)²)) · (1 - L² ((1 + √2) x)^(r + 1))`. -/
theorem C100_table {E : Nat} (hE : 0 < E) (pl : Bool) (ctor : Nat → Nat) (steps : Nat → Draw) {fuel : Nat} (hf : 5 * (L * L) < fuel) {r : Nat}
    (hr : 0 < r) (hrL : r < L) :
    ∃ (table : (Fin E → DrawVec (L * L)) → List (List ℝ)) (crit : (Fin E → DrawVec (L * L)) → List (CritRow ℝ)),
      (∀ x, runEnsemble (realEnv so) .l0 pl L ctor (ensembleDraws steps fuel x) = .ok (table x, crit x)) ∧
      (∀ x, runEnsembleThreads (realEnv so) .l0 L ctor (ensembleDraws steps fuel x) = .ok (table x)) ∧
      ∀ k < L * L,
        meanOf (fun x => entry (table x) k 2) ≤
          2 * (2 * r - 1) ^ 2 / (L * L : Nat) + (L : ℝ) ^ 2 * ((1 + √2) * (((k + 1 : Nat) : ℝ) / (L * L : Nat))) ^ (r + 1) ∧
        (2 * (2 * r - 1) ^ 2 ≤ L * L →
          Real.log ((L * L : Nat) / (2 * (2 * r - 1) ^ 2)) *
            (1 - (L : ℝ) ^ 2 * ((1 + √2) * (((k + 1 : Nat) : ℝ) / (L * L : Nat))) ^ (r + 1)) ≤ meanOf (fun x => entry (table x) k 1)) := by
  obtain ⟨table, crit, h1, h2, h3⟩ := C69_table (so := so) (by omega : 0 < L) hE pl ctor steps hf
  refine ⟨table, crit, h1, h2, fun k hk => ?_⟩
  obtain ⟨e1, e2⟩ := h3 k hk
  rw [e1, e2]
  exact ⟨micro_largest hr hrL (by omega), fun hb => micro_shannon hr hrL hb (by omega)⟩

/-- C100: for every density below `√2 - 1 ≈ 0.414`, on all sufficiently large lattices the expected relative size of the largest cluster in all
rows up to that density is as small, and the expected entropy as large, as one likes. -/
theorem C100_limit {x ε M : ℝ} (hx : x < √2 - 1) (hε : 0 < ε) : ∃ L0 : Nat, ∀ L : Nat, L0 ≤ L → ∀ {E : Nat}, 0 < E → ∀ (pl : Bool) (ctor : Nat → Nat)
    (steps : Nat → Draw) {fuel : Nat}, 5 * (L * L) < fuel →
    ∃ (table : (Fin E → DrawVec (L * L)) → List (List ℝ)) (crit : (Fin E → DrawVec (L * L)) → List (CritRow ℝ)),
      (∀ y, runEnsemble (realEnv so) .l0 pl L ctor (ensembleDraws steps fuel y) = .ok (table y, crit y)) ∧
      (∀ y, runEnsembleThreads (realEnv so) .l0 L ctor (ensembleDraws steps fuel y) = .ok (table y)) ∧
      ∀ k < L * L, ((k + 1 : Nat) : ℝ) / (L * L : Nat) ≤ x →
        meanOf (fun y => entry (table y) k 2) ≤ ε ∧ M ≤ meanOf (fun y => entry (table y) k 1) := by
  have h2 : √2 * √2 = 2 := Real.mul_self_sqrt (by norm_num)
  have hs2 : 1 ≤ √2 := by rw [Real.one_le_sqrt]; norm_num
  -- the rate
  obtain ⟨ρ, hρ0, hρ1, hρ⟩ : ∃ ρ : ℝ, 0 ≤ ρ ∧ ρ < 1 ∧ (1 + √2) * x ≤ ρ := by
    refine ⟨max ((1 + √2) * x) 0, le_max_right _ _, max_lt ?_ one_pos, le_max_left _ _⟩
    nlinarith
  have ht := tendsto_pow_const_mul_const_pow_of_lt_one 4 hρ0 hρ1
  obtain ⟨m0, hm0⟩ := Filter.eventually_atTop.1 (ht.eventually (gt_mem_nhds (show 0 < min (ε / 2) (1 / 2) by positivity)))
  obtain ⟨c0, hc0⟩ := exists_nat_gt (max (16 / ε) (8 * Real.exp (2 * |M|)))
  refine ⟨max (m0 * m0 + 4) (c0 + 16), fun L hL E hE pl ctor steps fuel hf => ?_⟩
  have hL0 : 0 < L := by omega
  have hLr : (0 : ℝ) < L := by exact_mod_cast hL0
  obtain ⟨r, hr1, hr2⟩ : ∃ r, r * r ≤ L ∧ L < (r + 1) * (r + 1) := ⟨Nat.sqrt L, Nat.sqrt_le L, Nat.lt_succ_sqrt L⟩
  have hr : 2 ≤ r := by
    by_contra hc
    have : r + 1 ≤ 2 := by omega
    have := Nat.mul_le_mul this this
    omega
  have hrm : m0 ≤ r + 1 := by
    by_contra hc
    have : r + 1 ≤ m0 := by omega
    have := Nat.mul_le_mul this this
    omega
  have hrL : r < L := by nlinarith
  obtain ⟨table, crit, t1, t2, t3⟩ := C100_table (so := so) hE pl ctor steps hf (by omega : 0 < r) hrL
  refine ⟨table, crit, t1, t2, fun k hk hkx => ?_⟩
  obtain ⟨b1, b2⟩ := t3 k hk
  have hN : (0 : ℝ) < (L * L : Nat) := by exact_mod_cast Nat.mul_pos hL0 hL0
  have htail : (L : ℝ) ^ 2 * ((1 + √2) * (((k + 1 : Nat) : ℝ) / (L * L : Nat))) ^ (r + 1) ≤ min (ε / 2) (1 / 2) := by
    refine le_trans ?_ (hm0 (r + 1) hrm).le
    refine mul_le_mul ?_ (pow_le_pow_left₀ (by positivity) ((mul_le_mul_of_nonneg_left hkx (by positivity)).trans hρ) _) (by positivity) (by positivity)
    have : (L : ℝ) ≤ ((r + 1 : Nat) : ℝ) ^ 2 := by
      rw [← Nat.cast_pow, pow_two]
      exact_mod_cast hr2.le
    calc (L : ℝ) ^ 2 ≤ (((r + 1 : Nat) : ℝ) ^ 2) ^ 2 := pow_le_pow_left₀ hLr.le this 2
      _ = _ := by rw [← pow_mul]
  have hr1' : (r : ℝ) * r ≤ L := by exact_mod_cast hr1
  have hr' : (2 : ℝ) ≤ r := by exact_mod_cast hr
  have hc : max (16 / ε) (8 * Real.exp (2 * |M|)) ≤ L := by
    refine hc0.le.trans ?_
    exact_mod_cast (by omega : c0 ≤ L)
  have hNL : ((L * L : Nat) : ℝ) = L * L := by push_cast; ring
  have hball : 2 * (2 * (r : ℝ) - 1) ^ 2 ≤ 8 * L := by nlinarith
  constructor
  · refine b1.trans ?_
    have g1 : 2 * (2 * (r : ℝ) - 1) ^ 2 / (L * L : Nat) ≤ ε / 2 := by
      rw [div_le_iff₀ hN, hNL]
      have : 16 / ε ≤ L := (le_max_left _ _).trans hc
      rw [div_le_iff₀ hε] at this
      nlinarith
    have g2 := htail.trans (min_le_left _ _)
    linarith
  · have hsmall : 2 * (2 * r - 1) ^ 2 ≤ L * L := by
      have h16 : (16 : ℝ) ≤ L := by exact_mod_cast (by omega : 16 ≤ L)
      have : 2 * (2 * (r : ℝ) - 1) ^ 2 ≤ L * L := by nlinarith
      have e : ((2 * (2 * r - 1) ^ 2 : Nat) : ℝ) = 2 * (2 * r - 1) ^ 2 := by
        rw [Nat.cast_mul, Nat.cast_pow, Nat.cast_sub (by omega)]
        push_cast
        ring
      rw [← e] at this
      exact_mod_cast this
    refine le_trans ?_ (b2 hsmall)
    have hpos : 0 < 2 * (2 * (r : ℝ) - 1) ^ 2 := by
      have : 0 < 2 * (r : ℝ) - 1 := by linarith
      positivity
    have hlog : 2 * |M| ≤ Real.log ((L * L : Nat) / (2 * (2 * r - 1) ^ 2)) := by
      rw [Real.le_log_iff_exp_le (by positivity), le_div_iff₀ hpos, hNL]
      have : 8 * Real.exp (2 * |M|) ≤ L := (le_max_right _ _).trans hc
      have he := Real.exp_pos (2 * |M|)
      nlinarith
    have g2 := htail.trans (min_le_right _ _)
    have hM := le_abs_self M
    have hM0 := abs_nonneg M
    nlinarith

/-- For instance: for `L = 1000`, up to the density 1/5 the largest cluster contains on average at most 2 percent of the bonds. -/
example {E : Nat} (hE : 0 < E) (ctor : Nat → Nat) (steps : Nat → Draw) {fuel : Nat} (hf : 5 * (1000 * 1000) < fuel) :
    ∃ (table : (Fin E → DrawVec (1000 * 1000)) → List (List ℝ)) (crit : (Fin E → DrawVec (1000 * 1000)) → List (CritRow ℝ)),
      (∀ x, runEnsemble (realEnv so) .l0 false 1000 ctor (ensembleDraws steps fuel x) = .ok (table x, crit x)) ∧
      meanOf (fun x => entry (table x) 199999 2) ≤ 1 / 50 := by
  obtain ⟨table, crit, h1, _, h3⟩ := C100_table (so := so) (L := 1000) hE false ctor steps hf (r := 50) (by omega) (by omega)
  refine ⟨table, crit, h1, (h3 199999 (by omega)).1.trans ?_⟩
  have hs2' : √2 ≤ 1.42 := by
    rw [Real.sqrt_le_left (by norm_num)]
    norm_num
  rw [show ((199999 + 1 : Nat) : ℝ) / (1000 * 1000 : Nat) = 1 / 5 by norm_num]
  have : ((1 + √2) * (1 / 5)) ^ (50 + 1) ≤ (0.484 : ℝ) ^ (50 + 1) := pow_le_pow_left₀ (by positivity) (by linarith) _
  refine (add_le_add le_rfl (mul_le_mul_of_nonneg_left this (by positivity))).trans ?_
  norm_num

end SqPerc
