import Verif.Proof.Variance
import Mathlib.Probability.Moments.SubGaussian
import Mathlib.Probability.ProbabilityMassFunction.Integrals
import Mathlib.Probability.Distributions.Uniform
/-
Averages over independent runs: exponential bounds.
-/
namespace SqPerc

open MeasureTheory ProbabilityTheory in
/-- Hoeffding's lemma. -/
theorem meanOf_exp_le {ι : Type} [Fintype ι] [Nonempty ι] {F : ι → ℝ} {a b : ℝ} (h : ∀ i, a ≤ F i ∧ F i ≤ b) (t : ℝ) :
    meanOf (fun i => Real.exp (t * (F i - meanOf F))) ≤ Real.exp (t ^ 2 * (b - a) ^ 2 / 8) := by
  letI : MeasurableSpace ι := ⊤
  haveI : DiscreteMeasurableSpace ι := ⟨fun _ => trivial⟩
  let μ : Measure ι := (PMF.uniformOfFintype ι).toMeasure
  have hi : ∀ G : ι → ℝ, ∫ i, G i ∂μ = meanOf G := by
    intro G
    show ∫ i, G i ∂((PMF.uniformOfFintype ι).toMeasure) = _
    rw [PMF.integral_eq_sum, meanOf, Finset.sum_div]
    refine Finset.sum_congr rfl fun i _ => ?_
    rw [PMF.uniformOfFintype_apply, ENNReal.toReal_inv, ENNReal.toReal_natCast, smul_eq_mul, mul_comm, div_eq_mul_inv]
  have hs := (hasSubgaussianMGF_of_mem_Icc (μ := μ) (X := F) (a := a) (b := b) (measurable_of_finite _).aemeasurable
    (Filter.Eventually.of_forall fun i => ⟨(h i).1, (h i).2⟩)).mgf_le t
  rw [mgf, hi, hi] at hs
  refine hs.trans (le_of_eq ?_)
  congr 1
  push_cast
  rw [Real.norm_eq_abs, div_pow, sq_abs]
  ring

theorem ind_le_exp {p : Prop} {x : ℝ} (h : p → 0 ≤ x) : ind p ≤ Real.exp x := by
  unfold ind
  split
  · next hp => exact Real.one_le_exp (h hp)
  · exact (Real.exp_pos _).le

theorem meanOf_add {ι : Type} [Fintype ι] (F G : ι → ℝ) : meanOf (fun i => F i + G i) = meanOf F + meanOf G := by
  unfold meanOf
  rw [Finset.sum_add_distrib, add_div]

/-- Hoeffding's inequality for quantities `g (X 0), …, g (X (E - 1))` that behave like independent copies of `g ∘ P`. -/
theorem hoeffding {Ω Y Z : Type} [Fintype Ω] [Fintype Y] [Nonempty Y] {E : Nat} (hE : 0 < E) (X : Nat → Ω → Z) (P : Y → Z)
    (hX : ∀ f : Z → ℝ, meanOf (fun ω => ∏ i ∈ Finset.range E, f (X i ω)) = meanOf (fun y => f (P y)) ^ E)
    (g : Z → ℝ) {a b : ℝ} (hg : ∀ y, a ≤ g (P y) ∧ g (P y) ≤ b) {G : Ω → ℝ} (hG : ∀ ω, G ω = (∑ i ∈ Finset.range E, g (X i ω)) / E)
    {ε : ℝ} (hε : 0 < ε) :
    meanOf (fun ω => ind (ε ≤ |G ω - meanOf fun y => g (P y)|)) ≤ 2 * Real.exp (-(2 * E * ε ^ 2 / (b - a) ^ 2)) := by
  have hE0 : (0 : ℝ) < E := by exact_mod_cast hE
  generalize hμ : (meanOf fun y => g (P y)) = μ
  -- one side
  have side : ∀ t : ℝ, meanOf (fun ω => Real.exp (t * (E * (G ω - μ)) - |t| * E * ε)) ≤ Real.exp (E * (t ^ 2 * (b - a) ^ 2 / 8) - |t| * E * ε) := by
    intro t
    have e : ∀ ω, Real.exp (t * (E * (G ω - μ)) - |t| * E * ε) =
        Real.exp (-(|t| * E * ε)) * ∏ i ∈ Finset.range E, Real.exp (t * (g (X i ω) - μ)) := by
      intro ω
      rw [← Real.exp_sum, ← Real.exp_add, hG ω]
      congr 1
      rw [← Finset.mul_sum, Finset.sum_sub_distrib, Finset.sum_const, Finset.card_range, nsmul_eq_mul]
      field_simp
      ring
    rw [meanOf_congr e, meanOf_mul_left, hX fun z => Real.exp (t * (g z - μ)), sub_eq_neg_add, Real.exp_add, Real.exp_nat_mul]
    refine mul_le_mul_of_nonneg_left (pow_le_pow_left₀ ?_ ?_ E) (Real.exp_pos _).le
    · unfold meanOf
      exact div_nonneg (Finset.sum_nonneg fun _ _ => (Real.exp_pos _).le) (Nat.cast_nonneg _)
    · have := meanOf_exp_le hg t
      rwa [hμ] at this
  rcases eq_or_ne (b - a) 0 with hab | hab
  · rw [hab]
    have : meanOf (fun ω => ind (ε ≤ |G ω - μ|)) ≤ meanOf (fun _ : Ω => (1 : ℝ)) := meanOf_le fun ω => by
      unfold ind; split <;> norm_num
    have h1 : meanOf (fun _ : Ω => (1 : ℝ)) ≤ 1 := by
      unfold meanOf
      rw [Finset.sum_const, nsmul_eq_mul, mul_one, Finset.card_univ]
      exact div_self_le_one _
    simp only [ne_eq, OfNat.ofNat_ne_zero, not_false_eq_true, zero_pow, div_zero, neg_zero, Real.exp_zero, mul_one]
    linarith
  have hc : 0 < (b - a) ^ 2 := by positivity
  let t : ℝ := 4 * ε / (b - a) ^ 2
  have ht : 0 < t := by positivity
  have hval : E * (t ^ 2 * (b - a) ^ 2 / 8) - t * E * ε = -(2 * E * ε ^ 2 / (b - a) ^ 2) := by
    show E * ((4 * ε / (b - a) ^ 2) ^ 2 * (b - a) ^ 2 / 8) - (4 * ε / (b - a) ^ 2) * E * ε = _
    field_simp
    ring
  have h1 := side t
  have h2 := side (-t)
  rw [abs_neg] at h2
  rw [abs_of_pos ht] at h1 h2
  rw [neg_sq] at h2
  rw [hval] at h1 h2
  have hle : ∀ ω, ind (ε ≤ |G ω - μ|) ≤ Real.exp (t * (E * (G ω - μ)) - t * E * ε) + Real.exp (-t * (E * (G ω - μ)) - t * E * ε) := by
    intro ω
    by_cases hp : ε ≤ |G ω - μ|
    · have hk : ∀ x : ℝ, ε ≤ x → 0 ≤ t * (E * x) - t * E * ε := by
        intro x hx
        have := mul_le_mul_of_nonneg_left hx (by positivity : 0 ≤ t * E)
        linarith
      rw [ind, if_pos hp]
      rcases le_abs.1 hp with h | h
      · have := Real.one_le_exp (hk _ h)
        have := (Real.exp_pos (-t * (E * (G ω - μ)) - t * E * ε)).le
        linarith
      · have := Real.one_le_exp (hk _ h)
        have h3 := (Real.exp_pos (t * (E * (G ω - μ)) - t * E * ε)).le
        rw [show t * (E * -(G ω - μ)) - t * E * ε = -t * (E * (G ω - μ)) - t * E * ε by ring] at this
        linarith
    · rw [ind, if_neg hp]; positivity
  have := meanOf_le hle
  rw [meanOf_add] at this
  linarith

/-- The orders of a row of independent shuffles are independent. -/
theorem meanOf_orders_prod {N E : Nat} (f : List Nat → ℝ) : ∀ {l : List Nat}, l.Perm (List.range N) →
    meanOf (fun x : Fin E → DrawVec N => ∏ i ∈ Finset.range E, f ((shuffleOrders l (List.ofFn fun k => (x k).draws)).getD i [])) =
    meanOf (fun y : DrawVec N => f (pyShuffle y.draws (List.range N))) ^ E := by
  induction E with
  | zero =>
    intro l _
    simp only [Finset.range_zero, Finset.prod_empty, pow_zero]
    exact meanOf_const 1
  | succ E ih =>
    intro l hl
    have e : meanOf (fun y : DrawVec N => f (pyShuffle y.draws (List.range N))) ^ (E + 1) = meanOf fun y : DrawVec N =>
        meanOf (fun y : DrawVec N => f (pyShuffle y.draws (List.range N))) ^ E * f (pyShuffle y.draws l) := by
      rw [meanOf_mul_left, meanOf_shuffle hl f, pow_succ]
    rw [meanOf_cons, e]
    refine meanOf_congr fun y => ?_
    rw [← ih ((pyShuffle_perm y.draws l).trans hl), mul_comm, ← meanOf_mul_left]
    refine meanOf_congr fun x => ?_
    simp only [shuffleOrders_cons]
    rw [Finset.prod_range_succ']
    simp only [List.getD_cons_succ, List.getD_cons_zero]
    rw [mul_comm]

/-- Some of finitely many bad events happens with at most the sum of their probabilities. -/
theorem meanOf_exists_le {Ω κ : Type} [Fintype Ω] (s : Finset κ) (p : κ → Ω → Prop) {c : ℝ} (h : ∀ k ∈ s, meanOf (fun ω => ind (p k ω)) ≤ c) :
    meanOf (fun ω => ind (∃ k ∈ s, p k ω)) ≤ s.card * c := by
  have hle : ∀ ω, ind (∃ k ∈ s, p k ω) ≤ ∑ k ∈ s, ind (p k ω) := by
    intro ω
    have h0 : ∀ k ∈ s, 0 ≤ ind (p k ω) := fun k _ => by unfold ind; split <;> norm_num
    by_cases hp : ∃ k ∈ s, p k ω
    · obtain ⟨k, hk, hpk⟩ := hp
      have := Finset.single_le_sum h0 hk
      rw [ind, if_pos ⟨k, hk, hpk⟩]
      rw [ind, if_pos hpk] at this
      exact this
    · rw [ind, if_neg hp]; exact Finset.sum_nonneg h0
  refine (meanOf_le hle).trans ?_
  rw [meanOf_sum]
  refine (Finset.sum_le_sum h).trans (le_of_eq ?_)
  rw [Finset.sum_const, nsmul_eq_mul]

end SqPerc
