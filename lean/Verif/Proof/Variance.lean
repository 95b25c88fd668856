import Verif.Proof.Mean
/-
Averages over independent shuffles: variances.
-/
namespace SqPerc

theorem meanOf_mul_left {ι : Type} [Fintype ι] (c : ℝ) (F : ι → ℝ) : meanOf (fun i => c * F i) = c * meanOf F := by
  unfold meanOf
  rw [← Finset.mul_sum, mul_div_assoc]

theorem meanOf_le {ι : Type} [Fintype ι] {F G : ι → ℝ} (h : ∀ i, F i ≤ G i) : meanOf F ≤ meanOf G := by
  unfold meanOf
  exact div_le_div_of_nonneg_right (Finset.sum_le_sum fun i _ => h i) (Nat.cast_nonneg _)

theorem varOf_eq {ι : Type} [Fintype ι] [Nonempty ι] (F : ι → ℝ) : varOf F = meanOf (fun i => F i ^ 2) - meanOf F ^ 2 := by
  have : ∀ i, (F i - meanOf F) ^ 2 = (F i ^ 2 - 2 * meanOf F * F i) - (- meanOf F ^ 2) := fun i => by ring
  rw [varOf, meanOf_congr this, meanOf_sub, meanOf_sub, meanOf_const, meanOf_mul_left]
  ring

/-- Quantities between `a` and `b` have variance at most a quarter of `(b - a) ^ 2`. -/
theorem varOf_le {ι : Type} [Fintype ι] [Nonempty ι] {F : ι → ℝ} {a b : ℝ} (h : ∀ i, a ≤ F i ∧ F i ≤ b) : varOf F ≤ (b - a) ^ 2 / 4 := by
  have h2 : meanOf (fun i => F i ^ 2) ≤ (a + b) * meanOf F - a * b := by
    rw [← meanOf_mul_left, ← meanOf_const (ι := ι) (a * b), ← meanOf_sub]
    refine meanOf_le fun i => ?_
    have := h i
    nlinarith [mul_nonneg (sub_nonneg.2 this.1) (sub_nonneg.2 this.2)]
  rw [varOf_eq]
  nlinarith [sq_nonneg (2 * meanOf F - (a + b))]

/-- Chebyshev's inequality. -/
theorem chebyshev {ι : Type} [Fintype ι] {F : ι → ℝ} {ε : ℝ} (hε : 0 < ε) : meanOf (fun i => ind (ε ≤ |F i - meanOf F|)) ≤ varOf F / ε ^ 2 := by
  rw [varOf, ← meanOf_div]
  refine meanOf_le fun i => ?_
  unfold ind
  split
  · next h =>
    rw [le_div_iff₀ (by positivity), one_mul, ← sq_abs (F i - _)]
    exact pow_le_pow_left₀ hε.le h 2
  · positivity

theorem shuffleOrders_cons {N E : Nat} (l : List Nat) (y : DrawVec N) (ys : Fin E → DrawVec N) :
    shuffleOrders l (List.ofFn fun j => ((Fin.cons y ys : Fin (E + 1) → DrawVec N) j).draws) =
    pyShuffle y.draws l :: shuffleOrders (pyShuffle y.draws l) (List.ofFn fun j => (ys j).draws) := by
  rw [List.ofFn_succ]; rfl

/-- Two different orders of a row of independent shuffles are independent. -/
theorem meanOf_orders_mul {N E : Nat} (g h : List Nat → ℝ) : ∀ {l : List Nat}, l.Perm (List.range N) → ∀ i j, i < j → j < E →
    meanOf (fun x : Fin E → DrawVec N => g ((shuffleOrders l (List.ofFn fun k => (x k).draws)).getD i []) *
      h ((shuffleOrders l (List.ofFn fun k => (x k).draws)).getD j [])) =
    (meanOf fun y : DrawVec N => g (pyShuffle y.draws (List.range N))) * meanOf fun y : DrawVec N => h (pyShuffle y.draws (List.range N)) := by
  induction E with
  | zero => intro l _ i j _ hj; omega
  | succ E ih =>
    intro l hl i j hij hj
    rw [meanOf_cons]
    obtain ⟨j, rfl⟩ : ∃ j', j = j' + 1 := ⟨j - 1, by omega⟩
    simp only [shuffleOrders_cons, List.getD_cons_succ]
    cases i with
    | zero =>
      simp only [List.getD_cons_zero]
      rw [← meanOf_shuffle hl g, mul_comm, ← meanOf_mul_left]
      refine meanOf_congr fun y => ?_
      rw [meanOf_mul_left, meanOf_orders h ((pyShuffle_perm y.draws l).trans hl) j (by omega), mul_comm]
    | succ i =>
      simp only [List.getD_cons_succ]
      rw [← meanOf_const (ι := DrawVec N) (_ * _)]
      exact meanOf_congr fun y => ih ((pyShuffle_perm y.draws l).trans hl) i j (by omega) (by omega)

/-- The variance of the average over `E` independent shuffles is the variance over one of them divided by `E`. -/
theorem varOf_orders {N E : Nat} (hE : 0 < E) (g : List Nat → ℝ) {l : List Nat} (hl : l.Perm (List.range N)) {G : (Fin E → DrawVec N) → ℝ}
    (hG : ∀ x, G x = (∑ i ∈ Finset.range E, g ((shuffleOrders l (List.ofFn fun k => (x k).draws)).getD i [])) / E) :
    meanOf G = meanOf (fun y : DrawVec N => g (pyShuffle y.draws (List.range N))) ∧
    varOf G = varOf (fun y : DrawVec N => g (pyShuffle y.draws (List.range N))) / E := by
  have hE0 : (E : ℝ) ≠ 0 := by exact_mod_cast hE.ne'
  have hm : meanOf G = meanOf (fun y : DrawVec N => g (pyShuffle y.draws (List.range N))) := by
    rw [meanOf_congr hG, meanOf_div, meanOf_sum, Finset.sum_congr rfl fun i hi => meanOf_orders g hl i (Finset.mem_range.1 hi), Finset.sum_const,
      Finset.card_range, nsmul_eq_mul]
    field_simp
  refine ⟨hm, ?_⟩
  generalize hμ : meanOf (fun y : DrawVec N => g (pyShuffle y.draws (List.range N))) = μ at hm
  let c : List Nat → ℝ := fun q => g q - μ
  have hc : meanOf (fun y : DrawVec N => c (pyShuffle y.draws (List.range N))) = 0 := by
    show meanOf (fun y : DrawVec N => g (pyShuffle y.draws (List.range N)) - μ) = 0
    rw [meanOf_sub, meanOf_const, hμ, sub_self]
  let q := fun (i : Nat) (x : Fin E → DrawVec N) => (shuffleOrders l (List.ofFn fun k => (x k).draws)).getD i []
  have hsq : ∀ x, (G x - meanOf G) ^ 2 = (∑ i ∈ Finset.range E, ∑ j ∈ Finset.range E, c (q i x) * c (q j x)) / (E : ℝ) ^ 2 := by
    intro x
    have : G x - meanOf G = (∑ i ∈ Finset.range E, c (q i x)) / E := by
      rw [hm, hG x]
      show _ = (∑ i ∈ Finset.range E, (g (q i x) - μ)) / E
      rw [Finset.sum_sub_distrib, Finset.sum_const, Finset.card_range, nsmul_eq_mul]
      field_simp
      rfl
    rw [this, div_pow, sq (∑ i ∈ Finset.range E, c (q i x)), Finset.sum_mul_sum]
  have hterm : ∀ i ∈ Finset.range E, ∀ j ∈ Finset.range E, meanOf (fun x => c (q i x) * c (q j x)) =
      if i = j then meanOf (fun y : DrawVec N => c (pyShuffle y.draws (List.range N)) ^ 2) else 0 := by
    intro i hi j hj
    rw [Finset.mem_range] at hi hj
    by_cases h : i = j
    · rw [if_pos h, h, ← meanOf_orders (fun q => c q ^ 2) hl j hj]
      exact meanOf_congr fun x => (sq _).symm
    · rw [if_neg h]
      rcases Nat.lt_or_gt_of_ne h with h | h
      · rw [meanOf_orders_mul c c hl i j h hj, hc, zero_mul]
      · rw [meanOf_congr fun x => mul_comm _ _, meanOf_orders_mul c c hl j i h hi, hc, zero_mul]
  rw [varOf, meanOf_congr hsq, meanOf_div, meanOf_sum, Finset.sum_congr rfl fun i hi => (meanOf_sum _ _).trans (Finset.sum_congr rfl (hterm i hi)),
    Finset.sum_congr rfl fun i hi => (Finset.sum_ite_eq (Finset.range E) i _).trans (if_pos hi), Finset.sum_const, Finset.card_range, nsmul_eq_mul,
    varOf, hμ]
  field_simp
  rfl

end SqPerc
