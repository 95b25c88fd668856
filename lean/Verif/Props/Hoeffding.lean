import Verif.Proof.Hoeffding
import Verif.Props.EnsembleLaw
import Verif.Props.LineLaw
import Mathlib.Analysis.Complex.ExponentialBounds
/-
C105: how many realisations are enough.
-/
namespace SqPerc

variable {so : SetOrder} {L M E : Nat} {v : Variant}

/-- The range of the entries of column `c` of a table: the entropy is between 0 and `log 2L²`, the order parameters are between 0 and 1. -/
noncomputable def colRange (L c : Nat) : ℝ := if c = 1 then Real.log (2 * (L * L) : Nat) else 1

theorem colRange_pos (hL : 0 < L) (c : Nat) : 0 < colRange L c := by
  unfold colRange
  split
  · refine Real.log_pos ?_
    exact_mod_cast (by have := Nat.mul_pos hL hL; omega : 1 < 2 * (L * L))
  · exact one_pos

theorem runEntry_range (hL : 0 < L) {q : List Nat} (hq : q.Perm (List.range (L * L))) {k c : Nat} (hk : k < L * L) (h1 : 1 ≤ c) (h4 : c < 4) :
    0 ≤ runEntry so L k c q ∧ runEntry so L k c q ≤ colRange L c := by
  obtain ⟨_, b1, b2, b3⟩ := runEntry_bounds (so := so) hL hq hk
  obtain rfl | rfl | rfl : c = 1 ∨ c = 2 ∨ c = 3 := by omega
  · exact b1
  · exact b2
  · exact b3

/-- Hoeffding's inequality with the error measured in units of the range. -/
theorem hoeffding_range {Ω Y Z : Type} [Fintype Ω] [Fintype Y] [Nonempty Y] (hE : 0 < E) (X : Nat → Ω → Z) (P : Y → Z)
    (hX : ∀ f : Z → ℝ, meanOf (fun ω => ∏ i ∈ Finset.range E, f (X i ω)) = meanOf (fun y => f (P y)) ^ E)
    (g : Z → ℝ) {w : ℝ} (hw : 0 < w) (hg : ∀ y, 0 ≤ g (P y) ∧ g (P y) ≤ w) {G : Ω → ℝ}
    (hG : ∀ ω, G ω = (∑ i ∈ Finset.range E, g (X i ω)) / E) {ε : ℝ} (hε : 0 < ε) :
    meanOf (fun ω => ind (ε * w ≤ |G ω - meanOf fun y => g (P y)|)) ≤ 2 * Real.exp (-(2 * E * ε ^ 2)) := by
  have := hoeffding hE X P hX g hg hG (mul_pos hε hw)
  rwa [sub_zero, show 2 * E * (ε * w) ^ 2 / w ^ 2 = 2 * E * ε ^ 2 by field_simp] at this

/-- The orders of independent realisations of L1 and L2, as a row. -/
theorem meanOf_row_prod {Y Z : Type} [Fintype Y] (P : Y → Z) (z : Z) (f : Z → ℝ) :
    meanOf (fun x : Fin E → Y => ∏ i ∈ Finset.range E, f (if h : i < E then P (x ⟨i, h⟩) else z)) = meanOf (fun y => f (P y)) ^ E := by
  have e : ∀ x : Fin E → Y, (∏ i ∈ Finset.range E, f (if h : i < E then P (x ⟨i, h⟩) else z)) = ∏ i : Fin E, f (P (x i)) := by
    intro x
    rw [← Fin.prod_univ_eq_prod_range (fun i => f (if h : i < E then P (x ⟨i, h⟩) else z))]
    refine Finset.prod_congr rfl fun i _ => ?_
    rw [dif_pos i.2]
  rw [meanOf_congr e, meanOf_prod fun _ y => f (P y), Finset.prod_const, Finset.card_univ, Fintype.card_fin]

theorem sum_row {Y Z : Type} (P : Y → Z) (z : Z) (g : Z → ℝ) (x : Fin E → Y) :
    ∑ i ∈ Finset.range E, g (if h : i < E then P (x ⟨i, h⟩) else z) = ∑ i : Fin E, g (P (x i)) := by
  rw [← Fin.sum_univ_eq_sum_range (fun i => g (if h : i < E then P (x ⟨i, h⟩) else z))]
  refine Finset.sum_congr rfl fun i _ => ?_
  rw [dif_pos i.2]

/-- The average over a row of independent shuffles. -/
theorem hoeffding_orders {N : Nat} (hE : 0 < E) {l : List Nat} (hl : l.Perm (List.range N)) (g : List Nat → ℝ) {w : ℝ} (hw : 0 < w)
    (hg : ∀ q, q.Perm (List.range N) → 0 ≤ g q ∧ g q ≤ w) {G : (Fin E → DrawVec N) → ℝ}
    (hG : ∀ x, G x = (∑ i ∈ Finset.range E, g ((shuffleOrders l (List.ofFn fun k => (x k).draws)).getD i [])) / E) {ε : ℝ} (hε : 0 < ε) :
    meanOf (fun x => ind (ε * w ≤ |G x - meanOf fun y : DrawVec N => g (pyShuffle y.draws (List.range N))|)) ≤ 2 * Real.exp (-(2 * E * ε ^ 2)) := by
  have hX := fun f : List Nat → ℝ => meanOf_orders_prod (E := E) f hl
  have hP : ∀ y : DrawVec N, 0 ≤ g (pyShuffle y.draws (List.range N)) ∧ g (pyShuffle y.draws (List.range N)) ≤ w :=
    fun y => hg _ (pyShuffle_perm _ _)
  exact hoeffding_range hE (fun i (x : Fin E → DrawVec N) => (shuffleOrders l (List.ofFn fun k => (x k).draws)).getD i [])
    (fun y : DrawVec N => pyShuffle y.draws (List.range N)) hX g hw hP hG hε

/-- The average over independent outcomes. -/
theorem hoeffding_average {Y Z : Type} [Fintype Y] [Nonempty Y] (hE : 0 < E) (P : Y → Z) (z : Z) (g : Z → ℝ) {w : ℝ} (hw : 0 < w)
    (hg : ∀ y, 0 ≤ g (P y) ∧ g (P y) ≤ w) {G : (Fin E → Y) → ℝ} (hG : ∀ x, G x = (∑ i, g (P (x i))) / E) {ε : ℝ} (hε : 0 < ε) :
    meanOf (fun x => ind (ε * w ≤ |G x - meanOf fun y => g (P y)|)) ≤ 2 * Real.exp (-(2 * E * ε ^ 2)) :=
  hoeffding_range hE (fun i x => if h : i < E then P (x ⟨i, h⟩) else z) P (meanOf_row_prod P z) g hw hg (fun x => by rw [hG x, sum_row P]) hε

/-- The mean of the critical points of L0. -/
theorem meanOf_wrapStage : meanOf (fun y : DrawVec (L * L) => wrapStage L (pyShuffle y.draws (List.range (L * L)))) =
    (∑ n ∈ Finset.range (L * L), (1 - micro (L * L) n fun T => ind (Wraps L (· ∈ T)))) / (L * L : Nat) := by
  unfold wrapStage
  rw [meanOf_div, meanOf_sum]
  congr 1
  refine Finset.sum_congr rfl fun n hn => ?_
  rw [meanOf_sub, meanOf_const, meanOf_wraps (Finset.mem_range.1 hn).le]

/-- From single entries to the whole table. -/
theorem table_union {Ω : Type} [Fintype Ω] {p : Nat → Nat → Ω → Prop} {c0 : ℝ}
    (h : ∀ k < L * L, ∀ c, 1 ≤ c → c < 4 → meanOf (fun ω => ind (p k c ω)) ≤ 2 * c0) :
    meanOf (fun ω => ind (∃ k c, k < L * L ∧ 1 ≤ c ∧ c < 4 ∧ p k c ω)) ≤ 6 * (L * L : Nat) * c0 := by
  have := meanOf_exists_le (Finset.range (L * L) ×ˢ Finset.Ico 1 4) (fun kc ω => p kc.1 kc.2 ω) (c := 2 * c0) (by
    rintro ⟨k, c⟩ hkc
    simp only [Finset.mem_product, Finset.mem_range, Finset.mem_Ico] at hkc
    exact h k hkc.1 c hkc.2.1 hkc.2.2)
  rw [Finset.card_product, Finset.card_range, Nat.card_Ico, Nat.cast_mul] at this
  refine le_trans (le_of_eq (meanOf_congr fun ω => ?_)) (this.trans (le_of_eq (by push_cast; ring)))
  congr 1
  rw [eq_iff_iff]
  constructor
  · rintro ⟨k, c, h1, h2, h3, h4⟩
    exact ⟨(k, c), by simp only [Finset.mem_product, Finset.mem_range, Finset.mem_Ico]; exact ⟨h1, h2, h3⟩, h4⟩
  · rintro ⟨⟨k, c⟩, h1, h2⟩
    simp only [Finset.mem_product, Finset.mem_range, Finset.mem_Ico] at h1
    exact ⟨k, c, h1.1, h1.2.1, h1.2.2, h2⟩

/-- C105 for L0: the fraction of the outcomes for which an entry of the table of `E` realisations differs from the value it estimates by `ε`
times the range of its column or more is at most `2 exp(-2Eε²)`; that some entry of the table does, at most `6 L² exp(-2Eε²)`; and for the mean
critical point, `2 exp(-2Eε²)`.  (Exact arithmetic.) -/
theorem C105_l0 (hL : 0 < L) (hE : 0 < E) (pl : Bool) (ctor : Nat → Nat) (steps : Nat → Draw) {fuel : Nat} (hf : 5 * (L * L) < fuel)
    {ε : ℝ} (hε : 0 < ε) :
    ∃ (table : (Fin E → DrawVec (L * L)) → List (List ℝ)) (crit : (Fin E → DrawVec (L * L)) → List (CritRow ℝ)) (m : Nat → Nat → ℝ),
      (∀ x, runEnsemble (realEnv so) .l0 pl L ctor (ensembleDraws steps fuel x) = .ok (table x, crit x)) ∧
      (∀ x, runEnsembleThreads (realEnv so) .l0 L ctor (ensembleDraws steps fuel x) = .ok (table x)) ∧
      (∀ k < L * L, ∀ c < 4, meanOf (fun x => entry (table x) k c) = m k c) ∧
      (∀ k < L * L, m k 1 = micro (L * L) (k + 1) (fun T => shannon L (· ∈ T)) ∧
        m k 2 = micro (L * L) (k + 1) (fun T => ((bondComps L (· ∈ T)).sup Finset.card : ℕ) / (2 * (L * L) : Nat))) ∧
      (∀ k < L * L, ∀ c, 1 ≤ c → c < 4 → meanOf (fun x => ind (ε * colRange L c ≤ |entry (table x) k c - m k c|)) ≤ 2 * Real.exp (-(2 * E * ε ^ 2))) ∧
      meanOf (fun x => ind (∃ k c, k < L * L ∧ 1 ≤ c ∧ c < 4 ∧ ε * colRange L c ≤ |entry (table x) k c - m k c|)) ≤
        6 * (L * L : Nat) * Real.exp (-(2 * E * ε ^ 2)) ∧
      (3 ≤ L → meanOf (fun x => ind (ε ≤ |meanPc (crit x) -
        (∑ n ∈ Finset.range (L * L), (1 - micro (L * L) n fun T => ind (Wraps L (· ∈ T)))) / (L * L : Nat)|)) ≤ 2 * Real.exp (-(2 * E * ε ^ 2))) ∧
      ∀ k c, m k c = meanOf fun y : DrawVec (L * L) => runEntry so L k c (pyShuffle y.draws (List.range (L * L))) := by
  choose table crit h1 h2 h3 h4 using fun x => ensemble_entries (so := so) hL hE pl ctor steps hf x
  have hp := pyShuffle_perm ctor (List.range (L * L))
  have hy : ∀ y : DrawVec (L * L), (pyShuffle y.draws (List.range (L * L))).Perm (List.range (L * L)) := fun y => pyShuffle_perm _ _
  obtain ⟨table', crit', t1, t2, t3⟩ := C69_table (so := so) hL hE pl ctor steps hf
  have ht : table' = table := by
    funext x
    exact Except.ok.inj ((t2 x).symm.trans (h2 x))
  rw [ht] at t3
  have hm : ∀ k < L * L, ∀ c < 4, meanOf (fun x => entry (table x) k c) =
      meanOf fun y : DrawVec (L * L) => runEntry so L k c (pyShuffle y.draws (List.range (L * L))) :=
    fun k hk c hc => (varOf_orders hE (runEntry so L k c) hp fun x => h3 x k hk c hc).1
  have hone : ∀ k < L * L, ∀ c, 1 ≤ c → c < 4 → meanOf (fun x => ind (ε * colRange L c ≤ |entry (table x) k c -
      meanOf fun y : DrawVec (L * L) => runEntry so L k c (pyShuffle y.draws (List.range (L * L)))|)) ≤ 2 * Real.exp (-(2 * E * ε ^ 2)) :=
    fun k hk c hc1 hc4 => hoeffding_orders hE hp (runEntry so L k c) (colRange_pos hL c) (fun q hq => runEntry_range hL hq hk hc1 hc4)
      (fun x => h3 x k hk c hc4) hε
  refine ⟨table, crit, fun k c => meanOf fun y : DrawVec (L * L) => runEntry so L k c (pyShuffle y.draws (List.range (L * L))), h1, h2, hm,
    fun k hk => ⟨(hm k hk 1 (by decide)).symm.trans (t3 k hk).1, (hm k hk 2 (by decide)).symm.trans (t3 k hk).2⟩, hone, table_union hone, fun hL3 => ?_, fun _ _ => rfl⟩
  have := hoeffding_orders hE hp (wrapStage L) one_pos (fun q _ => wrapStage_bounds hL q) (fun x => h4 x hL3) hε
  rwa [meanOf_wrapStage, mul_one] at this

/-- C105 for L1 and L2, with the averages over the growth process of the specification in place of those over all configurations. -/
theorem C105_l1l2 (hv : v = .l1 ∨ v = .l2) (hL : 0 < L) (hM : 0 < M) (hE : 0 < E) (pl : Bool) (ctor : Nat → Nat) (sh : Nat → Nat → Nat)
    {fuel : Nat} (hf : 5 * (L * L) < fuel) {ε : ℝ} (hε : 0 < ε) :
    ∃ (table : (Fin E → Draws M (5 * (L * L))) → List (List ℝ)) (crit : (Fin E → Draws M (5 * (L * L))) → List (CritRow ℝ)) (m : Nat → Nat → ℝ),
      (∀ x, runEnsemble (realEnv so) v pl L ctor (growthDraws sh fuel x) = .ok (table x, crit x)) ∧
      (∀ x, runEnsembleThreads (realEnv so) v L ctor (growthDraws sh fuel x) = .ok (table x)) ∧
      (∀ k < L * L, ∀ c < 4, meanOf (fun x => entry (table x) k c) = m k c) ∧
      (∀ k < L * L, m k 1 = meanOf (fun y : Draws M (5 * (L * L)) => shannon L (· ∈ (runOrder L v.deep y).take (k + 1))) ∧
        m k 2 = meanOf fun y : Draws M (5 * (L * L)) => (seqLargest L ((runOrder L v.deep y).take (k + 1)) : ℝ) / (2 * (L * L) : Nat)) ∧
      (∀ k < L * L, ∀ c, 1 ≤ c → c < 4 → meanOf (fun x => ind (ε * colRange L c ≤ |entry (table x) k c - m k c|)) ≤ 2 * Real.exp (-(2 * E * ε ^ 2))) ∧
      meanOf (fun x => ind (∃ k c, k < L * L ∧ 1 ≤ c ∧ c < 4 ∧ ε * colRange L c ≤ |entry (table x) k c - m k c|)) ≤
        6 * (L * L : Nat) * Real.exp (-(2 * E * ε ^ 2)) ∧
      (3 ≤ L → meanOf (fun x => ind (ε ≤ |meanPc (crit x) - meanOf fun y : Draws M (5 * (L * L)) => wrapStage L (runOrder L v.deep y)|)) ≤
        2 * Real.exp (-(2 * E * ε ^ 2))) ∧
      ∀ k c, m k c = meanOf fun y : Draws M (5 * (L * L)) => runEntry so L k c (runOrder L v.deep y) := by
  have := draws_nonempty (n := 5 * (L * L)) hM
  choose table crit h1 h2 h3 h4 using fun x : Fin E → Draws M (5 * (L * L)) => C93_table (so := so) hv hL hE pl ctor sh hf x
  let P : Draws M (5 * (L * L)) → List Nat := fun y => runOrder L v.deep y
  have hm : ∀ k < L * L, ∀ c < 4, meanOf (fun x => entry (table x) k c) = meanOf fun y => runEntry so L k c (P y) :=
    fun k hk c hc => (varOf_average hE (fun y => runEntry so L k c (P y)) fun x => h3 x k hk c hc).1
  have hone : ∀ k < L * L, ∀ c, 1 ≤ c → c < 4 → meanOf (fun x => ind (ε * colRange L c ≤ |entry (table x) k c -
      meanOf fun y => runEntry so L k c (P y)|)) ≤ 2 * Real.exp (-(2 * E * ε ^ 2)) :=
    fun k hk c hc1 hc4 => hoeffding_average hE P [] (runEntry so L k c) (colRange_pos hL c)
      (fun y => runEntry_range hL (runOrder_perm hv hL y) hk hc1 hc4) (fun x => h3 x k hk c hc4) hε
  refine ⟨table, crit, fun k c => meanOf fun y => runEntry so L k c (P y), h1, h2, hm, fun k _ => ⟨rfl, rfl⟩, hone, table_union hone, fun hL3 => ?_, fun _ _ => rfl⟩
  have := hoeffding_average hE P [] (wrapStage L) one_pos (fun y => wrapStage_bounds hL _) (fun x => (h4 x hL3).2) hε
  rwa [mul_one] at this

/-- How many realisations make the bound small. -/
theorem enough {ε δ : ℝ} (hL : 0 < L) (hδ : 0 < δ) (hE : Real.log (6 * (L * L : Nat) / δ) ≤ 2 * E * ε ^ 2) :
    6 * (L * L : Nat) * Real.exp (-(2 * E * ε ^ 2)) ≤ δ := by
  have hN : (0 : ℝ) < (L * L : Nat) := by exact_mod_cast Nat.mul_pos hL hL
  have h1 : 6 * (L * L : Nat) / δ ≤ Real.exp (2 * E * ε ^ 2) := (Real.log_le_iff_le_exp (by positivity)).1 hE
  rw [Real.exp_neg, ← div_eq_mul_inv, div_le_iff₀ (Real.exp_pos _)]
  rw [div_le_iff₀ hδ] at h1
  linarith

/-- C105, the number of realisations that is enough: with `E ≥ log(6L²/δ) / (2ε²)` realisations of L0, all entries of the table are within `ε`
times the range of their columns of what they estimate, except for a fraction `δ` of the outcomes. -/
theorem C105_enough (hL : 0 < L) (hE : 0 < E) (pl : Bool) (ctor : Nat → Nat) (steps : Nat → Draw) {fuel : Nat} (hf : 5 * (L * L) < fuel)
    {ε δ : ℝ} (hε : 0 < ε) (hδ : 0 < δ) (h : Real.log (6 * (L * L : Nat) / δ) ≤ 2 * E * ε ^ 2) :
    ∃ (table : (Fin E → DrawVec (L * L)) → List (List ℝ)) (crit : (Fin E → DrawVec (L * L)) → List (CritRow ℝ)),
      (∀ x, runEnsemble (realEnv so) .l0 pl L ctor (ensembleDraws steps fuel x) = .ok (table x, crit x)) ∧
      meanOf (fun x => ind (∃ k c, k < L * L ∧ 1 ≤ c ∧ c < 4 ∧
        ε * colRange L c ≤ |entry (table x) k c - meanOf fun x => entry (table x) k c|)) ≤ δ := by
  obtain ⟨table, crit, m, h1, _, h3, _, _, h6, _⟩ := C105_l0 (so := so) hL hE pl ctor steps hf hε
  refine ⟨table, crit, h1, le_trans (le_of_eq (meanOf_congr fun x => ?_)) (h6.trans (enough hL hδ h))⟩
  congr 1
  rw [eq_iff_iff]
  constructor <;> rintro ⟨k, c, a, b, d, e⟩ <;> refine ⟨k, c, a, b, d, ?_⟩
  · rwa [← h3 k a c d]
  · rwa [h3 k a c d]

/-- The same for L1 and L2. -/
theorem C105_enough_l1l2 (hv : v = .l1 ∨ v = .l2) (hL : 0 < L) (hM : 0 < M) (hE : 0 < E) (pl : Bool) (ctor : Nat → Nat) (sh : Nat → Nat → Nat)
    {fuel : Nat} (hf : 5 * (L * L) < fuel) {ε δ : ℝ} (hε : 0 < ε) (hδ : 0 < δ) (h : Real.log (6 * (L * L : Nat) / δ) ≤ 2 * E * ε ^ 2) :
    ∃ (table : (Fin E → Draws M (5 * (L * L))) → List (List ℝ)) (crit : (Fin E → Draws M (5 * (L * L))) → List (CritRow ℝ)),
      (∀ x, runEnsemble (realEnv so) v pl L ctor (growthDraws sh fuel x) = .ok (table x, crit x)) ∧
      meanOf (fun x => ind (∃ k c, k < L * L ∧ 1 ≤ c ∧ c < 4 ∧
        ε * colRange L c ≤ |entry (table x) k c - meanOf fun x => entry (table x) k c|)) ≤ δ := by
  obtain ⟨table, crit, m, h1, _, h3, _, _, h6, _⟩ := C105_l1l2 (so := so) hv hL hM hE pl ctor sh hf hε
  refine ⟨table, crit, h1, le_trans (le_of_eq (meanOf_congr fun x => ?_)) (h6.trans (enough hL hδ h))⟩
  congr 1
  rw [eq_iff_iff]
  constructor <;> rintro ⟨k, c, a, b, d, e⟩ <;> refine ⟨k, c, a, b, d, ?_⟩
  · rwa [← h3 k a c d]
  · rwa [h3 k a c d]

/-- The hypothesis on the number of realisations for `L = 3`, an error of a tenth of the range and one outcome in a hundred: 500 are enough. -/
example : Real.log (6 * (3 * 3 : Nat) / (1 / 100)) ≤ 2 * (500 : Nat) * ((1 : ℝ) / 10) ^ 2 := by
  have h : (5400 : ℝ) ≤ Real.exp 10 := by
    have h1 : (2.7 : ℝ) ≤ Real.exp 1 := by have := Real.exp_one_gt_d9; linarith
    have h2 : Real.exp 10 = Real.exp 1 ^ 10 := by rw [← Real.exp_nat_mul]; norm_num
    rw [h2]
    exact le_trans (by norm_num) (pow_le_pow_left₀ (by norm_num) h1 10)
  rw [Real.log_le_iff_le_exp (by norm_num)]
  refine le_trans ?_ (h.trans (le_of_eq ?_))
  · norm_num
  · norm_num

/-! ### The shortest-path file -/

/-- The stage, as a fraction of the sites, at which the wrapping cluster contains the row or column of the site just placed for the first time. -/
noncomputable def spStage (L : Nat) (q : List Nat) : ℝ :=
  ((sInf {m | ∃ k, q[m]? = some k ∧ Straight L (q.take (m + 1)) k} + 1 : Nat) : ℝ) / (L * L : Nat)

theorem spStage_bounds (hL : 0 < L) {q : List Nat} (hq : q.Perm (List.range (L * L))) : 0 ≤ spStage L q ∧ spStage L q ≤ 1 := by
  have hN : (0 : ℝ) < (L * L : Nat) := by exact_mod_cast Nat.mul_pos hL hL
  refine ⟨by unfold spStage; positivity, ?_⟩
  rw [spStage, div_le_one hN, Nat.cast_le]
  rcases Set.eq_empty_or_nonempty {m | ∃ k, q[m]? = some k ∧ Straight L (q.take (m + 1)) k} with h | h
  · rw [h, Nat.sInf_empty]
    exact Nat.mul_pos hL hL
  · obtain ⟨k, hk, _⟩ := Nat.sInf_mem h
    have := (List.getElem?_eq_some_iff.1 hk).1
    rw [hq.length_eq, List.length_range] at this
    exact this

theorem LineRan.stage {S : Perc ℝ} {q : List Nat} (h : LineRan so L S q) : S.shortestP = spStage L q := by
  obtain ⟨m, m1, m2, m3, m4⟩ := h.run
  have hs : sInf {m | ∃ k, q[m]? = some k ∧ Straight L (q.take (m + 1)) k} = m := by
    refine le_antisymm (Nat.sInf_le m3) ?_
    have hne : {m | ∃ k, q[m]? = some k ∧ Straight L (q.take (m + 1)) k}.Nonempty := ⟨m, m3⟩
    obtain ⟨k, k1, k2⟩ := Nat.sInf_mem hne
    by_contra hlt
    exact m4 _ k (by omega) k1 k2
  rw [spStage, hs]
  exact m2

/-- The two columns of the shortest-path file in terms of the orders. -/
theorem sp_columns (hL : 3 ≤ L) (ctor : Nat → Nat) (steps : Nat → Draw) {fuel : Nat} (hf : L * L < fuel) (x : Fin E → DrawVec (L * L)) :
    ∃ rows, spEnsemble (realEnv so) L ctor (ensembleDraws steps fuel x) = .ok rows ∧ rows.length = E ∧
      (rows.map (·.1)).sum = ∑ i ∈ Finset.range E, wrapStage L
        ((shuffleOrders (pyShuffle ctor (List.range (L * L))) (List.ofFn fun j => (x j).draws)).getD i []) ∧
      (rows.map (·.2)).sum = ∑ i ∈ Finset.range E, spStage L
        ((shuffleOrders (pyShuffle ctor (List.range (L * L))) (List.ofFn fun j => (x j).draws)).getD i []) := by
  have hfx : ∀ r ∈ ensembleDraws steps fuel x, L * L < r.fuel := by
    intro r hr
    obtain ⟨i, rfl⟩ := (List.mem_ofFn' _ _).1 hr
    exact hf
  obtain ⟨S0, Ss, rows, e0, hR, h1, h2, h3, _⟩ := C42_shortest_path (so := so) hL ctor hfx
  have hids : S0.siteIds = pyShuffle ctor (List.range (L * L)) := by
    obtain ⟨rev, e, _⟩ := new_ok (realEnv so) (by omega : 0 < L) ctor
    rw [e] at e0
    rw [← Except.ok.inj e0]
  have hr := hR.lineRan hL (.new e0) hfx
  have hw := hR.spRan hL (.new e0) hfx
  rw [hids, ensembleDraws_shuffles] at hr hw
  generalize hqs : shuffleOrders (pyShuffle ctor (List.range (L * L))) (List.ofFn fun j => (x j).draws) = qs at hr hw ⊢
  have hql : qs.length = E := by rw [← hqs, shuffleOrders_length, List.length_ofFn]
  have hsum : ∀ g : List Nat → ℝ, (qs.map g).sum = ∑ i ∈ Finset.range E, g (qs.getD i []) := by
    intro g
    rw [← hql, ← Fin.sum_univ_eq_sum_range (fun i => g (qs.getD i [])), ← List.sum_ofFn]
    congr 1
    apply List.ext_getElem
    · simp
    · intro n a1 a2
      simp only [List.getElem_map, List.getElem_ofFn]
      rw [getD_of_lt (by simpa using a1)]
  refine ⟨rows, h1, by rw [h3]; exact List.length_ofFn, ?_, ?_⟩
  · rw [← hsum, h2, List.map_map]
    congr 1
    have : ∀ S q, SpRan so L S q → S.getPc (realEnv so) = wrapStage L q := by
      intro S q hs
      obtain ⟨m, T, hm⟩ := hs.run
      obtain ⟨p, p1, p2, p3⟩ := Ran.pc hL hs.perm T hm
      rw [wrapStage_eq p1 p3, ← p2]
    clear hr hsum hql hqs h2 hR h3
    induction hw with
    | nil => rfl
    | cons h _ ih => rw [List.map_cons, List.map_cons, ih, ← this _ _ h]; rfl
  · rw [← hsum, h2, List.map_map]
    congr 1
    clear hw hsum hql hqs h2 hR h3
    induction hr with
    | nil => rfl
    | cons h _ ih => rw [List.map_cons, List.map_cons, ih, ← h.stage]; rfl

/-- C105 for the shortest-path class: the mean of each column of the file of `E` realisations is within `ε` of what it estimates, except for a
fraction `2 exp(-2Eε²)` of the outcomes; what it estimates does not depend on `E`, and for the first column it is the mean threshold of L0. -/
theorem C105_shortest_path (hL : 3 ≤ L) (hE : 0 < E) (ctor : Nat → Nat) (steps : Nat → Draw) {fuel : Nat} (hf : L * L < fuel) {ε : ℝ} (hε : 0 < ε) :
    ∃ rows : (Fin E → DrawVec (L * L)) → List (ℝ × ℝ),
      (∀ x, spEnsemble (realEnv so) L ctor (ensembleDraws steps fuel x) = .ok (rows x)) ∧
      meanOf (fun x => ind (ε ≤ |((rows x).map (·.1)).sum / (rows x).length -
        (∑ n ∈ Finset.range (L * L), (1 - micro (L * L) n fun T => ind (Wraps L (· ∈ T)))) / (L * L : Nat)|)) ≤ 2 * Real.exp (-(2 * E * ε ^ 2)) ∧
      meanOf (fun x => ind (ε ≤ |((rows x).map (·.2)).sum / (rows x).length -
        meanOf fun y : DrawVec (L * L) => spStage L (pyShuffle y.draws (List.range (L * L)))|)) ≤ 2 * Real.exp (-(2 * E * ε ^ 2)) := by
  choose rows h1 h2 h3 h4 using fun x : Fin E → DrawVec (L * L) => sp_columns (so := so) hL ctor steps hf x
  have hp := pyShuffle_perm ctor (List.range (L * L))
  refine ⟨rows, h1, ?_, ?_⟩
  · have := hoeffding_orders hE hp (wrapStage L) one_pos (fun q _ => wrapStage_bounds (by omega) q) (fun x => congrArg (· / (E : ℝ)) (h3 x)) hε
    rw [meanOf_wrapStage, mul_one] at this
    refine le_trans (le_of_eq (meanOf_congr fun x => ?_)) this
    rw [h2 x]
  · have := hoeffding_orders hE hp (spStage L) one_pos (fun q hq => spStage_bounds (by omega) hq) (fun x => congrArg (· / (E : ℝ)) (h4 x)) hε
    rw [mul_one] at this
    refine le_trans (le_of_eq (meanOf_congr fun x => ?_)) this
    rw [h2 x]

end SqPerc
