import Verif.Props.Threshold
/-
C99: on large lattices the shortest-path point is near 1.
-/
namespace SqPerc

variable {so : SetOrder} {L : Nat}

/-- The chance that `n` random sites contain a complete row or column. -/
theorem line_unlikely (hL : 0 < L) {n : Nat} (hn : n ≤ L * L) :
    micro (L * L) n (fun T => ind (HasLine L (· ∈ T))) ≤ 2 * L * ((n : ℝ) / (L * L : Nat)) ^ L := by
  classical
  let line : Nat × Bool → List Nat := fun i => (List.range L).map fun j => if i.2 then i.1 * L + j else j * L + i.1
  have hb := micro_le_sum (N := L * L) (n := n) (f := fun T => ind (HasLine L (· ∈ T))) ((Finset.range L) ×ˢ Finset.univ)
    (g := fun i T => ind (∀ s ∈ line i, s ∈ T)) (by
      intro T _
      by_cases hP : HasLine L (· ∈ T)
      · obtain ⟨i, hi, hl⟩ : ∃ i ∈ (Finset.range L) ×ˢ (Finset.univ : Finset Bool), ∀ s ∈ line i, s ∈ T := by
          rcases hP with ⟨r, hr, h⟩ | ⟨c, hc, h⟩
          · refine ⟨(r, true), Finset.mem_product.2 ⟨Finset.mem_range.2 hr, Finset.mem_univ _⟩, fun s hs => ?_⟩
            obtain ⟨j, hj, rfl⟩ := List.mem_map.1 hs
            exact h j (List.mem_range.1 hj)
          · refine ⟨(c, false), Finset.mem_product.2 ⟨Finset.mem_range.2 hc, Finset.mem_univ _⟩, fun s hs => ?_⟩
            obtain ⟨j, hj, rfl⟩ := List.mem_map.1 hs
            exact h j (List.mem_range.1 hj)
        refine le_trans ?_ (Finset.single_le_sum (fun i _ => ind_nonneg _) hi)
        rw [ind, ind, if_pos hP, if_pos hl]
      · rw [ind, if_neg hP]
        exact Finset.sum_nonneg fun i _ => ind_nonneg _)
  refine hb.trans ((Finset.sum_le_card_nsmul _ _ (((n : ℝ) / (L * L : Nat)) ^ L) ?_).trans (le_of_eq ?_))
  · rintro ⟨a, b⟩ hi
    have ha := Finset.mem_range.1 (Finset.mem_product.1 hi).1
    have hlen : (line (a, b)).length = L := by simp [line]
    have := micro_contains hn (l := line (a, b)) (by
      refine List.Nodup.map ?_ List.nodup_range
      intro x y h
      dsimp only at h
      cases b
      · have h' : x * L + a = y * L + a := h
        exact Nat.eq_of_mul_eq_mul_right hL (by omega)
      · have h' : a * L + x = a * L + y := h
        omega) (by
      intro s hs
      obtain ⟨j, hj, rfl⟩ := List.mem_map.1 hs
      have hj := List.mem_range.1 hj
      cases b
      · exact mul_add_lt hj ha
      · exact mul_add_lt ha hj)
    rwa [hlen] at this
  · rw [Finset.card_product, Finset.card_range, nsmul_eq_mul]
    push_cast
    simp only [Finset.card_univ, Fintype.card_bool]
    push_cast
    ring

/-- C99: the probability that the shortest-path point is at most `x = n / L²` is at most `2 L x^L`, and its mean is at least `x (1 - 2 L x^L)`. -/
theorem C99_bound (hL : 3 ≤ L) {E : Nat} (ctor : Nat → Nat) (steps : Nat → Draw) {fuel : Nat} (hf : L * L < fuel) {i : Nat} (hi : i < E) :
    ∃ (rows : (Fin E → DrawVec (L * L)) → List (ℝ × ℝ)) (sp : (Fin E → DrawVec (L * L)) → ℝ),
      (∀ x, spEnsemble (realEnv so) L ctor (ensembleDraws steps fuel x) = .ok (rows x)) ∧
      (∀ x, (rows x)[i]?.map (·.2) = some (sp x)) ∧ ∀ n ≤ L * L,
        meanOf (fun x => ind (sp x ≤ (n : ℝ) / (L * L : Nat))) ≤ 2 * L * ((n : ℝ) / (L * L : Nat)) ^ L ∧
        (n : ℝ) / (L * L : Nat) * (1 - 2 * L * ((n : ℝ) / (L * L : Nat)) ^ L) ≤ meanOf sp := by
  obtain ⟨rows, sp, h1, h2, h3, h4, _⟩ := C86_bound (so := so) hL ctor steps hf hi
  have hL0 : 0 < L := by omega
  have hN : (0 : ℝ) < (L * L : Nat) := by exact_mod_cast Nat.mul_pos hL0 hL0
  refine ⟨rows, sp, h1, h2, fun n hn => ⟨(h3 n hn).trans (line_unlikely hL0 hn), le_trans ?_ h4⟩⟩
  rw [div_mul_eq_mul_div]
  refine div_le_div_of_nonneg_right ?_ hN.le
  rw [← Finset.sum_range_add_sum_Ico _ hn]
  have g1 : (n : ℝ) * (1 - 2 * L * ((n : ℝ) / (L * L : Nat)) ^ L) ≤
      ∑ k ∈ Finset.range n, (1 - micro (L * L) k fun T => ind (HasLine L (· ∈ T))) := by
    have := Finset.card_nsmul_le_sum (Finset.range n) (fun k => 1 - micro (L * L) k fun T => ind (HasLine L (· ∈ T)))
      (1 - 2 * L * ((n : ℝ) / (L * L : Nat)) ^ L) (by
      intro k hk
      rw [Finset.mem_range] at hk
      have := line_unlikely hL0 (n := k) (by omega)
      have h3 : 2 * (L : ℝ) * ((k : ℝ) / (L * L : Nat)) ^ L ≤ 2 * L * ((n : ℝ) / (L * L : Nat)) ^ L :=
        mul_le_mul_of_nonneg_left (pow_le_pow_left₀ (by positivity) (div_le_div_of_nonneg_right (by exact_mod_cast hk.le) hN.le) _) (by positivity)
      linarith)
    rwa [Finset.card_range, nsmul_eq_mul] at this
  have g2 : 0 ≤ ∑ k ∈ Finset.Ico n (L * L), (1 - micro (L * L) k fun T => ind (HasLine L (· ∈ T))) :=
    Finset.sum_nonneg fun k hk => by
      rw [Finset.mem_Ico] at hk
      have hch : (0 : ℝ) < (L * L).choose k := by exact_mod_cast Nat.choose_pos hk.2.le
      have : micro (L * L) k (fun T => ind (HasLine L (· ∈ T))) ≤ 1 := by
        rw [micro, div_le_one hch]
        refine (Finset.sum_le_card_nsmul _ _ 1 fun T _ => ind_le_one _).trans ?_
        rw [Finset.card_powersetCard, Finset.card_range, nsmul_eq_mul, mul_one]
      linarith
  linarith

/-- C99: on all sufficiently large lattices the shortest-path point is, up to any given probability, above `1 - ε`, and so is its mean; the
threshold in the first column stays below `4/5` in the mean. -/
theorem C99_limit {ε : ℝ} (hε : 0 < ε) : ∃ L0 : Nat, ∀ L : Nat, L0 ≤ L → 3 ≤ L → ∀ {E : Nat} (ctor : Nat → Nat) (steps : Nat → Draw) {fuel : Nat},
    L * L < fuel → ∀ {i : Nat}, i < E →
    ∃ (rows : (Fin E → DrawVec (L * L)) → List (ℝ × ℝ)) (pc sp : (Fin E → DrawVec (L * L)) → ℝ),
      (∀ x, spEnsemble (realEnv so) L ctor (ensembleDraws steps fuel x) = .ok (rows x)) ∧
      (∀ x, (rows x)[i]? = some (pc x, sp x)) ∧
      meanOf (fun x => ind (sp x ≤ 1 - ε)) ≤ ε ∧ 1 - ε ≤ meanOf sp ∧ meanOf pc ≤ 4 / 5 := by
  have hs5 : 2.23 ≤ √5 := Real.le_sqrt_of_sq_le (by norm_num)
  obtain ⟨L1, k1⟩ := C98_limit_shortest_path (so := so) (ε := 1 / 100) (by norm_num)
  have hy1 : max (1 - ε / 4) 0 < 1 := max_lt (by linarith) one_pos
  have := tendsto_pow_const_mul_const_pow_of_lt_one 1 (le_max_right (1 - ε / 4) 0) hy1
  obtain ⟨L2, k2⟩ := Filter.eventually_atTop.1 (this.eventually (gt_mem_nhds (show 0 < ε / 4 by linarith)))
  obtain ⟨L3, k3⟩ := exists_nat_gt (4 / ε)
  refine ⟨max L1 (max L2 L3), fun L hL hL3 E ctor steps fuel hf i hi => ?_⟩
  have hL0 : 0 < L := by omega
  have hN : (0 : ℝ) < (L * L : Nat) := by exact_mod_cast Nat.mul_pos hL0 hL0
  have hinv : 1 / ((L * L : Nat) : ℝ) ≤ ε / 4 := by
    rw [div_le_iff₀ hN]
    have a1 : (L3 : ℝ) ≤ (L * L : Nat) := by
      have : L3 ≤ L * L := le_trans (by omega) (Nat.le_mul_self L)
      exact_mod_cast this
    have a2 : 4 / ε < (L * L : Nat) := k3.trans_le a1
    rw [div_lt_iff₀ hε] at a2
    linarith
  obtain ⟨rows, pc, h1, h2, _, _, _, h3⟩ := k1 L (by omega) hL3 (E := E) ctor steps hf hi
  obtain ⟨rows', sp, h1', h2', h3'⟩ := C99_bound (so := so) hL3 ctor steps hf hi
  have er : ∀ x, rows' x = rows x := fun x => by
    have := (h1' x).symm.trans (h1 x)
    exact Except.ok.inj this
  -- the number of sites
  obtain ⟨n, hn, n1, n2⟩ : ∃ n : Nat, n ≤ L * L ∧ 1 - ε / 2 ≤ (n : ℝ) / (L * L : Nat) ∧ 2 * L * ((n : ℝ) / (L * L : Nat)) ^ L ≤ ε / 2 := by
    refine ⟨⌈(1 - ε / 2) * (L * L : Nat)⌉₊, ?_, ?_, ?_⟩
    · rw [Nat.ceil_le]
      nlinarith
    · rw [le_div_iff₀ hN]
      exact Nat.le_ceil _
    · have hk := k2 L (by omega)
      rw [pow_one] at hk
      have hle : (⌈(1 - ε / 2) * (L * L : Nat)⌉₊ : ℝ) / (L * L : Nat) ≤ max (1 - ε / 4) 0 := by
        rcases le_or_gt ((1 - ε / 2) * (L * L : Nat)) 0 with h | h
        · rw [Nat.ceil_eq_zero.2 h, Nat.cast_zero, zero_div]
          exact le_max_right _ _
        · refine le_trans ?_ (le_max_left _ _)
          rw [div_le_iff₀ hN]
          have := Nat.ceil_lt_add_one h.le
          rw [div_le_iff₀ hN] at hinv
          nlinarith
      have := pow_le_pow_left₀ (by positivity) hle L
      have := mul_le_mul_of_nonneg_left this (show (0 : ℝ) ≤ L by positivity)
      linarith
  obtain ⟨b1, b2⟩ := h3' n hn
  have hx := density_le_one hL0 hn
  have hx0 : 0 ≤ (n : ℝ) / (L * L : Nat) := by positivity
  refine ⟨rows, pc, sp, h1, fun x => ?_, ?_, ?_, by linarith⟩
  · have e1 := h2 x
    have e2 := h2' x
    rw [er x] at e2
    rcases h : (rows x)[i]? with _ | ⟨a, b⟩
    · rw [h] at e1
      cases e1
    · rw [h] at e1 e2
      simp only [Option.map_some, Option.some.injEq] at e1 e2
      rw [e1, e2]
  · refine (meanOf_mono fun x => ind_mono fun h => ?_).trans (b1.trans (by linarith))
    linarith
  · refine le_trans ?_ b2
    nlinarith

/-- For instance: for `L = 100` the shortest-path point is above 3/4 except with probability `10⁻¹⁰`. -/
example {E : Nat} (ctor : Nat → Nat) (steps : Nat → Draw) {i : Nat} (hi : i < E) :
    ∃ (rows : (Fin E → DrawVec (100 * 100)) → List (ℝ × ℝ)) (sp : (Fin E → DrawVec (100 * 100)) → ℝ),
      (∀ x, spEnsemble (realEnv so) 100 ctor (ensembleDraws steps 10001 x) = .ok (rows x)) ∧
      (∀ x, (rows x)[i]?.map (·.2) = some (sp x)) ∧ meanOf (fun x => ind (sp x ≤ 3 / 4)) ≤ 1 / 10 ^ 10 := by
  obtain ⟨rows, sp, h1, h2, h3⟩ := C99_bound (so := so) (L := 100) (by omega) ctor steps (fuel := 10001) (by omega) hi
  refine ⟨rows, sp, h1, h2, ?_⟩
  have := (h3 7500 (by omega)).1
  rw [show ((7500 : Nat) : ℝ) / (100 * 100 : Nat) = 3 / 4 by norm_num] at this
  refine this.trans ?_
  norm_num

end SqPerc
