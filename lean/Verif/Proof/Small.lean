import Verif.Proof.Thresholds
import Verif.Props.Mean
/-
How unlikely large clusters are at low density.
-/
namespace SqPerc

variable {L : Nat}

/-- A cluster that is not small contains an allowed path of `r` steps over different sites. -/
theorem big_trail {r : Nat} (hr : r < L) {T : Finset Nat} (hT : T ⊆ Finset.range (L * L)) {s : Nat} (hs : s ∈ T)
    (h : (2 * r - 1) ^ 2 < (siteComp L (· ∈ T) s).card) :
    ∃ p, ∃ ds ∈ straightRules.lists r none, (trail L Dir.vec p ds).Nodup ∧ ∀ s ∈ trail L Dir.vec p ds, s ∈ T := by
  classical
  have hL : 0 < L := by omega
  obtain ⟨p, rfl⟩ : ∃ p, siteAt L p = s := ⟨_, siteAt_rc (Finset.mem_range.1 (hT hs))⟩
  -- some site cannot be reached in fewer steps
  obtain ⟨q, n, hn, hp, hmin⟩ : ∃ q n, r ≤ n ∧ GPath (fun v => ∃ d : Dir, v = d.vec) L (· ∈ T) n p q ∧
      ∀ m, GPath (fun v => ∃ d : Dir, v = d.vec) L (· ∈ T) m p q → n ≤ m := by
    by_contra hcon
    push Not at hcon
    have hsmall : ∀ q n, GPath (fun v => ∃ d : Dir, v = d.vec) L (· ∈ T) n p q → ∃ m < r, GPath (fun v => ∃ d : Dir, v = d.vec) L (· ∈ T) m p q := by
      intro q n
      induction n using Nat.strong_induction_on with
      | _ n ih =>
        intro hq
        by_cases hnr : n < r
        · exact ⟨n, hnr, hq⟩
        · obtain ⟨m, h1, h2⟩ := hcon q n (by omega) hq
          exact ih m h2 h1
    have hsub : siteComp L (· ∈ T) (siteAt L p) ⊆
        ((Finset.Ioo (-(r : Int)) r) ×ˢ (Finset.Ioo (-(r : Int)) r)).image fun v => siteAt L (p + v) := by
      intro t ht
      simp only [siteComp, Finset.mem_filter, Finset.mem_range] at ht
      obtain ⟨v, hv⟩ := ht.2.2.walk hs
      obtain ⟨n, hn⟩ := hv.gpath hL
      obtain ⟨m, hm, hp⟩ := hsmall _ _ hn
      have hle := (hp.near (by rintro _ ⟨d, rfl⟩; cases d <;> simp [Near, Dir.vec])).le
      simp only [Prod.fst_add, Prod.snd_add, add_sub_cancel_left] at hle
      refine Finset.mem_image.2 ⟨v, ?_, hv.lift hL⟩
      rw [Finset.mem_product, Finset.mem_Ioo, Finset.mem_Ioo]
      omega
    have := (Finset.card_le_card hsub).trans Finset.card_image_le
    rw [Finset.card_product, Int.card_Ioo] at this
    have e : ((r : Int) - -(r : Int) - 1).toNat = 2 * r - 1 := by omega
    rw [e, ← pow_two] at this
    omega
  obtain ⟨u, rfl, rfl, hu, hst⟩ := hp.points
  have seg : ∀ i k, i + k ≤ n → GPath (fun v => ∃ d : Dir, v = d.vec) L (· ∈ T) k (u i) (u (i + k)) := fun i k => GPath.part hu hst k
  have hgeo : ∀ i k m, i + k ≤ n → GPath (fun v => ∃ d : Dir, v = d.vec) L (· ∈ T) m (u i) (u (i + k)) → k ≤ m := by
    intro i k m hik hp
    have s1 := seg 0 i (by omega)
    have s3 := seg (i + k) (n - (i + k)) (by omega)
    rw [show 0 + i = i by omega] at s1
    rw [show i + k + (n - (i + k)) = n by omega] at s3
    have := hmin _ ((s1.append hp).append s3)
    omega
  have key : ∀ i j, i < j → j ≤ r → siteAt L (u i) ≠ siteAt L (u j) := by
    intro i j hij hj e
    have s2 := seg i (j - i) (by omega)
    rw [show i + (j - i) = j by omega] at s2
    by_cases hz : u j - u i = 0
    · have := hgeo i (j - i) 0 (by omega) (by
        rw [show i + (j - i) = j by omega, sub_eq_zero.1 hz]
        exact .nil (hu i (by omega)))
      omega
    · have := (s2.near (by rintro _ ⟨d, rfl⟩; cases d <;> simp [Near, Dir.vec])).length_ge hL e hz
      omega
  obtain ⟨ds, h1, h2⟩ := straight_trail (T := T) (u := u) hn hu hst (by
    intro i hi j hj e
    rcases lt_trichotomy i j with h | h | h
    · exact absurd e (key i j h hj)
    · exact h
    · exact absurd e.symm (key j i h hi)) hgeo
  exact ⟨u 0, ds, h1, h2⟩

/-- The chance that `n` random sites contain a cluster of more than `(2 r - 1)²` sites. -/
theorem big_unlikely {r : Nat} (hr : r < L) {n : Nat} (hn : n ≤ L * L) :
    micro (L * L) n (fun T => ind (∃ s ∈ T, (2 * r - 1) ^ 2 < (siteComp L (· ∈ T) s).card)) ≤
      (L : ℝ) ^ 2 * ((1 + √2) * ((n : ℝ) / (L * L : Nat))) ^ (r + 1) := by
  have hL : 0 < L := by omega
  have h2 : √2 * √2 = 2 := Real.mul_self_sqrt (by norm_num)
  have := micro_trails hL straightRules none Dir.vec (k := r) hn (P := fun T => ∃ s ∈ T, (2 * r - 1) ^ 2 < (siteComp L (· ∈ T) s).card) (by
    rintro T hT ⟨s, hs, h⟩
    exact big_trail hr hT hs h)
  refine this.trans ?_
  rw [mul_pow, ← mul_assoc]
  refine mul_le_mul_of_nonneg_right ?_ (by positivity)
  rw [show ((L * L : Nat) : ℝ) = (L : ℝ) ^ 2 by push_cast; ring]
  refine mul_le_mul_of_nonneg_left ?_ (by positivity)
  refine (straight_count r).trans ?_
  rw [pow_succ']
  refine mul_le_mul_of_nonneg_right ?_ (by positivity)
  have : 7 / 5 ≤ √2 := Real.le_sqrt_of_sq_le (by norm_num)
  linarith

/-! ### Bonds -/

theorem bondComp_small {occ : Nat → Prop} (hocc : ∀ s, occ s → s < L * L) {M : Nat} (hM : 1 ≤ M) (h : ∀ s, occ s → (siteComp L occ s).card ≤ M)
    {b : Nat} (hb : b < 2 * (L * L)) : (bondComp L occ b).card ≤ 4 * M := by
  classical
  by_cases hex : ∃ s, occ s ∧ Incident L s b
  · obtain ⟨s, hs, hi⟩ := hex
    obtain ⟨_, d, rfl⟩ := (incident_iff hb).1 hi
    have hsub : bondComp L occ (bondAt L s d) ⊆ ((siteComp L occ s) ×ˢ (Finset.univ : Finset Dir)).image fun x => bondAt L x.1 x.2 := by
      intro b' hb'
      simp only [bondComp, Finset.mem_filter, Finset.mem_range] at hb'
      obtain ⟨hlt, hc⟩ := hb'
      have hex' : ∃ t, occ t ∧ Incident L t b' := by
        rcases hc.symm.eq_or_occ with h | h
        · exact ⟨s, hs, by rw [h]; exact hi⟩
        · exact h
      obtain ⟨t, ht, hti⟩ := hex'
      obtain ⟨htl, d', rfl⟩ := (incident_iff hlt).1 hti
      refine Finset.mem_image.2 ⟨(t, d'), Finset.mem_product.2 ⟨?_, Finset.mem_univ _⟩, rfl⟩
      simp only [siteComp, Finset.mem_filter, Finset.mem_range]
      exact ⟨htl, ht, (siteConn_iff hocc hs ht d d').2 hc⟩
    have := (Finset.card_le_card hsub).trans Finset.card_image_le
    rw [Finset.card_product] at this
    have h4 : (Finset.univ : Finset Dir).card = 4 := rfl
    rw [h4] at this
    have := h s hs
    omega
  · have : bondComp L occ b ⊆ {b} := by
      intro b' hb'
      simp only [bondComp, Finset.mem_filter] at hb'
      rcases hb'.2.eq_or_occ with h | h
      · rw [← h]; exact Finset.mem_singleton_self _
      · exact absurd h hex
    have := Finset.card_le_card this
    rw [Finset.card_singleton] at this
    omega

theorem bondComp_self {occ : Nat → Prop} {b : Nat} (hb : b < 2 * (L * L)) : b ∈ bondComp L occ b := by
  classical
  simp only [bondComp, Finset.mem_filter, Finset.mem_range]
  exact ⟨hb, BondConn.refl b⟩

/-- The components are a partition of the bonds. -/
theorem sum_bondComps (L : Nat) (occ : Nat → Prop) : ∑ X ∈ bondComps L occ, X.card = 2 * (L * L) := by
  classical
  have := Finset.card_eq_sum_card_image (bondComp L occ) (Finset.range (2 * (L * L)))
  rw [Finset.card_range] at this
  rw [this]
  unfold bondComps
  refine Finset.sum_congr (by congr) fun X hX => ?_
  congr 1
  obtain ⟨b, hb, rfl⟩ := Finset.mem_image.1 hX
  rw [Finset.mem_range] at hb
  ext a
  simp only [Finset.mem_filter, Finset.mem_range]
  constructor
  · intro ha
    simp only [bondComp, Finset.mem_filter, Finset.mem_range] at ha
    refine ⟨ha.1, ?_⟩
    ext c
    simp only [bondComp, Finset.mem_filter, Finset.mem_range]
    exact ⟨fun h => ⟨h.1, ha.2.trans h.2⟩, fun h => ⟨h.1, ha.2.symm.trans h.2⟩⟩
  · rintro ⟨ha, e⟩
    rw [← e]
    exact bondComp_self ha

/-- If no component is large, the entropy is large. -/
theorem shannon_ge (hL : 0 < L) {occ : Nat → Prop} {M : Nat} (hM : 0 < M) (h : ∀ b < 2 * (L * L), (bondComp L occ b).card ≤ M) :
    Real.log ((2 * (L * L) : Nat) / M) ≤ shannon L occ := by
  classical
  have hB : (0 : ℝ) < (2 * (L * L) : Nat) := by
    have := Nat.mul_pos hL hL
    exact_mod_cast (by omega : 0 < 2 * (L * L))
  have hM' : (0 : ℝ) < M := by exact_mod_cast hM
  have e : Real.log ((2 * (L * L) : Nat) / M) = ∑ X ∈ bondComps L occ, ((X.card : ℝ) / (2 * (L * L) : Nat)) * Real.log ((2 * (L * L) : Nat) / M) := by
    rw [← Finset.sum_mul, ← Finset.sum_div, ← Nat.cast_sum, sum_bondComps, div_self hB.ne', one_mul]
  rw [e, shannon, ← Finset.sum_neg_distrib]
  refine Finset.sum_le_sum fun X hX => ?_
  rw [← mul_neg]
  refine mul_le_mul_of_nonneg_left ?_ (by positivity)
  obtain ⟨b, hb, rfl⟩ := Finset.mem_image.1 hX
  rw [Finset.mem_range] at hb
  have hpos : 0 < (bondComp L occ b).card := Finset.card_pos.2 ⟨b, bondComp_self hb⟩
  have hpos' : (0 : ℝ) < (bondComp L occ b).card := by exact_mod_cast hpos
  rw [← Real.log_inv, inv_div]
  refine Real.log_le_log (by positivity) ?_
  exact div_le_div_of_nonneg_left hB.le hpos' (by exact_mod_cast h b hb)

theorem shannon_nonneg (hL : 0 < L) (occ : Nat → Prop) : 0 ≤ shannon L occ := by
  have hB : 0 < 2 * (L * L) := by
    have := Nat.mul_pos hL hL
    omega
  have := shannon_ge hL (occ := occ) hB (fun b _ => by
    classical
    refine (Finset.card_filter_le _ _).trans ?_
    rw [Finset.card_range])
  rwa [div_self (by exact_mod_cast hB.ne'), Real.log_one] at this

end SqPerc
