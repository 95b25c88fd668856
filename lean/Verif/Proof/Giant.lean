import Verif.Proof.Enclose
import Verif.Proof.Thresholds
import Verif.Proof.NearFull
/-
At high density almost all sites belong to one wrapping cluster.
-/
namespace SqPerc

variable {L : Nat}

/-- The coordinates of a site. -/
def coords (L s : Nat) : Int × Int := ((s / L : Nat), (s % L : Nat))

theorem siteAt_coords {s : Nat} (hs : s < L * L) : siteAt L (coords L s) = s := siteAt_rc hs

/-- Sites outside `T` form an allowed path that starts `j + 1` places to the right of `s` and has `j + 3` different sites. -/
def Ringed (L : Nat) (T : Finset Nat) (s j : Nat) : Prop :=
  ∃ ds ∈ roundRules.lists (j + 2) none, (trail L roundVec (coords L s + (0, (j : Int) + 1)) ds).Nodup ∧
    ∀ t ∈ trail L roundVec (coords L s + (0, (j : Int) + 1)) ds, t ∉ T

theorem ringed_of_small (hL : 0 < L) {T : Finset Nat} (hT : T ⊆ Finset.range (L * L)) (hno : NoLoop L (· ∈ T)) {s : Nat} (hs : s ∈ T)
    (hw : ¬ WrapsAt L (· ∈ T) s) : ∃ j < L * L, Ringed L T s j := by
  classical
  have hsL := Finset.mem_range.1 (hT hs)
  have e := siteAt_coords hsL
  obtain ⟨j, j', h1, h2⟩ := enclosed hL (occ := (· ∈ T)) (fun s hs => Finset.mem_range.1 (hT hs)) (p := coords L s) (by rwa [e]) (by rwa [e])
  have hex := EmptyConn.gpath h2 h1
  have hm := Nat.find_spec hex
  have hshort : ∀ m, GPath (Near 0) L (· ∉ T) m (coords L s + (0, (j : Int) + 1)) (coords L s + (0, -(j' : Int) - 1)) → Nat.find hex ≤ m :=
    fun m h => Nat.find_min' hex h
  generalize Nat.find hex = n at hm hshort
  have hn : j + 2 ≤ n := by
    have := (hm.near fun v h => h).le.2
    simp only [Prod.snd_add] at this
    omega
  obtain ⟨u, u0, un, he, hst⟩ := hm.points
  have hmin : ∀ i k m, i + k ≤ n → GPath (Near 0) L (· ∉ T) m (u i) (u (i + k)) → k ≤ m := by
    intro i k m hik hp
    have p1 := GPath.part (D := Near 0) (L := L) (em := (· ∉ T)) he hst (i := 0) i (by omega)
    have p3 := GPath.part (D := Near 0) (L := L) (em := (· ∉ T)) he hst (i := i + k) (n - (i + k)) (by omega)
    rw [Nat.zero_add] at p1
    rw [Nat.add_sub_cancel' hik] at p3
    have := hshort _ (u0 ▸ un ▸ (p1.append hp).append p3)
    omega
  have hd : ∀ i ≤ n, ∀ k ≤ n, i < k → siteAt L (u i) ≠ siteAt L (u k) := by
    intro i hi k hk hik hs'
    have hp := GPath.part (D := Near 0) (L := L) (em := (· ∉ T)) he hst (i := i) (k - i) (by omega)
    rw [Nat.add_sub_cancel' hik.le] at hp
    by_cases h0 : u k = u i
    · have := hmin i (k - i) 0 (by omega) (by rw [Nat.add_sub_cancel' hik.le, h0]; exact .nil (he i hi))
      omega
    · refine hno (u k - u i) (sub_ne_zero.2 h0) ⟨u i, by rw [add_sub_cancel, hs'], ?_⟩
      rw [add_sub_cancel]
      clear hmin hs' h0
      generalize u k = q at hp
      generalize k - i = m at hp
      generalize u i = p at hp
      clear hshort h1
      induction hp with
      | nil _ => exact .refl
      | snoc h hr hn' ih =>
        refine Relation.ReflTransGen.tail ih ⟨h.right, hr, ?_⟩
        simp only [Near, Prod.fst_sub, Prod.snd_sub, Prod.fst_zero, Prod.snd_zero, sub_zero] at hn' ⊢
        exact hn'
  have hd' : ∀ i ≤ n, ∀ k ≤ n, siteAt L (u i) = siteAt L (u k) → i = k := by
    intro i hi k hk h
    rcases Nat.lt_trichotomy i k with h' | h' | h'
    · exact absurd h (hd i hi k hk h')
    · exact h'
    · exact absurd h.symm (hd k hk i hi h')
  have hcard : n + 1 ≤ L * L := by
    have := Finset.card_le_card_of_injOn (s := Finset.range (n + 1)) (t := Finset.range (L * L)) (fun i => siteAt L (u i))
      (fun i _ => Finset.mem_coe.2 (Finset.mem_range.2 (siteAt_lt hL _))) (fun i hi k hk h =>
        hd' i (by have := Finset.mem_range.1 (Finset.mem_coe.1 hi); omega) k (by have := Finset.mem_range.1 (Finset.mem_coe.1 hk); omega) h)
    rwa [Finset.card_range, Finset.card_range] at this
  refine ⟨j, by omega, ?_⟩
  have := round_trail (k := j + 2) hn he hst (fun i hi k hk => hd' i (by omega) k (by omega)) hmin
  rw [u0] at this
  exact this

theorem ringed_unlikely (hL : 0 < L) {n : Nat} (hn : n ≤ L * L) (s j : Nat) :
    micro (L * L) n (fun T => ind (Ringed L T s j)) ≤ 3 / 5 * ((2 + √5) * (1 - (n : ℝ) / (L * L : Nat))) ^ (j + 3) := by
  classical
  have h5 : √5 * √5 = 5 := Real.mul_self_sqrt (by norm_num)
  have hpos : 67 / 30 ≤ √5 := Real.le_sqrt_of_sq_le (by norm_num)
  rw [micro_compl hn]
  have hb := micro_le_sum (N := L * L) (n := L * L - n) (f := fun T => ind (Ringed L (Finset.range (L * L) \ T) s j)) (roundRules.lists (j + 2) none)
    (g := fun ds T => ind ((trail L roundVec (coords L s + (0, (j : Int) + 1)) ds).Nodup ∧
      ∀ t ∈ trail L roundVec (coords L s + (0, (j : Int) + 1)) ds, t ∈ T)) (by
      intro T hT
      by_cases hP : Ringed L (Finset.range (L * L) \ T) s j
      · obtain ⟨ds, hds, h1, h2⟩ := id hP
        refine le_trans ?_ (Finset.single_le_sum (fun i _ => ind_nonneg _) hds)
        have h3 : ∀ t ∈ trail L roundVec (coords L s + (0, (j : Int) + 1)) ds, t ∈ T := by
          intro t ht
          have := h2 t ht
          rw [Finset.mem_sdiff, Finset.mem_range, not_and, not_not] at this
          exact this (trail_lt hL ds _ t ht)
        rw [ind, ind, if_pos hP, if_pos ⟨h1, h3⟩]
      · rw [ind, if_neg hP]
        exact Finset.sum_nonneg fun i _ => ind_nonneg _)
  have hN : (0 : ℝ) < (L * L : Nat) := by exact_mod_cast Nat.mul_pos hL hL
  have e2 : ((L * L - n : Nat) : ℝ) / (L * L : Nat) = 1 - (n : ℝ) / (L * L : Nat) := by
    rw [Nat.cast_sub hn, sub_div, div_self hN.ne']
  have hy : 0 ≤ 1 - (n : ℝ) / (L * L : Nat) := by
    rw [← e2]; positivity
  refine hb.trans ?_
  refine (Finset.sum_le_card_nsmul _ _ ((1 - (n : ℝ) / (L * L : Nat)) ^ (j + 3)) ?_).trans ?_
  · intro ds hds
    have hlen := trail_length (L := L) (vec := roundVec) ds (coords L s + (0, (j : Int) + 1))
    rw [roundRules.length (j + 2) none ds hds] at hlen
    by_cases hnd : (trail L roundVec (coords L s + (0, (j : Int) + 1)) ds).Nodup
    · have := micro_contains (n := L * L - n) (Nat.sub_le _ _) hnd (trail_lt hL ds _)
      rw [hlen, e2] at this
      simpa only [hnd, true_and] using this
    · simp only [hnd, false_and]
      have : micro (L * L) (L * L - n) (fun _ => ind False) = 0 := by simp [micro, ind]
      rw [this]
      positivity
  · rw [nsmul_eq_mul, mul_pow, ← mul_assoc]
    refine mul_le_mul_of_nonneg_right ((round_count (j + 2)).trans ?_) (by positivity)
    rw [pow_succ (2 + √5) (j + 2), ← mul_assoc, mul_right_comm]
    refine mul_le_mul_of_nonneg_right ?_ (by positivity)
    nlinarith

/-- Without closed paths of empty sites, the sites outside a wrapping cluster are empty or surrounded. -/
theorem outside_le (hL : 0 < L) {T : Finset Nat} (hT : T ⊆ Finset.range (L * L)) (hno : NoLoop L (· ∈ T)) {k : Nat}
    (hw : WrapsAt L (· ∈ T) k) :
    ((outside L (· ∈ T) k).card : ℝ) ≤ (L * L - T.card : Nat) + ∑ s ∈ Finset.range (L * L), ∑ j ∈ Finset.range (L * L), ind (Ringed L T s j) := by
  classical
  have hocc : ∀ s, s ∈ T → s < L * L := fun s hs => Finset.mem_range.1 (hT hs)
  have hsub : outside L (· ∈ T) k ⊆ (Finset.range (L * L) \ T) ∪ (Finset.range (L * L)).filter (fun s => ∃ j < L * L, Ringed L T s j) := by
    intro t ht
    obtain ⟨ht1, ht2⟩ := Finset.mem_filter.1 ht
    rw [Finset.mem_union, Finset.mem_sdiff, Finset.mem_filter]
    by_cases hmem : t ∈ T
    · right
      refine ⟨ht1, ringed_of_small hL hT hno hmem fun hwt => ht2 ?_⟩
      simp only [siteComp, Finset.mem_filter]
      exact ⟨ht1, hmem, hno.unique hocc hw hwt⟩
    · exact Or.inl ⟨ht1, hmem⟩
  have hc := (Finset.card_le_card hsub).trans (Finset.card_union_le _ _)
  rw [Finset.card_sdiff_of_subset hT, Finset.card_range] at hc
  have h2 : (((Finset.range (L * L)).filter (fun s => ∃ j < L * L, Ringed L T s j)).card : ℝ) ≤
      ∑ s ∈ Finset.range (L * L), ∑ j ∈ Finset.range (L * L), ind (Ringed L T s j) := by
    rw [Finset.card_filter, Nat.cast_sum]
    refine Finset.sum_le_sum fun s _ => ?_
    split
    · next h =>
      obtain ⟨j, hj, hr⟩ := h
      refine le_trans ?_ (Finset.single_le_sum (fun i _ => ind_nonneg _) (Finset.mem_range.2 hj))
      rw [ind, if_pos hr, Nat.cast_one]
    · rw [Nat.cast_zero]
      exact Finset.sum_nonneg fun j _ => ind_nonneg _
  have h3 : ((outside L (· ∈ T) k).card : ℝ) ≤ ((L * L - T.card : Nat) : ℝ) +
      (((Finset.range (L * L)).filter (fun s => ∃ j < L * L, Ringed L T s j)).card : ℝ) := by exact_mod_cast hc
  linarith

/-- The bound on the fraction of sites outside the wrapping cluster. -/
noncomputable def lost (L : Nat) (T : Finset Nat) : ℝ :=
  ((L * L - T.card : Nat) + ∑ s ∈ Finset.range (L * L), ∑ j ∈ Finset.range (L * L), ind (Ringed L T s j)) / (L * L : Nat) +
    ind (∃ v, v ≠ 0 ∧ EmptyLoop L (· ∈ T) v)

theorem lost_small (hL : 0 < L) {n : Nat} (hn : n ≤ L * L) (hρ : (2 + √5) * (1 - (n : ℝ) / (L * L : Nat)) < 1) :
    micro (L * L) n (lost L) ≤ (1 - (n : ℝ) / (L * L : Nat)) +
      3 / 5 * ((2 + √5) * (1 - (n : ℝ) / (L * L : Nat))) ^ 3 / (1 - (2 + √5) * (1 - (n : ℝ) / (L * L : Nat))) +
      (L : ℝ) ^ 2 * ((2 + √5) * (1 - (n : ℝ) / (L * L : Nat))) ^ L := by
  have hN : (0 : ℝ) < (L * L : Nat) := by exact_mod_cast Nat.mul_pos hL hL
  have e2 : ((L * L - n : Nat) : ℝ) / (L * L : Nat) = 1 - (n : ℝ) / (L * L : Nat) := by
    rw [Nat.cast_sub hn, sub_div, div_self hN.ne']
  have hy : 0 ≤ 1 - (n : ℝ) / (L * L : Nat) := by
    rw [← e2]; positivity
  have hloop := loop_unlikely hL hn
  have hring := fun s j => ringed_unlikely hL hn s j
  have hch : (0 : ℝ) < (L * L).choose n := by exact_mod_cast Nat.choose_pos hn
  set ρ := (2 + √5) * (1 - (n : ℝ) / (L * L : Nat)) with hρd
  have hρ0 : 0 ≤ ρ := by positivity
  have e : micro (L * L) n (lost L) = ((L * L - n : Nat) : ℝ) / (L * L : Nat) +
      (∑ s ∈ Finset.range (L * L), ∑ j ∈ Finset.range (L * L), micro (L * L) n (fun T => ind (Ringed L T s j))) / (L * L : Nat) +
      micro (L * L) n (fun T => ind (∃ v, v ≠ 0 ∧ EmptyLoop L (· ∈ T) v)) := by
    have e1 : ∀ T ∈ (Finset.range (L * L)).powersetCard n, lost L T = ((L * L - n : Nat) : ℝ) / (L * L : Nat) +
        (∑ s ∈ Finset.range (L * L), ∑ j ∈ Finset.range (L * L), ind (Ringed L T s j)) / (L * L : Nat) +
        ind (∃ v, v ≠ 0 ∧ EmptyLoop L (· ∈ T) v) := by
      intro T hT
      rw [lost, (Finset.mem_powersetCard.1 hT).2, add_div]
    unfold micro
    rw [Finset.sum_congr rfl e1, Finset.sum_add_distrib, Finset.sum_add_distrib, Finset.sum_const, Finset.card_powersetCard, Finset.card_range,
      nsmul_eq_mul, add_div, add_div, mul_div_cancel_left₀ _ hch.ne']
    congr 2
    rw [← Finset.sum_div, div_right_comm]
    congr 1
    simp only [← Finset.sum_div]
    congr 1
    rw [Finset.sum_comm]
    exact Finset.sum_congr rfl fun s _ => Finset.sum_comm
  have hg : ∀ s, ∑ j ∈ Finset.range (L * L), micro (L * L) n (fun T => ind (Ringed L T s j)) ≤ 3 / 5 * ρ ^ 3 / (1 - ρ) := by
    intro s
    refine (Finset.sum_le_sum fun j _ => hring s j).trans ?_
    have : ∀ j ∈ Finset.range (L * L), 3 / 5 * ρ ^ (j + 3) = 3 / 5 * ρ ^ 3 * ρ ^ j := fun j _ => by rw [pow_add]; ring
    rw [Finset.sum_congr rfl this, ← Finset.mul_sum, div_eq_mul_inv]
    refine mul_le_mul_of_nonneg_left ?_ (by positivity)
    rw [← tsum_geometric_of_lt_one hρ0 hρ]
    exact (summable_geometric_of_lt_one hρ0 hρ).sum_le_tsum _ fun i _ => by positivity
  rw [e, e2]
  refine add_le_add (add_le_add le_rfl ?_) hloop
  rw [div_le_iff₀ hN]
  refine (Finset.sum_le_card_nsmul _ _ _ fun s _ => hg s).trans (le_of_eq ?_)
  rw [Finset.card_range, nsmul_eq_mul, mul_comm]

end SqPerc
