import Verif.Proof.Giant
import Verif.Proof.Variance
import Verif.Props.NearFull
import Verif.Props.LowDensity
/-
C102: the table at high density.
-/
namespace SqPerc

variable {α : Type} {L : Nat} {env : Env α} {v : Variant} {S : Perc α} {so : SetOrder}

/-- C102: after any history, if no closed path of empty sites with straight and diagonal steps goes around the lattice, then the wrapping
cluster of the code contains every site whose cluster wraps around the lattice. -/
theorem C102_unique (h : Reach env v L S) (ha : S.afterWrapping = true) (hno : ∀ w, w ≠ 0 → ¬ EmptyLoop L S.Occ w) {t : Nat} :
    S.Occ t ∧ WrapsAt L S.Occ t ↔ S.lat.getSiteGid t = .ok S.wrappingId ∧ t < L * L := by
  have hocc := h.occ_bound
  obtain ⟨g, _, hg, _, _, _, _, s, h1, h2, h3⟩ := C20_wrapping_cluster h ha
  constructor
  · rintro ⟨ht, hw⟩
    exact ⟨((C07_same_gid_iff_connected h ht h1).2 (NoLoop.unique hno hocc hw h3)).trans h2, hocc t ht⟩
  · rintro ⟨e, ht⟩
    have e' := siteAt_rc ht
    have hL : 0 < L := pos_of_lt_sq ht
    have hi := C73_wrapping_cluster h ha (p := (((t / L : Nat) : Int), ((t % L : Nat) : Int))) (by rw [e']; exact e)
    rw [← wrapsAt_iff_infinite hL hocc, e'] at hi
    obtain ⟨_, _, hw⟩ := id hi
    exact ⟨hw.occ_left, hi⟩

/-- C102: after any history, an occupied site whose cluster does not wrap is surrounded by a path of empty sites, which joins a site to the
right of it to a site to the left of it in the plane. -/
theorem C102_surrounded (h : Reach env v L S) {p : Int × Int} (hp : S.Occ (siteAt L p)) (hw : ¬ WrapsAt L S.Occ (siteAt L p)) :
    ∃ j j' : Nat, EmptyConn L S.Occ (p + (0, (j : Int) + 1)) (p + (0, -(j' : Int) - 1)) := by
  obtain ⟨hL, _⟩ := h.sim
  obtain ⟨j, j', h1, _⟩ := enclosed hL h.occ_bound hp hw
  exact ⟨j, j', h1⟩

/-- For every order of the sites. -/
theorem wrapping_ge (hL : 3 ≤ L) {q : List Nat} (hq : q.Nodup) (hlt : ∀ s ∈ q, s < L * L) :
    1 - lost L q.toFinset ≤ (seqWrapping L q : ℝ) / (2 * (L * L) : Nat) := by
  have hN : (0 : ℝ) < (L * L : Nat) := by exact_mod_cast Nat.mul_pos (by omega : 0 < L) (by omega)
  have hB : ((2 * (L * L) : Nat) : ℝ) = 2 * (L * L : Nat) := by push_cast; ring
  by_cases hloop : ∃ v, v ≠ 0 ∧ EmptyLoop L (· ∈ q.toFinset) v
  · have : 1 ≤ lost L q.toFinset := by
      rw [lost, ind, if_pos hloop]
      have : 0 ≤ ∑ s ∈ Finset.range (L * L), ∑ j ∈ Finset.range (L * L), ind (Ringed L q.toFinset s j) :=
        Finset.sum_nonneg fun _ _ => Finset.sum_nonneg fun _ _ => ind_nonneg _
      have h2 : (0 : ℝ) ≤ ((L * L - q.toFinset.card : Nat) + ∑ s ∈ Finset.range (L * L), ∑ j ∈ Finset.range (L * L), ind (Ringed L q.toFinset s j)) /
          (L * L : Nat) := by positivity
      linarith
    have h2 : (0 : ℝ) ≤ (seqWrapping L q : ℝ) / (2 * (L * L) : Nat) := by positivity
    linarith
  · have hT : q.toFinset ⊆ Finset.range (L * L) := fun s hs => Finset.mem_range.2 (hlt s (List.mem_toFinset.1 hs))
    have hno : NoLoop L (· ∈ q.toFinset) := fun w hw h => hloop ⟨w, hw, h⟩
    have hwr : Wraps L (· ∈ q.toFinset) := by
      by_contra hc
      exact hloop (loop_of_not_wraps (by omega) hT hc)
    obtain ⟨S, T, h⟩ := trace_of_order (L := L) demoSet (by omega) hq hlt
    have eocc : S.Occ = (· ∈ q.toFinset) := by
      funext s
      rw [eq_iff_iff, List.mem_toFinset]
      exact T.reports.occ s
    have ha : S.afterWrapping = true := T.aw_iff.2 ⟨hL, by simpa only [List.mem_toFinset] using hwr⟩
    obtain ⟨s, hs, hw, e⟩ := h.wrapping_component ha
    have hge := bondComp_ge h.occ_bound hs
    obtain ⟨_, A, M, hA, I⟩ := T.sim
    have ha' := ha
    rw [M.aw] at ha'
    rw [M.wid, M.bondCount (hA.wid_gids ha').1] at e
    have ew := I.wrapping hA
    rw [if_pos ha', Except.ok.inj e] at ew
    rw [ew] at hge
    rw [eocc] at hw hge
    have ho := outside_le (by omega) hT hno hw
    have hge' : 2 * ((L * L : Nat) : ℝ) ≤ seqWrapping L q + 2 * (outside L (· ∈ q.toFinset) s).card := by exact_mod_cast hge
    rw [lost, ind, if_neg hloop, add_zero, hB, one_sub_div hN.ne', div_le_div_iff₀ hN (by linarith)]
    nlinarith

/-- C102: the table of L0 at high density.  Let `x = (k + 1) / L²` be the density in row `k` and `ρ = (2 + √5) (1 - x)`.  If `L ≥ 3` and
`ρ < 1`, then with `δ = 1 - x + (3/5) ρ³ / (1 - ρ) + L² ρ^L` the expected `P_wrapping` is at least `1 - δ`, so is the expected `P_largest`, and
the expected `H` is at most `δ (1 + log 2L²)`. -/
theorem C102_table (hL : 3 ≤ L) {E : Nat} (hE : 0 < E) (pl : Bool) (ctor : Nat → Nat) (steps : Nat → Draw) {fuel : Nat} (hf : 5 * (L * L) < fuel) :
    ∃ (table : (Fin E → DrawVec (L * L)) → List (List ℝ)) (crit : (Fin E → DrawVec (L * L)) → List (CritRow ℝ)),
      (∀ y, runEnsemble (realEnv so) .l0 pl L ctor (ensembleDraws steps fuel y) = .ok (table y, crit y)) ∧
      (∀ y, runEnsembleThreads (realEnv so) .l0 L ctor (ensembleDraws steps fuel y) = .ok (table y)) ∧
      ∀ k < L * L, ∀ x ρ δ : ℝ, x = ((k + 1 : Nat) : ℝ) / (L * L : Nat) → ρ = (2 + √5) * (1 - x) → ρ < 1 →
        δ = 1 - x + 3 / 5 * ρ ^ 3 / (1 - ρ) + (L : ℝ) ^ 2 * ρ ^ L →
        1 - δ ≤ meanOf (fun y => entry (table y) k 3) ∧
        meanOf (fun y => entry (table y) k 3) ≤ meanOf (fun y => entry (table y) k 2) ∧
        meanOf (fun y => entry (table y) k 1) ≤ δ * (1 + Real.log (2 * (L * L) : Nat)) := by
  have hL0 : 0 < L := by omega
  have hlen : ∀ x : Fin E → DrawVec (L * L), (ensembleDraws steps fuel x).length = E := fun x => List.length_ofFn
  have hall : ∀ x : Fin E → DrawVec (L * L), _ := fun x => ensemble_orders (so := so) hL0 pl ctor (rs := ensembleDraws steps fuel x)
    (by intro h; have := hlen x; rw [h] at this; simp at this; omega)
    (by
      intro r hr
      obtain ⟨i, rfl⟩ := (List.mem_ofFn' _ _).1 hr
      exact hf)
  choose Ss table h1 h2 h3 h4 using hall
  refine ⟨table, fun x => (Ss x).map (critRow (realEnv so)), h2, h3, fun k hk x ρ δ hx hρ hρ1 hδ => ?_⟩
  have hp := pyShuffle_perm ctor (List.range (L * L))
  -- the columns as means over orders
  have col : ∀ c < 4, ∀ (h : List Nat → ℝ), (∀ q, (dataRow so L q).getD c 0 = h q) → ∀ y, entry (table y) k c =
      (∑ i ∈ Finset.range E, h (((shuffleOrders (pyShuffle ctor (List.range (L * L))) (List.ofFn fun j => (y j).draws)).getD i []).take (k + 1))) / E := by
    intro c hc h hh y
    rw [h4 y k hk c hc, ensembleDraws_shuffles, hlen]
    simp only [hh]
  have c1 := col 1 (by decide) (fun q => shannon L (· ∈ q)) fun q => rfl
  have c2 := col 2 (by decide) (fun q => (seqLargest L q : ℝ) / (2 * (L * L) : Nat)) fun q => rfl
  have c3 := col 3 (by decide) (fun q => (seqWrapping L q : ℝ) / (2 * (L * L) : Nat)) fun q => ordW_real q
  have good : ∀ (y : Fin E → DrawVec (L * L)), ∀ i ∈ Finset.range E,
      (((shuffleOrders (pyShuffle ctor (List.range (L * L))) (List.ofFn fun j => (y j).draws)).getD i []).take (k + 1)).Nodup ∧
      ∀ s ∈ ((shuffleOrders (pyShuffle ctor (List.range (L * L))) (List.ofFn fun j => (y j).draws)).getD i []).take (k + 1), s < L * L := by
    intro y i hi
    rw [Finset.mem_range] at hi
    have hi' : i < (shuffleOrders (pyShuffle ctor (List.range (L * L))) (List.ofFn fun j => (y j).draws)).length := by
      rw [shuffleOrders_length, List.length_ofFn]; exact hi
    have hq := (shuffleOrders_perm (List.getElem_mem hi')).trans hp
    rw [getD_of_lt hi']
    exact ⟨(hq.nodup_iff.2 List.nodup_range).sublist (List.take_sublist _ _), fun s hs =>
      List.mem_range.1 (hq.mem_iff.1 (List.mem_of_mem_take hs))⟩
  have hE' : (0 : ℝ) < E := by exact_mod_cast hE
  have hlost : meanOf (fun y : Fin E → DrawVec (L * L) => (∑ i ∈ Finset.range E, (fun q : List Nat => 1 + (-1) * lost L q.toFinset)
      (((shuffleOrders (pyShuffle ctor (List.range (L * L))) (List.ofFn fun j => (y j).draws)).getD i []).take (k + 1))) / E) =
      micro (L * L) (k + 1) (fun T => 1 + (-1) * lost L T) :=
    meanOf_ensemble hE hp (n := k + 1) hk _ (fun q => rfl) fun y => rfl
  have hsm := lost_small (L := L) hL0 (n := k + 1) hk (by rw [← hx, ← hρ]; exact hρ1)
  rw [← hx, ← hρ, ← hδ] at hsm
  rw [micro_linear hk] at hlost
  have b1 : 1 - δ ≤ meanOf (fun y => entry (table y) k 3) := by
    refine le_trans (by linarith : 1 - δ ≤ 1 + (-1) * micro (L * L) (k + 1) (lost L)) ?_
    rw [← hlost]
    refine meanOf_le fun y => ?_
    rw [c3 y]
    refine div_le_div_of_nonneg_right (Finset.sum_le_sum fun i hi => ?_) hE'.le
    obtain ⟨g1, g2⟩ := good y i hi
    have := wrapping_ge hL g1 g2
    dsimp only
    linarith
  have b2 : meanOf (fun y => entry (table y) k 3) ≤ meanOf (fun y => entry (table y) k 2) := by
    refine meanOf_le fun y => ?_
    rw [c3 y, c2 y]
    refine div_le_div_of_nonneg_right (Finset.sum_le_sum fun i hi => ?_) hE'.le
    obtain ⟨g1, g2⟩ := good y i hi
    exact div_le_div_of_nonneg_right (Nat.cast_le.2 (order_bounds hL0 g1 g2).2.2.1) (Nat.cast_nonneg _)
  have hlog : 0 ≤ Real.log (2 * (L * L) : Nat) := Real.log_natCast_nonneg _
  refine ⟨b1, b2, ?_⟩
  have b3 : meanOf (fun y => entry (table y) k 1) ≤
      meanOf (fun y => (1 + Real.log (2 * (L * L) : Nat)) * (1 - entry (table y) k 2)) := by
    refine meanOf_le fun y => ?_
    rw [c1 y, c2 y, div_le_iff₀ hE']
    have : (1 + Real.log (2 * (L * L) : Nat)) * (1 - (∑ i ∈ Finset.range E, (seqLargest L
        (((shuffleOrders (pyShuffle ctor (List.range (L * L))) (List.ofFn fun j => (y j).draws)).getD i []).take (k + 1)) : ℝ) / (2 * (L * L) : Nat)) / E) * E =
        ∑ i ∈ Finset.range E, (1 + Real.log (2 * (L * L) : Nat)) * (1 - (seqLargest L
        (((shuffleOrders (pyShuffle ctor (List.range (L * L))) (List.ofFn fun j => (y j).draws)).getD i []).take (k + 1)) : ℝ) / (2 * (L * L) : Nat)) := by
      rw [← Finset.mul_sum, Finset.sum_sub_distrib, Finset.sum_const, Finset.card_range, nsmul_eq_mul, mul_one, mul_assoc, sub_mul, one_mul,
        div_mul_cancel₀ _ hE'.ne']
    rw [this]
    refine Finset.sum_le_sum fun i hi => ?_
    obtain ⟨g1, g2⟩ := good y i hi
    obtain ⟨S, T, h⟩ := trace_of_order demoSet hL0 g1 g2
    have := (C101_entropy_largest h).2
    rw [T.entropy, T.reports.ordLargest] at this
    exact this.trans (le_of_eq (mul_comm _ _))
  refine b3.trans ?_
  rw [meanOf_mul_left, meanOf_sub, meanOf_const, mul_comm]
  exact mul_le_mul_of_nonneg_right (by linarith) (by linarith)

/-- C102: for every `q < √5 - 2 ≈ 0.236`, on all sufficiently large lattices the expected `P_wrapping` (and so the expected `P_largest`) in all
rows of density `1 - q` or more is at least `1 - q - (3/5) r³ / (1 - r) - ε`, where `r = (2 + √5) q`, for any `ε > 0`. -/
theorem C102_limit {q r ε : ℝ} (hr : r = (2 + √5) * q) (hq : q < √5 - 2) (hε : 0 < ε) : ∃ L0 : Nat, ∀ L : Nat, L0 ≤ L → ∀ {E : Nat}, 0 < E →
    ∀ (pl : Bool) (ctor : Nat → Nat) (steps : Nat → Draw) {fuel : Nat}, 5 * (L * L) < fuel →
    ∃ (table : (Fin E → DrawVec (L * L)) → List (List ℝ)) (crit : (Fin E → DrawVec (L * L)) → List (CritRow ℝ)),
      (∀ y, runEnsemble (realEnv so) .l0 pl L ctor (ensembleDraws steps fuel y) = .ok (table y, crit y)) ∧
      (∀ y, runEnsembleThreads (realEnv so) .l0 L ctor (ensembleDraws steps fuel y) = .ok (table y)) ∧
      ∀ k < L * L, 1 - q ≤ ((k + 1 : Nat) : ℝ) / (L * L : Nat) →
        1 - q - 3 / 5 * r ^ 3 / (1 - r) - ε ≤ meanOf (fun y => entry (table y) k 3) ∧
        1 - q - 3 / 5 * r ^ 3 / (1 - r) - ε ≤ meanOf (fun y => entry (table y) k 2) ∧
        meanOf (fun y => entry (table y) k 1) ≤ (q + 3 / 5 * r ^ 3 / (1 - r) + ε) * (1 + Real.log (2 * (L * L) : Nat)) := by
  have h5 : √5 * √5 = 5 := Real.mul_self_sqrt (by norm_num)
  have hpos : 2 ≤ √5 := Real.le_sqrt_of_sq_le (by norm_num)
  have hr1 : r < 1 := by rw [hr]; nlinarith
  have ht := tendsto_pow_const_mul_const_pow_of_lt_one 2 (r := max r 0) (le_max_right _ _) (max_lt hr1 one_pos)
  obtain ⟨m0, hm0⟩ := Filter.eventually_atTop.1 (ht.eventually (gt_mem_nhds hε))
  refine ⟨max m0 3, fun L hL E hE pl ctor steps fuel hf => ?_⟩
  obtain ⟨table, crit, h1, h2, h3⟩ := C102_table (so := so) (L := L) (by omega) hE pl ctor steps hf
  refine ⟨table, crit, h1, h2, fun k hk hx => ?_⟩
  have hN : (0 : ℝ) < (L * L : Nat) := by exact_mod_cast Nat.mul_pos (by omega : 0 < L) (by omega)
  have hx1 : ((k + 1 : Nat) : ℝ) / (L * L : Nat) ≤ 1 := by
    rw [div_le_one hN]
    exact_mod_cast hk
  generalize hxe : ((k + 1 : Nat) : ℝ) / (L * L : Nat) = x at hx hx1
  have hρ : (2 + √5) * (1 - x) ≤ r := by rw [hr]; exact mul_le_mul_of_nonneg_left (by linarith) (by positivity)
  have hρ0 : 0 ≤ (2 + √5) * (1 - x) := mul_nonneg (by positivity) (by linarith)
  obtain ⟨a1, a2, a3⟩ := h3 k hk x _ _ hxe.symm rfl (by linarith) rfl
  have hmax : max r 0 = r := max_eq_left (hρ0.trans hρ)
  have hm := hm0 L (by omega)
  rw [hmax] at hm
  have hδ : 1 - x + 3 / 5 * ((2 + √5) * (1 - x)) ^ 3 / (1 - (2 + √5) * (1 - x)) + (L : ℝ) ^ 2 * ((2 + √5) * (1 - x)) ^ L ≤
      q + 3 / 5 * r ^ 3 / (1 - r) + ε := by
    generalize (2 + √5) * (1 - x) = ρ at hρ hρ0
    have t1 : 3 / 5 * ρ ^ 3 / (1 - ρ) ≤ 3 / 5 * r ^ 3 / (1 - r) := by
      refine div_le_div₀ (by have := hρ0.trans hρ; positivity) ?_ (by linarith) (by linarith)
      exact mul_le_mul_of_nonneg_left (pow_le_pow_left₀ hρ0 hρ 3) (by norm_num)
    have t2 : (L : ℝ) ^ 2 * ρ ^ L ≤ (L : ℝ) ^ 2 * r ^ L := mul_le_mul_of_nonneg_left (pow_le_pow_left₀ hρ0 hρ L) (by positivity)
    linarith
  have hlog : 0 ≤ Real.log (2 * (L * L) : Nat) := Real.log_natCast_nonneg _
  exact ⟨by linarith, by linarith, a3.trans (mul_le_mul_of_nonneg_right hδ (by linarith))⟩

/-- C102: on all sufficiently large lattices the expected values of both order parameters are at least `4 / 5` in all rows of density `9 / 10`
or more, and the expected entropy is at most a fifth of `1 + log 2L²`. -/
theorem C102_dense : ∃ L0 : Nat, ∀ L : Nat, L0 ≤ L → ∀ {E : Nat}, 0 < E →
    ∀ (pl : Bool) (ctor : Nat → Nat) (steps : Nat → Draw) {fuel : Nat}, 5 * (L * L) < fuel →
    ∃ (table : (Fin E → DrawVec (L * L)) → List (List ℝ)) (crit : (Fin E → DrawVec (L * L)) → List (CritRow ℝ)),
      (∀ y, runEnsemble (realEnv so) .l0 pl L ctor (ensembleDraws steps fuel y) = .ok (table y, crit y)) ∧
      (∀ y, runEnsembleThreads (realEnv so) .l0 L ctor (ensembleDraws steps fuel y) = .ok (table y)) ∧
      ∀ k < L * L, 9 / 10 ≤ ((k + 1 : Nat) : ℝ) / (L * L : Nat) →
        4 / 5 ≤ meanOf (fun y => entry (table y) k 3) ∧ 4 / 5 ≤ meanOf (fun y => entry (table y) k 2) ∧
        meanOf (fun y => entry (table y) k 1) ≤ 1 / 5 * (1 + Real.log (2 * (L * L) : Nat)) := by
  have hpos : 2236 / 1000 ≤ √5 := Real.le_sqrt_of_sq_le (by norm_num)
  have hup : √5 ≤ 2237 / 1000 := by
    rw [Real.sqrt_le_left (by norm_num)]
    norm_num
  have hr0 : 0 ≤ (2 + √5) * (1 / 10) := by positivity
  have hr : (2 + √5) * (1 / 10) ≤ 4237 / 10000 := by linarith
  have key : 3 / 5 * ((2 + √5) * (1 / 10)) ^ 3 / (1 - (2 + √5) * (1 / 10)) ≤ 8 / 100 := by
    rw [div_le_iff₀ (by linarith)]
    have := pow_le_pow_left₀ hr0 hr 3
    linarith
  obtain ⟨L0, h⟩ := C102_limit (so := so) (q := 1 / 10) (ε := 1 / 100) rfl (by linarith) (by norm_num)
  refine ⟨L0, fun L hL E hE pl ctor steps fuel hf => ?_⟩
  obtain ⟨table, crit, h1, h2, h3⟩ := h L hL hE pl ctor steps hf
  refine ⟨table, crit, h1, h2, fun k hk hx => ?_⟩
  obtain ⟨a1, a2, a3⟩ := h3 k hk (by linarith)
  have hlog : 0 ≤ Real.log (2 * (L * L) : Nat) := Real.log_natCast_nonneg _
  exact ⟨by linarith, by linarith, a3.trans (mul_le_mul_of_nonneg_right (by linarith) (by linarith))⟩

/-- A state to which `C102_unique` and `C102_surrounded` apply: on a `5 × 5` lattice, all sites except the four neighbours of site 12 are
occupied.  Nothing goes around the lattice through the empty sites, and site 12 does not wrap. -/
example : ∃ S : Perc ℝ, Reach (realEnv so) .l0 5 S ∧ S.afterWrapping = true ∧ (∀ w, w ≠ 0 → ¬ EmptyLoop 5 S.Occ w) ∧ S.Occ 12 ∧
    ¬ WrapsAt 5 S.Occ 12 := by
  obtain ⟨S, T, h⟩ := trace_of_order so (L := 5) (q := [0, 1, 2, 3, 4, 5, 6, 8, 9, 10, 12, 14, 15, 16, 18, 19, 20, 21, 22, 23, 24]) (by omega) (by decide)
    (by decide)
  have hocc : ∀ s, S.Occ s ↔ s < 25 ∧ s ≠ 7 ∧ s ≠ 11 ∧ s ≠ 13 ∧ s ≠ 17 := by
    intro s
    rw [T.reports.occ]
    simp only [List.mem_cons, List.not_mem_nil, or_false]
    omega
  have ha : S.afterWrapping = true := C54_must_wrap (by omega) T (by rw [T.reports.count]; decide)
  have hemp : ∀ p : Int × Int, ¬ S.Occ (siteAt 5 p) → siteAt 5 p = 7 ∨ siteAt 5 p = 11 ∨ siteAt 5 p = 13 ∨ siteAt 5 p = 17 := by
    intro p hp
    have := siteAt_lt (L := 5) (by omega) p
    rw [hocc] at hp
    omega
  refine ⟨S, h, ha, ?_, (hocc 12).2 (by decide), ?_⟩
  · rintro w hw ⟨p, e, hc⟩
    -- a path through empty sites does not leave the copy of the lattice in which it starts
    have cell : ∀ q, EmptyConn 5 S.Occ p q → q.1 / 5 = p.1 / 5 ∧ q.2 / 5 = p.2 / 5 := by
      intro q hq
      induction hq with
      | refl => exact ⟨rfl, rfl⟩
      | tail _ h ih =>
        have e1 := hemp _ h.1
        have e2 := hemp _ h.2.1
        have h3 := h.2.2
        unfold siteAt at e1 e2
        unfold Near at h3
        omega
    have h1 := cell _ hc
    unfold siteAt at e
    simp only [Prod.fst_add, Prod.snd_add] at h1 e
    refine hw (Prod.ext ?_ ?_)
    · show w.1 = 0
      omega
    · show w.2 = 0
      omega
  · rintro ⟨w, hw, hwalk⟩
    have stay : ∀ t u, Walk 5 S.Occ 12 t u → t = 12 ∧ u = 0 := by
      intro t u h
      induction h with
      | nil _ => exact ⟨rfl, rfl⟩
      | snoc d _ ho ih =>
        obtain ⟨rfl, _⟩ := ih
        rw [hocc] at ho
        exfalso
        revert ho
        cases d <;> decide
    exact hw (stay _ _ hwalk).2

end SqPerc
