import Verif.Proof.NearFull
import Verif.Props.Averages
/-
C101: lattices with few empty sites; the entropy and the largest cluster.
-/
namespace SqPerc

variable {α : Type} {L : Nat} {env : Env α} {v : Variant} {S : Perc α} {so : SetOrder}

theorem bondComp_conn (hocc : ∀ s, S.Occ s → s < L * L) {s t : Nat} (hs : S.Occ s) (ht : S.Occ t) (h : SiteConn L S.Occ s t) :
    bondComp L S.Occ (bondAt L s .right) = bondComp L S.Occ (bondAt L t .right) := by
  have hb := (siteConn_iff hocc hs ht .right .right).1 h
  ext x
  simp only [bondComp, Finset.mem_filter, Finset.mem_range]
  exact ⟨fun h => ⟨h.1, hb.symm.trans h.2⟩, fun h => ⟨h.1, hb.trans h.2⟩⟩

/-- The wrapping cluster as a component of the configuration. -/
theorem Reach.wrapping_component (h : Reach env v L S) (ha : S.afterWrapping = true) : ∃ s, S.Occ s ∧ WrapsAt L S.Occ s ∧
    S.pool.bondCount S.wrappingId = .ok (bondComp L S.Occ (bondAt L s .right)).card := by
  obtain ⟨_, A, M, hA⟩ := h.sim
  have haw : A.aw = true := M.aw ▸ ha
  obtain ⟨s, h1, h2, h3⟩ := hA.wrap.on haw
  rw [M.occ_eq]
  refine ⟨s, h1, h3, ?_⟩
  rw [hA.inv.core.bondComp_card h1, M.wid, M.bondCount (hA.wid_gids haw).1, h2]
  rfl

theorem Reach.occ_bound (h : Reach env v L S) : ∀ s, S.Occ s → s < L * L := by
  obtain ⟨_, A, M, hA⟩ := h.sim
  rw [M.occ_eq]
  exact vocc_lt

theorem Reach.occ_count (h : Reach env v L S) : S.occupiedCount = occCount L S.Occ := by
  obtain ⟨_, A, M, hA⟩ := h.sim
  rw [M.occ_eq, M.count, hA.count]

/-- C101: with `m < L` empty sites the largest cluster has at least `2 L² - 2 m²` of the `2 L²` bonds, and so does the wrapping cluster once
wrapping was detected. -/
theorem C101_few_empty {m : Nat} (h : Reach env v L S) (hm : S.occupiedCount + m = L * L) (hmL : m < L) :
    2 * (L * L) ≤ S.largestCluster + 2 * (m * m) ∧
    (S.afterWrapping = true → ∃ n, S.pool.bondCount S.wrappingId = .ok n ∧ 2 * (L * L) ≤ n + 2 * (m * m)) := by
  have hocc := h.occ_bound
  have he := empties_card L S.Occ
  rw [← h.occ_count] at he
  obtain ⟨r0, hr0, c0, hc0, R, C, hout⟩ := full_lines hocc (by omega : (empties L S.Occ).card = m) hmL
  have h0 := R c0 hc0
  have hge := bondComp_ge hocc h0
  have hcard : 2 * (L * L) ≤ (bondComp L S.Occ (bondAt L (r0 * L + c0) .right)).card + 2 * (m * m) := by omega
  constructor
  · have := (C12_largest_component h ⟨_, h0⟩).2 (bondComp L S.Occ (bondAt L (r0 * L + c0) .right))
      (Finset.mem_image.2 ⟨_, Finset.mem_range.2 (bondAt_lt (hocc _ h0) .right), rfl⟩)
    omega
  · intro ha
    obtain ⟨s, hs, hw, e⟩ := h.wrapping_component ha
    refine ⟨_, e, ?_⟩
    have hconn : SiteConn L S.Occ s (r0 * L + c0) := by
      rcases hw.spans hocc with hsp | hsp
      · obtain ⟨c, hc, h1, h2⟩ := hsp r0 hr0
        have z := R 0 (by omega)
        rw [Nat.add_zero] at z
        exact (h1.trans ((row_conn R hc).back hocc z h2)).trans (row_conn R hc0)
      · obtain ⟨r, hr, h1, h2⟩ := hsp c0 hc0
        have z := C 0 (by omega)
        rw [Nat.zero_mul, Nat.zero_add] at z
        exact (h1.trans ((col_conn hc0 C hr).back hocc z h2)).trans (col_conn hc0 C hr0)
    rw [bondComp_conn hocc hs h0 hconn]
    exact hcard

/-- C101: in exact arithmetic the entropy is tied to the largest cluster, after any history: with `P = order_param_largest_clstr()`,
`-log P ≤ entropy() ≤ (1 - P) (1 + log 2L²)`. -/
theorem C101_entropy_largest {S : Perc ℝ} (h : Reach (realEnv so) v L S) :
    -Real.log (S.orderLargest (realEnv so)) ≤ S.entropy ∧
    S.entropy ≤ (1 - S.orderLargest (realEnv so)) * (1 + Real.log (2 * (L * L) : Nat)) := by
  classical
  obtain ⟨hL, A, M, hA⟩ := h.sim
  have hbc : S.lat.bondCount = 2 * (L * L) := by rw [M.lat, mkLat_bondCount]
  have e : S.orderLargest (realEnv so) = (S.largestCluster : ℝ) / (2 * (L * L) : Nat) := by
    rw [Perc.orderLargest, hbc]; rfl
  obtain ⟨b1, b2⟩ := C15_bounds h
  by_cases hp : ∃ s, S.Occ s
  · obtain ⟨⟨X, hX, hXc⟩, hmax⟩ := C12_largest_component h hp
    rw [C15_entropy_shannon h, e, ← hXc]
    obtain ⟨b, hb, rfl⟩ := Finset.mem_image.1 hX
    rw [Finset.mem_range] at hb
    refine ⟨?_, shannon_le hL hb⟩
    have := shannon_ge hL (occ := S.Occ) (M := (bondComp L S.Occ b).card) (Finset.card_pos.2 ⟨b, bondComp_self hb⟩) fun b' hb' => by
      rw [hXc]
      exact hmax _ (Finset.mem_image.2 ⟨b', Finset.mem_range.2 hb', rfl⟩)
    rwa [← Real.log_inv, inv_div]
  · push Not at hp
    rw [e, (C12_empty h hp).1, Nat.cast_zero, zero_div, Real.log_zero, neg_zero, sub_zero, one_mul]
    exact ⟨b1, by linarith⟩

/-- C101: so with `m < L` empty sites `order_param_largest_clstr()` is at least `1 - m² / L²` and the entropy is at most
`(m² / L²) (1 + log 2L²)`; `order_param_wrapping()` is at least `1 - m² / L²` if wrapping was detected, and with detection after every
placement and `L ≥ 3` it was. -/
theorem C101_near_full {S : Perc ℝ} {m : Nat} (h : Reach (realEnv so) v L S) (hm : S.occupiedCount + m = L * L) (hmL : m < L) :
    1 - (m : ℝ) ^ 2 / (L : ℝ) ^ 2 ≤ S.orderLargest (realEnv so) ∧
    S.entropy ≤ (m : ℝ) ^ 2 / (L : ℝ) ^ 2 * (1 + Real.log (2 * (L * L) : Nat)) ∧
    (S.afterWrapping = true → ∃ w, S.orderWrapping (realEnv so) = .ok w ∧ 1 - (m : ℝ) ^ 2 / (L : ℝ) ^ 2 ≤ w) ∧
    (∀ seq, 3 ≤ L → Trace (realEnv so) v L S seq → S.afterWrapping = true) := by
  obtain ⟨hL, A, M, hA⟩ := h.sim
  obtain ⟨h1, h2⟩ := C101_few_empty h hm hmL
  have hbc : S.lat.bondCount = 2 * (L * L) := by rw [M.lat, mkLat_bondCount]
  have hLr : (0 : ℝ) < L := by exact_mod_cast hL
  have key : ∀ n : Nat, 2 * (L * L) ≤ n + 2 * (m * m) → 1 - (m : ℝ) ^ 2 / (L : ℝ) ^ 2 ≤ (n : ℝ) / (2 * (L * L) : Nat) := by
    intro n hn
    have hn' : 2 * ((L : ℝ) * L) ≤ n + 2 * (m * m) := by exact_mod_cast hn
    rw [Nat.cast_mul, Nat.cast_mul, one_sub_div (by positivity), div_le_div_iff₀ (by positivity) (by positivity)]
    push_cast
    nlinarith [sq_nonneg (L : ℝ)]
  have e : S.orderLargest (realEnv so) = (S.largestCluster : ℝ) / (2 * (L * L) : Nat) := by
    rw [Perc.orderLargest, hbc]; rfl
  have hP := key _ h1
  rw [← e] at hP
  refine ⟨hP, ?_, ?_, ?_⟩
  · refine (C101_entropy_largest h).2.trans (mul_le_mul_of_nonneg_right (by linarith) ?_)
    have : 0 ≤ Real.log (2 * (L * L) : Nat) := Real.log_natCast_nonneg _
    linarith
  · intro ha
    obtain ⟨n, en, hn⟩ := h2 ha
    refine ⟨(n : ℝ) / (2 * (L * L) : Nat), ?_, key n hn⟩
    rw [Perc.orderWrapping, if_pos ha, en, hbc]; rfl
  · intro seq hL3 T
    exact C54_must_wrap hL3 T (by omega)

theorem sum_one_sub {β : Type} (l : List β) (f : β → ℝ) : (l.map fun q => 1 - f q).sum = l.length - (l.map f).sum := by
  induction l with
  | nil => simp
  | cons a l ih =>
    rw [List.map_cons, List.sum_cons, ih, List.map_cons, List.sum_cons, List.length_cons]
    push_cast
    ring

/-- C101: the same in the averaged table of L0, L1 and L2, whatever the random numbers: in row `k`, with `m = L² - (k + 1) < L` empty sites,
`P_largest` is at least `1 - m² / L²`, `H` at most `(m² / L²) (1 + log 2L²)`, and `P_wrapping` at least `1 - m² / L²` if `L ≥ 3`; and in all
rows `H ≤ (1 - P_largest) (1 + log 2L²)`. -/
theorem C101_table (hv : v ≠ .sp) (hL : 0 < L) (pl : Bool) (ctor : Nat → Nat) {rs : List RunDraws} (hne : rs ≠ [])
    (hf : ∀ r ∈ rs, 5 * (L * L) < r.fuel) : ∃ (H P W : Nat → ℝ) (crit : List (CritRow ℝ)),
      runEnsemble (realEnv so) v pl L ctor rs =
        .ok ((List.range (L * L)).map (fun k => [((k + 1 : Nat) : ℝ) / (L * L : Nat), H k, P k, W k]), crit) ∧
      (∀ k < L * L, H k ≤ (1 - P k) * (1 + Real.log (2 * (L * L) : Nat))) ∧
      ∀ k m, k + 1 + m = L * L → m < L → 1 - (m : ℝ) ^ 2 / (L : ℝ) ^ 2 ≤ P k ∧
        H k ≤ (m : ℝ) ^ 2 / (L : ℝ) ^ 2 * (1 + Real.log (2 * (L * L) : Nat)) ∧ (3 ≤ L → 1 - (m : ℝ) ^ 2 / (L : ℝ) ^ 2 ≤ W k) := by
  obtain ⟨qs, crit, hlen, hperm, hrun, _⟩ := C42_mean (so := so) hv hL pl ctor hne hf
  have hqs : qs ≠ [] := by
    rintro rfl
    exact hne (List.length_eq_zero_iff.1 hlen.symm)
  have hnd : ∀ q ∈ qs, q.Nodup := fun q hq => (hperm q hq).nodup_iff.2 List.nodup_range
  have hlt : ∀ q ∈ qs, ∀ s ∈ q, s < L * L := fun q hq s hs => List.mem_range.1 ((hperm q hq).mem_iff.1 hs)
  have hl : ∀ q ∈ qs, q.length = L * L := fun q hq => by rw [(hperm q hq).length_eq, List.length_range]
  have const0 : ∀ c : ℝ, meanOver qs (fun _ => c) = c := fun c => meanOver_const hqs fun _ _ => rfl
  -- the states
  have st : ∀ q ∈ qs, ∀ k, ∃ S : Perc ℝ, Trace (realEnv demoSet) .l0 L S (q.take (k + 1)) ∧ Reach (realEnv demoSet) .l0 L S := fun q hq k =>
    trace_of_order demoSet hL ((hnd q hq).sublist (List.take_sublist _ _)) fun s hs => hlt q hq s (List.mem_of_mem_take hs)
  have hlog : 0 ≤ Real.log (2 * (L * L) : Nat) := Real.log_natCast_nonneg _
  have all : ∀ q ∈ qs, ∀ k < L * L, shannon L (· ∈ q.take (k + 1)) ≤
      (1 - (seqLargest L (q.take (k + 1)) : ℝ) / (2 * (L * L) : Nat)) * (1 + Real.log (2 * (L * L) : Nat)) := by
    intro q hq k hk
    obtain ⟨S, T, h⟩ := st q hq k
    have := (C101_entropy_largest h).2
    rwa [T.entropy, T.reports.ordLargest] at this
  have near : ∀ q ∈ qs, ∀ k m, k + 1 + m = L * L → m < L →
      1 - (m : ℝ) ^ 2 / (L : ℝ) ^ 2 ≤ (seqLargest L (q.take (k + 1)) : ℝ) / (2 * (L * L) : Nat) ∧
      (3 ≤ L → 1 - (m : ℝ) ^ 2 / (L : ℝ) ^ 2 ≤ (seqWrapping L (q.take (k + 1)) : ℝ) / (2 * (L * L) : Nat)) := by
    intro q hq k m hk hm
    obtain ⟨S, T, h⟩ := st q hq k
    have hc : S.occupiedCount + m = L * L := by
      rw [T.reports.count, List.length_take, hl q hq]; omega
    obtain ⟨a1, _, a3, a4⟩ := C101_near_full h hc hm
    rw [T.reports.ordLargest] at a1
    refine ⟨a1, fun hL3 => ?_⟩
    have ha := a4 _ hL3 T
    obtain ⟨w, e, hw⟩ := a3 ha
    rw [T.reports.ordWrapping, if_pos ha] at e
    rw [← Except.ok.inj e] at hw
    exact hw
  have hle : ∀ k < L * L, meanOver qs (fun q => shannon L (· ∈ q.take (k + 1))) ≤
      (1 - meanOver qs (fun q => (seqLargest L (q.take (k + 1)) : ℝ) / (2 * (L * L) : Nat))) * (1 + Real.log (2 * (L * L) : Nat)) := by
    intro k hk
    refine (meanOver_le (fun q hq => all q hq k hk)).trans (le_of_eq ?_)
    have hn : (0 : ℝ) < qs.length := by exact_mod_cast List.length_pos_iff.2 hqs
    unfold meanOver
    rw [List.sum_map_mul_right, sum_one_sub]
    field_simp
  refine ⟨_, _, _, crit, hrun, hle, fun k m hk hm => ?_⟩
  have hP : 1 - (m : ℝ) ^ 2 / (L : ℝ) ^ 2 ≤ meanOver qs (fun q => (seqLargest L (q.take (k + 1)) : ℝ) / (2 * (L * L) : Nat)) := by
    rw [← const0 (1 - (m : ℝ) ^ 2 / (L : ℝ) ^ 2)]
    exact meanOver_le fun q hq => (near q hq k m hk hm).1
  refine ⟨hP, (hle k (by omega)).trans (mul_le_mul_of_nonneg_right (by linarith) (by linarith)), fun hL3 => ?_⟩
  rw [← const0 (1 - (m : ℝ) ^ 2 / (L : ℝ) ^ 2)]
  exact meanOver_le fun q hq => (near q hq k m hk hm).2 hL3

/-- A state to which the bounds apply: all but one of the nine sites of a `3 × 3` lattice are occupied. -/
example : ∃ S : Perc ℝ, Reach (realEnv so) .l0 3 S ∧ S.occupiedCount + 1 = 3 * 3 ∧ 1 - 1 / 9 ≤ S.orderLargest (realEnv so) := by
  obtain ⟨S, T, h⟩ := trace_of_order so (L := 3) (q := List.range 8) (by omega) List.nodup_range (by intro s hs; rw [List.mem_range] at hs; omega)
  have hc : S.occupiedCount + 1 = 3 * 3 := by rw [T.reports.count, List.length_range]
  refine ⟨S, h, hc, ?_⟩
  have := (C101_near_full h hc (by omega)).1
  norm_num at this ⊢
  linarith

end SqPerc
