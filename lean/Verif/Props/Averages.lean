import Verif.Props.Ensemble
import Verif.Props.Bounds
import Verif.Props.Clusters
import Verif.Props.Dual
/-
Property C58: shape of the averaged table.
-/
namespace SqPerc

variable {L : Nat} {v : Variant} {so : SetOrder}

/-! ### The quantities of a placement order, placement by placement -/

theorem Trace.chain {α : Type} {env : Env α} {R : List Nat → List Nat → Prop}
    (hR : ∀ {S S1 S2 : Perc α} {seq : List Nat} {k : Nat} {d : Draw} {b w : Bool}, Trace env v L S seq → S.placeOneSite env v d = .ok (S1, b) →
      S1.selectionFlag = some .success → S1.selected = some k → S1.detectWrapping = .ok (S2, w) → R seq (seq ++ [k]))
    {S : Perc α} {q : List Nat} (T : Trace env v L S q) : ∀ i < q.length, R (q.take i) (q.take (i + 1)) := by
  induction T with
  | new _ => intro i hi; cases hi
  | start _ _ => intro i hi; cases hi
  | reset _ _ _ => intro i hi; cases hi
  | @placed S S1 S2 seq d b w k T h1 h2 h3 h4 ih =>
    intro i hi
    rcases Nat.lt_or_ge i seq.length with h | h
    · rw [List.take_append_of_le_length (by omega), List.take_append_of_le_length (by omega)]
      exact ih i h
    · have : i = seq.length := by
        rw [List.length_append, List.length_singleton] at hi
        omega
      subst this
      rw [List.take_append_of_le_length le_rfl, List.take_length, List.take_of_length_le (by simp)]
      exact hR T h1 h2 h3 h4
  | skipped _ _ _ ih => exact ih
  | detect _ _ ih => exact ih
  | shuffle _ _ ih => exact ih
  | setIds _ _ ih => exact ih
  | setIndices _ _ ih => exact ih
  | swapIds _ _ ih => exact ih
  | raised _ _ ih => exact ih
  | swapRaised _ _ ih => exact ih
  | data _ _ _ _ _ _ _ ih => exact ih
  | write _ _ ih => exact ih

/-- Every list of different sites is the placement order of some history. -/
theorem trace_of_order (so : SetOrder) (hL : 0 < L) {q : List Nat} (hq : q.Nodup) (hlt : ∀ s ∈ q, s < L * L) :
    ∃ S : Perc ℝ, Trace (realEnv so) .l0 L S q ∧ Reach (realEnv so) .l0 L S := by
  obtain ⟨S, e, F⟩ := fresh_exists (realEnv so) .l0 hL (fun _ => 0)
  by_cases hne : q = []
  · subst hne; exact ⟨S, .new e, .new e⟩
  · obtain ⟨S1, S', seq, e1, e2, T, hs⟩ := C30_run_once (v := .l0) (env := realEnv so) rfl (.new e) (ids := q.map Int.ofNat) (by simpa using hne)
      (by
        intro i hi
        obtain ⟨s, hs, rfl⟩ := List.mem_map.1 hi
        exact ⟨Int.natCast_nonneg s, show (s : Int) < (L : Int) * L by exact_mod_cast hlt s hs⟩)
      (hq.map (fun a b h => Int.ofNat.inj h)) (fun _ => 0) (Nat.lt_succ_self _) (fun _ => ⟨0, 0⟩)
    have : seq = q := List.map_injective_iff.2 (fun a b h => Int.ofNat.inj h) hs
    exact ⟨S', this ▸ T, .step (.runOnce _ _) (.step (.setIds _ _ _) (.new e) e1) e2⟩

/-- Occupying one more site: the entropy does not grow, the largest and the wrapping cluster do not shrink. -/
structure OneMore (L : Nat) (q q' : List Nat) : Prop where
  entropy : shannon L (· ∈ q') ≤ shannon L (· ∈ q)
  largest : seqLargest L q ≤ seqLargest L q'
  wrapping : seqWrapping L q ≤ seqWrapping L q'

theorem oneMore {q : List Nat} (hL : 0 < L) (hq : q.Nodup) (hlt : ∀ s ∈ q, s < L * L) (i : Nat) (hi : i < q.length) :
    OneMore L (q.take i) (q.take (i + 1)) := by
  obtain ⟨S, T, _⟩ := trace_of_order demoSet hL hq hlt
  refine T.chain ?_ i hi
  intro S S1 S2 seq k d b w T h1 h2 h3 h4
  have T2 := Trace.placed T h1 h2 h3 h4
  obtain ⟨_, A, M, hA, I⟩ := T.sim
  obtain ⟨A1, hst, M1⟩ := placeOneSite_steps M hA.inv h1
  obtain ⟨_, _, _, A2, hst2, M2, _⟩ := detectWrapping_steps M1 (hA.inv.steps hst) h4
  have hs : ASteps _ L A A2 := hst.trans hst2
  refine ⟨?_, ?_, ?_⟩
  · rw [← T.entropy, ← T2.entropy, Perc.entropy, Perc.entropy, M.ent, M2.ent]
    exact hs.ent_le hA.inv
  · rw [← T.reports.largest, ← T2.reports.largest, Perc.largestCluster, Perc.largestCluster, M.lsz, M2.lsz]
    exact hs.lsz_mono
  · obtain ⟨_, B, N, hB, J⟩ := T2.sim
    rw [← I.wrapping hA, ← J.wrapping hB]
    split
    · next ha =>
      obtain ⟨i1, i2, _, _, _, i6⟩ := hs.wid_mono ha
      obtain ⟨hg, _⟩ := hA.wid_gids ha
      rw [if_pos (by rw [← N.aw, M2.aw]; exact i1), ← N.wid, M2.wid, i2]
      have := (M2.bondCount hg).symm.trans (N.bondCount hg)
      rw [← Except.ok.inj this]; exact i6
    · exact Nat.zero_le _

theorem OneMore.trans {q q' q'' : List Nat} (h : OneMore L q q') (h' : OneMore L q' q'') : OneMore L q q'' :=
  ⟨h'.entropy.trans h.entropy, h.largest.trans h'.largest, h.wrapping.trans h'.wrapping⟩

/-- Bounds for one configuration. -/
theorem order_bounds {q : List Nat} (hL : 0 < L) (hq : q.Nodup) (hlt : ∀ s ∈ q, s < L * L) :
    0 ≤ shannon L (· ∈ q) ∧ shannon L (· ∈ q) ≤ Real.log (2 * (L * L) : Nat) ∧ seqWrapping L q ≤ seqLargest L q ∧
    seqLargest L q ≤ 2 * (L * L) ∧ (q.length < L → seqWrapping L q = 0) ∧
    (3 ≤ L → L * L < q.length + L + (L - 1) / 2 → 2 * L ≤ seqWrapping L q) := by
  obtain ⟨S, T, h⟩ := trace_of_order demoSet hL hq hlt
  obtain ⟨b1, b2⟩ := C15_bounds h
  rw [T.entropy] at b1 b2
  obtain ⟨c1, c2⟩ := C52_wrapping_le_largest h
  rw [T.reports.largest] at c1 c2
  obtain ⟨_, A, M, hA, I⟩ := T.sim
  refine ⟨b1, b2, ?_, c1, ?_, ?_⟩
  · rw [← I.wrapping hA]
    split
    · next ha =>
      obtain ⟨n, e, _, hn⟩ := c2 (M.aw.trans ha)
      rw [M.wid, M.bondCount (hA.wid_gids ha).1] at e
      rw [Except.ok.inj e]; exact hn
    · exact Nat.zero_le _
  · intro hlen
    rw [← I.wrapping hA, if_neg]
    intro ha
    obtain ⟨d1, d2, d3, _⟩ := C54_critical_counts h (M.aw.trans ha)
    rw [T.reports.count] at d3
    omega
  · intro hL3 hlen
    have ha := C96_must_wrap hL3 T (by rw [T.reports.count]; exact hlen)
    rw [M.aw] at ha
    rw [← I.wrapping hA, if_pos ha]
    obtain ⟨s, h1, h2, h3⟩ := hA.wrap.on ha
    have e1 := h3.card_le vocc_lt
    rw [hA.inv.core.siteComp_slen h1, h2] at e1
    have e2 := hA.inv.core.two_mul_slen_le (hA.wid_gids ha).1
    omega

/-- The full lattice. -/
theorem order_full {q : List Nat} (hL : 0 < L) (hq : q.Perm (List.range (L * L))) :
    shannon L (· ∈ q) = 0 ∧ seqLargest L q = 2 * (L * L) ∧ seqWrapping L q = if 3 ≤ L then 2 * (L * L) else 0 := by
  obtain ⟨S, T, h⟩ := trace_of_order demoSet hL (hq.nodup_iff.2 List.nodup_range) (fun s hs => List.mem_range.1 (hq.mem_iff.1 hs))
  have hf : ∀ s < L * L, S.Occ s := fun s hs => (T.reports.occ s).2 (hq.mem_iff.2 (List.mem_range.2 hs))
  refine ⟨by rw [← T.entropy]; exact C15_full h hf, by rw [← T.reports.largest]; exact C13_full h hf, ?_⟩
  obtain ⟨_, A, M, hA, I⟩ := T.sim
  split
  · next hL3 =>
    have ha : A.aw = true := by
      rw [← M.aw]
      refine C54_must_wrap hL3 T ?_
      rw [T.reports.count, hq.length_eq, List.length_range]; omega
    rw [← I.wrapping hA, if_pos ha]
    obtain ⟨s, h1, h2, _⟩ := hA.wrap.on ha
    rw [M.occ_eq] at hf
    rw [← h2, ← hA.inv.core.inc s .right h1]
    exact hA.inv.core.full_len hf (bondAt_lt h1.1 _)
  · next hL3 => unfold seqWrapping; rw [if_pos (by omega)]

/-- One occupied site. -/
theorem order_single (hL : 2 ≤ L) {a : Nat} (ha : a < L * L) :
    shannon L (· ∈ [a]) = Real.log (2 * (L * L) : Nat) - 4 / (2 * (L * L) : Nat) * Real.log 4 ∧ seqLargest L [a] = 4 := by
  obtain ⟨S, T, h⟩ := trace_of_order demoSet (by omega : 0 < L) (List.nodup_singleton a) (by simpa using ha)
  refine T.chain (R := fun q q' => q = [] → shannon L (· ∈ q') = Real.log (2 * (L * L) : Nat) - 4 / (2 * (L * L) : Nat) * Real.log 4 ∧
    seqLargest L q' = 4) ?_ 0 (by simp) rfl
  intro S S1 S2 seq k d b w T h1 h2 h3 h4 he
  subst he
  have T2 := Trace.placed T h1 h2 h3 h4
  obtain ⟨_, A, M, hA, I⟩ := T.sim
  obtain ⟨_, V1, hV, h | h | h⟩ := placeOneSite_sim M hA.inv h1
  rotate_left
  · rw [h.1] at h2; cases h2
  · rw [h.1] at h2; cases h2
  obtain ⟨_, _, k', r, V', P', hk, hg, E, hr, hsel, M'⟩ := h
  obtain ⟨N, e, _⟩ := fresh_exists (realEnv demoSet) .l0 (by omega : 0 < L) (fun _ => 0)
  have hent : S.entropy = Real.log (2 * (L * L) : Nat) := by
    rw [T.entropy, ← (Trace.new (v := .l0) e).entropy]
    exact (C28_initial_state e).2.2.2.2.2.2.2.2.2
  have hS2 : S2.entropy = S1.entropy ∧ S2.largestCluster = S1.largestCluster := by
    obtain ⟨A1, hst, M1⟩ := placeOneSite_steps M hA.inv h1
    rcases detectWrapping_sim M1 (hA.inv.steps hst) h4 with ⟨_, rfl, rfl⟩ | ⟨_, _, _, ⟨_, rfl, rfl⟩ | ⟨_, _, rfl, rfl⟩⟩ <;> exact ⟨rfl, rfl⟩
  have C := hA.inv.core.same hV
  have hno : ∀ s, ¬ VOcc L V1 s := by
    intro s hs
    rw [hV.vocc, I.occ_eq] at hs
    cases hs
  have hinj : ∀ b b', b < 2 * (L * L) → b' < 2 * (L * L) → V1.bg b = V1.bg b' → b = b' := by
    intro b b' hb hb' e
    have := (C.conn b b' hb hb').1 e
    induction this with
    | refl => rfl
    | tail _ hst _ => obtain ⟨_, _, s, hs, _⟩ := hst; exact absurd hs (hno s)
  have hone : ∀ g, Adj L V1 k' g → A.P.len g = 1 := by
    rintro g ⟨d, rfl⟩
    have hb := bondAt_lt hk d
    rw [C.len_eq_card (mem_gids.2 (C.bgr _ hb)), Finset.card_eq_one]
    refine ⟨bondAt L k' d, ?_⟩
    ext b
    simp only [Finset.mem_filter, Finset.mem_range, Finset.mem_singleton]
    exact ⟨fun h => hinj _ _ h.1 hb h.2, fun h => by rw [h]; exact ⟨hb, rfl⟩⟩
  have hcard : (adjSet L V1 k').card = 4 := by
    have : ((siteBonds L k').map V1.bg).Nodup := by
      refine List.Nodup.map_on ?_ ?_
      · intro b hb b' hb' e
        obtain ⟨d, rfl⟩ := mem_siteBonds.1 hb
        obtain ⟨d', rfl⟩ := mem_siteBonds.1 hb'
        exact hinj _ _ (bondAt_lt hk d) (bondAt_lt hk d') e
      · show (Dir.all.map (bondAt L k')).Nodup
        exact List.Nodup.map_on (fun d _ d' _ e => bondAt_inj hL hk e) (by decide)
    rw [adjSet, List.toFinset_card_of_nodup this]; rfl
  have hlen : P'.len r = 4 := by
    rw [E.len_root, Finset.sum_congr rfl fun g hg => hone g (mem_adjSet.1 hg), Finset.sum_const, hcard]; rfl
  have hB : ((2 * (L * L) : Nat) : ℝ) ≠ 0 := by
    have : 2 * (L * L) ≠ 0 := by omega
    exact_mod_cast this
  constructor
  · rw [← T2.entropy, hS2.1]
    have he : S1.entropy = S.entropy + ∑ g ∈ adjSet L V1 k', mulog L (A.P.len g) - mulog L (P'.len r) := by
      rw [Perc.entropy, Perc.entropy, M'.ent, M.ent, ← adjSum_real (so := demoSet), ← muLog_real (so := demoSet)]; rfl
    rw [he, hent, hlen, Finset.sum_congr rfl fun g hg => congrArg (mulog L) (hone g (mem_adjSet.1 hg)), Finset.sum_const, hcard, mulog, mulog,
      nsmul_eq_mul, Nat.cast_one, Real.log_div one_ne_zero hB, Real.log_one, Real.log_div (by norm_num) hB]
    push_cast
    ring
  · rw [← T2.reports.largest, hS2.2, Perc.largestCluster, M'.lsz]
    have h0 : A.lsz = 0 := (hA.largest.zero I.count).1
    show (if (P'.cb r).length > A.lsz then (P'.cb r).length else A.lsz) = 4
    have : (P'.cb r).length = 4 := hlen
    rw [h0, this]; rfl

/-! ### Means -/

theorem meanOver_le {qs : List (List Nat)} {f g : List Nat → ℝ} (h : ∀ q ∈ qs, f q ≤ g q) : meanOver qs f ≤ meanOver qs g := by
  unfold meanOver
  have : (qs.map f).sum ≤ (qs.map g).sum := List.sum_le_sum h
  gcongr

theorem meanOver_const {qs : List (List Nat)} (hne : qs ≠ []) {f : List Nat → ℝ} {c : ℝ} (h : ∀ q ∈ qs, f q = c) : meanOver qs f = c := by
  unfold meanOver
  have hn : (0 : ℝ) < qs.length := by exact_mod_cast List.length_pos_iff.2 hne
  rw [List.map_congr_left h, List.map_const', List.sum_replicate, nsmul_eq_mul]
  field_simp

/-- C58: in exact arithmetic the table written by `run_ensemble_entropy_order` or `run_ensemble_entropy_order_threads_v2` (any class except
the shortest-path one, any random numbers, any number of realisations) has `L²` rows `(p, H, P_largest, P_wrapping)` with
* `p = 1/L², 2/L², …, 1`;
* `H` between 0 and `log 2L²`, not increasing from row to row, 0 in the last row;
* `0 ≤ P_wrapping ≤ P_largest ≤ 1` in every row, both columns not decreasing from row to row, `P_largest = 1` in the last row;
* `P_wrapping = 0` in the first `L - 1` rows, and, for `L ≥ 3`, `P_wrapping ≥ 1/L` in the last `L + ⌊(L - 1) / 2⌋` rows and 1 in the last row, while for
  `L ≤ 2` the column is 0;
* for `L ≥ 2` the first row's `H` and `P_largest` do not depend on the random numbers (one site of four bonds). -/
theorem C58_averaged_table (hv : v ≠ .sp) (hL : 0 < L) (pl : Bool) (ctor : Nat → Nat) {rs : List RunDraws} (hne : rs ≠ [])
    (hf : ∀ r ∈ rs, 5 * (L * L) < r.fuel) : ∃ (H P W : Nat → ℝ) (crit : List (CritRow ℝ)),
      runEnsemble (realEnv so) v pl L ctor rs =
        .ok ((List.range (L * L)).map (fun k => [((k + 1 : Nat) : ℝ) / (L * L : Nat), H k, P k, W k]), crit) ∧
      (∀ k < L * L, 0 ≤ H k ∧ H k ≤ Real.log (2 * (L * L) : Nat) ∧ 0 ≤ W k ∧ W k ≤ P k ∧ P k ≤ 1) ∧
      (∀ k, k + 1 < L * L → H (k + 1) ≤ H k ∧ P k ≤ P (k + 1) ∧ W k ≤ W (k + 1)) ∧
      H (L * L - 1) = 0 ∧ P (L * L - 1) = 1 ∧ (3 ≤ L → W (L * L - 1) = 1) ∧ (L ≤ 2 → ∀ k < L * L, W k = 0) ∧
      (∀ k, k + 1 < L → W k = 0) ∧ (3 ≤ L → ∀ k < L * L, L * L < k + 1 + L + (L - 1) / 2 → 1 / (L : ℝ) ≤ W k) ∧
      (2 ≤ L → H 0 = Real.log (2 * (L * L) : Nat) - 2 / (L * L : Nat) * Real.log 4 ∧ P 0 = 2 / (L * L : Nat)) := by
  obtain ⟨qs, crit, hlen, hperm, hrun, _⟩ := C42_mean (so := so) hv hL pl ctor hne hf
  have hqs : qs ≠ [] := by
    rintro rfl
    exact hne (List.length_eq_zero_iff.1 hlen.symm)
  have hLL : 0 < L * L := Nat.mul_pos hL hL
  have hB : (0 : ℝ) < (2 * (L * L) : Nat) := by exact_mod_cast (by omega : 0 < 2 * (L * L))
  have hnd : ∀ q ∈ qs, q.Nodup := fun q hq => (hperm q hq).nodup_iff.2 List.nodup_range
  have hlt : ∀ q ∈ qs, ∀ s ∈ q, s < L * L := fun q hq s hs => List.mem_range.1 ((hperm q hq).mem_iff.1 hs)
  have hl : ∀ q ∈ qs, q.length = L * L := fun q hq => by rw [(hperm q hq).length_eq, List.length_range]
  have bd := fun q (hq : q ∈ qs) k => order_bounds (q := q.take (k + 1)) hL ((hnd q hq).sublist (List.take_sublist _ _))
    (fun s hs => hlt q hq s (List.mem_of_mem_take hs))
  have lt : ∀ q ∈ qs, ∀ k < L * L, (q.take (k + 1)).length = k + 1 := fun q hq k hk => by
    rw [List.length_take, hl q hq]; omega
  have full : ∀ q ∈ qs, q.take (L * L - 1 + 1) = q := fun q hq => by
    rw [List.take_of_length_le]; rw [hl q hq]; omega
  have const0 : ∀ c : ℝ, meanOver qs (fun _ => c) = c := fun c => meanOver_const hqs fun _ _ => rfl
  refine ⟨_, _, _, crit, hrun, ?_, ?_, ?_, ?_, ?_, ?_, ?_, ?_, ?_⟩
  · intro k hk
    refine ⟨?_, ?_, ?_, ?_, ?_⟩
    · rw [← const0 0]; exact meanOver_le fun q hq => (bd q hq k).1
    · rw [← const0 (Real.log _)]; exact meanOver_le fun q hq => (bd q hq k).2.1
    · rw [← const0 0]; exact meanOver_le fun q hq => by positivity
    · refine meanOver_le fun q hq => ?_
      have : (seqWrapping L (q.take (k + 1)) : ℝ) ≤ seqLargest L (q.take (k + 1)) := by exact_mod_cast (bd q hq k).2.2.1
      gcongr
    · rw [← const0 1]
      refine meanOver_le fun q hq => div_le_one_of_le₀ ?_ (by positivity)
      exact_mod_cast (bd q hq k).2.2.2.1
  · intro k hk
    have om := fun q (hq : q ∈ qs) => oneMore hL (hnd q hq) (hlt q hq) (k + 1) (by rw [hl q hq]; exact hk)
    refine ⟨meanOver_le fun q hq => (om q hq).entropy, meanOver_le fun q hq => ?_, meanOver_le fun q hq => ?_⟩
    · have : (seqLargest L (q.take (k + 1)) : ℝ) ≤ seqLargest L (q.take (k + 1 + 1)) := by exact_mod_cast (om q hq).largest
      gcongr
    · have : (seqWrapping L (q.take (k + 1)) : ℝ) ≤ seqWrapping L (q.take (k + 1 + 1)) := by exact_mod_cast (om q hq).wrapping
      gcongr
  · refine meanOver_const hqs fun q hq => ?_
    rw [full q hq]; exact (order_full hL (hperm q hq)).1
  · refine meanOver_const hqs fun q hq => ?_
    rw [full q hq, (order_full hL (hperm q hq)).2.1]; exact div_self hB.ne'
  · intro hL3
    refine meanOver_const hqs fun q hq => ?_
    rw [full q hq, (order_full hL (hperm q hq)).2.2, if_pos hL3]; exact div_self hB.ne'
  · intro hL2 k _
    refine meanOver_const hqs fun q hq => ?_
    unfold seqWrapping
    rw [if_pos (by omega), Nat.cast_zero, zero_div]
  · intro k hk
    refine meanOver_const hqs fun q hq => ?_
    have : L ≤ L * L := Nat.le_mul_of_pos_left L hL
    rw [(bd q hq k).2.2.2.2.1 (by rw [lt q hq k (by omega)]; exact hk), Nat.cast_zero, zero_div]
  · intro hL3 k hk hk'
    rw [← const0 (1 / (L : ℝ))]
    refine meanOver_le fun q hq => ?_
    have := (bd q hq k).2.2.2.2.2 hL3 (by rw [lt q hq k hk]; exact hk')
    have h1 : (2 * L : ℝ) ≤ seqWrapping L (q.take (k + 1)) := by exact_mod_cast this
    have hL' : (0 : ℝ) < L := by exact_mod_cast hL
    rw [div_le_div_iff₀ (by positivity) hB]
    push_cast
    nlinarith
  · intro hL2
    have one : ∀ q ∈ qs, ∃ a < L * L, q.take (0 + 1) = [a] := by
      intro q hq
      have h1 := hl q hq
      cases q with
      | nil => rw [List.length_nil] at h1; omega
      | cons a q => exact ⟨a, hlt _ hq a (by simp), by simp⟩
    constructor
    · refine meanOver_const hqs fun q hq => ?_
      obtain ⟨a, ha, e⟩ := one q hq
      rw [e, (order_single hL2 ha).1]
      push_cast
      ring
    · refine meanOver_const hqs fun q hq => ?_
      obtain ⟨a, ha, e⟩ := one q hq
      rw [e, (order_single hL2 ha).2]
      push_cast
      rw [div_eq_div_iff (by positivity) (by positivity)]
      ring

/-- The hypotheses hold for three realisations of L1 on the `4 × 4` lattice with any draws. -/
example (ctor : Nat → Nat) (sh : Nat → Nat) (ds : Nat → Draw) : ∃ (H P W : Nat → ℝ) (crit : _), runEnsemble (realEnv demoSet) .l1 true 4 ctor
    (List.replicate 3 ⟨sh, ds, 100⟩) = .ok ((List.range 16).map (fun k => [((k + 1 : Nat) : ℝ) / (16 : Nat), H k, P k, W k]), crit) ∧
    P 0 = 2 / (16 : Nat) ∧ W 15 = 1 := by
  obtain ⟨H, P, W, crit, h, _, _, _, _, h1, _, _, _, h2⟩ := C58_averaged_table (so := demoSet) (v := .l1) (L := 4) (by decide) (by decide) true ctor
    (rs := List.replicate 3 ⟨sh, ds, 100⟩) (by simp [List.replicate]) (by intro r hr; rw [List.eq_of_mem_replicate hr]; show 5 * (4 * 4) < 100; omega)
  exact ⟨H, P, W, crit, h, (h2 (by omega)).2, h1 (by omega)⟩

end SqPerc
