import Verif.Proof.Sizes
import Verif.Props.Sequence
import Verif.Props.Wrapping
import Mathlib.Tactic.FieldSimp
/-
Properties C54, C55: bounds on the critical values and on cluster sizes.
-/
namespace SqPerc

variable {α : Type} {L : Nat} {env : Env α} {v : Variant} {S S' : Perc α} {seq : List Nat}

/-! ### C54 -/

/-- C54: whenever wrapping was detected, the wrapping cluster had at that moment at least `L` sites, not more than were occupied then,
and between `2 n` and `3 n + 1` bonds; not more sites were occupied then than now. -/
theorem C54_critical_counts (h : Reach env v L S) (ha : S.afterWrapping = true) :
    L ≤ S.getSiteCountPc ∧ S.getSiteCountPc ≤ S.pcOccupied ∧ S.pcOccupied ≤ S.occupiedCount ∧
    2 * S.getSiteCountPc ≤ S.getBondCountPc ∧ S.getBondCountPc ≤ 3 * S.getSiteCountPc + 1 := by
  obtain ⟨_, A, M, hA⟩ := h.sim
  obtain ⟨n, b, h1, h2, h3⟩ := hA.pc (M.aw ▸ ha)
  rw [Perc.getSiteCountPc, Perc.getBondCountPc, M.pcs, M.pcb, M.pco, M.count, h1, h2]
  exact h3

/-- C54: in exact arithmetic `1 / L ≤ get_pc() ≤ occupation_prob()` once wrapping was detected. -/
theorem C54_pc_lower {so : SetOrder} {S : Perc ℝ} (h : Reach (realEnv so) v L S) (ha : S.afterWrapping = true) :
    1 / (L : ℝ) ≤ S.getPc (realEnv so) ∧ S.getPc (realEnv so) ≤ S.occupationProb (realEnv so) := by
  obtain ⟨h1, h2, h3, _⟩ := C54_critical_counts h ha
  obtain ⟨hL, A, M, hA⟩ := h.sim
  have hN : S.lat.siteCount = L * L := by rw [M.lat, mkLat_siteCount]
  have e1 : S.getPc (realEnv so) = (S.pcOccupied : ℝ) / ((L * L : Nat) : ℝ) := by
    rw [Perc.getPc, if_pos ha, hN]; rfl
  have e2 : S.occupationProb (realEnv so) = (S.occupiedCount : ℝ) / ((L * L : Nat) : ℝ) := by
    rw [Perc.occupationProb, hN]; rfl
  have hL' : (0 : ℝ) < L := by exact_mod_cast hL
  constructor
  · have h : (L : ℝ) ≤ S.pcOccupied := by exact_mod_cast h1.trans h2
    rw [e1, Nat.cast_mul, div_le_div_iff₀ hL' (by positivity)]
    nlinarith
  · have h : (S.pcOccupied : ℝ) ≤ S.occupiedCount := by exact_mod_cast h3
    rw [e1, e2]
    gcongr

/-- C54: the wrapping cluster has a site in every row, or has a site in every column. -/
theorem C54_spans (h : Reach env v L S) (ha : S.afterWrapping = true) :
    (∀ r < L, ∃ c < L, S.lat.getSiteGid (r * L + c) = .ok S.wrappingId) ∨
    (∀ c < L, ∃ r < L, S.lat.getSiteGid (r * L + c) = .ok S.wrappingId) := by
  obtain ⟨_, A, M, hA⟩ := h.sim
  have C := hA.inv.core
  obtain ⟨s, h1, h2, h3⟩ := hA.wrap.on (M.aw ▸ ha)
  have key : ∀ t, SiteConn L (VOcc L A.V) s t → VOcc L A.V t → S.lat.getSiteGid t = .ok S.wrappingId := by
    intro t hc ht
    rw [siteConn_iff vocc_lt h1 ht .right .right, ← C.conn _ _ (bondAt_lt h1.1 _) (bondAt_lt ht.1 _), C.inc _ _ h1, C.inc _ _ ht] at hc
    rw [M.siteGid ht.1, M.wid, ← h2, hc]
  rcases h3.spans vocc_lt with hr | hr
  · exact Or.inl fun r hr' => by
      obtain ⟨c, hc, h4, h5⟩ := hr r hr'
      exact ⟨c, hc, key _ h4 h5⟩
  · exact Or.inr fun c hc' => by
      obtain ⟨r, hr, h4, h5⟩ := hr c hc'
      exact ⟨r, hr, key _ h4 h5⟩

theorem Trace.seq_nodup_lt (T : Trace env v L S seq) : seq.Nodup ∧ ∀ s ∈ seq, s < L * L := by
  obtain ⟨_, A, M, hA, I⟩ := T.sim
  refine ⟨I.nd, fun s hs => ?_⟩
  have := (T.reports.occ s).2 hs
  rw [M.occ_iff] at this
  exact this.1

/-- C54: with detection after every placement, for `L ≥ 3` wrapping has been detected at the latest when fewer than `L` sites are empty. -/
theorem C54_must_wrap (hL : 3 ≤ L) (T : Trace env v L S seq) (h : L * L < S.occupiedCount + L) : S.afterWrapping = true := by
  obtain ⟨hq, hlt⟩ := T.seq_nodup_lt
  rw [T.reports.count] at h
  exact T.aw_iff.2 ⟨hL, wraps_of_few_empty (by omega) hq hlt h⟩

/-- C54: with detection after every placement, wrapping is detected at the latest with site number `L² - L + 1`. -/
theorem C54_critical_upper (T : Trace env v L S seq) (ha : S.afterWrapping = true) : S.pcOccupied + L ≤ L * L + 1 := by
  obtain ⟨_, A, M, hA, I⟩ := T.sim
  have haw : A.aw = true := M.aw ▸ ha
  obtain ⟨pre, k, post, h1, h2, h3, h4, _⟩ := I.on haw
  obtain ⟨hq, hlt⟩ := T.seq_nodup_lt
  have hL : 0 < L := by
    have := (T.aw_iff.1 ha).1
    omega
  rw [M.pco, h4]
  by_contra hc
  refine h2 (wraps_of_few_empty hL ?_ ?_ (by omega))
  · rw [h1] at hq; exact (List.nodup_append.1 hq).1
  · intro s hs; exact hlt s (by rw [h1]; simp [hs])

/-- C54: in exact arithmetic `get_pc() ≤ 1 - (L - 1) / L²`. -/
theorem C54_pc_upper {so : SetOrder} {S : Perc ℝ} (T : Trace (realEnv so) v L S seq) (ha : S.afterWrapping = true) :
    S.getPc (realEnv so) ≤ 1 - ((L : ℝ) - 1) / (L : ℝ) ^ 2 := by
  have h1 := C54_critical_upper T ha
  have hL : 0 < L := by
    have := (T.aw_iff.1 ha).1
    omega
  obtain ⟨_, A, M, hA, I⟩ := T.sim
  have hN : S.lat.siteCount = L * L := by rw [M.lat, mkLat_siteCount]
  have e1 : S.getPc (realEnv so) = (S.pcOccupied : ℝ) / ((L * L : Nat) : ℝ) := by
    rw [Perc.getPc, if_pos ha, hN]; rfl
  have hL' : (0 : ℝ) < L := by exact_mod_cast hL
  have h2 : (S.pcOccupied : ℝ) + L ≤ L * L + 1 := by exact_mod_cast h1
  rw [e1, Nat.cast_mul, div_le_iff₀ (by positivity)]
  have : (1 - ((L : ℝ) - 1) / (L : ℝ) ^ 2) * (L * L) = L * L - (L - 1) := by
    field_simp
  rw [this]; linarith

/-- L = 3: a straight row wraps with the third site, which meets the lower bound; with the diagonal 2, 4, 6 left empty nothing wraps until
the sixth site (the upper bound is 7). -/
example : (∃ S seq, Trace demoEnv .l0 3 S seq ∧ S.afterWrapping = true ∧ S.pcOccupied = 3) ∧
    ∃ S seq, Trace demoEnv .l0 3 S seq ∧ S.afterWrapping = true ∧ S.pcOccupied = 6 ∧ S.getSiteCountPc = 6 ∧ S.getBondCountPc = 18 := by
  constructor
  · obtain ⟨S, seq, T, hp⟩ := checkTrace_trace (env := demoEnv) (v := .l0) (L := 3) (ids := [0, 1, 2]) (n := 3)
      (p := fun S _ => S.afterWrapping && decide (S.pcOccupied = 3)) (by decide +kernel)
    simp only [Bool.and_eq_true, decide_eq_true_eq] at hp
    exact ⟨S, seq, T, hp⟩
  · obtain ⟨S, seq, T, hp⟩ := checkTrace_trace (env := demoEnv) (v := .l0) (L := 3) (ids := [0, 1, 3, 5, 7, 8, 2]) (n := 7)
      (p := fun S _ => S.afterWrapping && decide (S.pcOccupied = 6 ∧ S.getSiteCountPc = 6 ∧ S.getBondCountPc = 18)) (by decide +kernel)
    simp only [Bool.and_eq_true, decide_eq_true_eq] at hp
    exact ⟨S, seq, T, hp⟩

/-! ### C55 -/

theorem Sim.siteCount {A : Abs α} (M : Sim env L S A) {g : Int} (hg : g ∈ gids L) : S.pool.siteCount g = .ok (A.P.slen g) := by
  have := M.getSites hg
  simp only [ClusterPool.getSites, ClusterPool.siteCount, bind, Except.bind] at this ⊢
  cases h : pyGetI S.pool.clusters g with
  | error e => rw [h] at this; cases this
  | ok c =>
    rw [h] at this
    replace this : (Except.ok c.siteIds : Py (List Nat)) = .ok (A.P.cs g) := this
    show Except.ok c.siteIds.length = _
    rw [Except.ok.inj this]; rfl

/-- C55: the cluster with any of the ids `0 … 2 L² - 1` has, with `n` sites, at least `2 n` and at most `3 n + 1` bonds. -/
theorem C55_bonds_of_sites (h : Reach env v L S) {g : Nat} (hg : g < 2 * (L * L)) :
    ∃ n b, S.pool.siteCount g = .ok n ∧ S.pool.bondCount g = .ok b ∧ 2 * n ≤ b ∧ b ≤ 3 * n + 1 := by
  obtain ⟨_, A, M, hA⟩ := h.sim
  have hg' := natCast_mem_gids hg
  exact ⟨_, _, M.siteCount hg', M.bondCount hg', hA.inv.core.two_mul_slen_le hg', hA.size _ hg'⟩

open Classical in
/-- C55: exactly, for `L ≥ 2` and a cluster with at least one site: its bond count is `4 n` minus the number of its bonds whose two ends
are both occupied. -/
theorem C55_handshake (hL : 2 ≤ L) (h : Reach env v L S) {g : Nat} (hg : g < 2 * (L * L)) :
    ∃ n b, S.pool.siteCount g = .ok n ∧ S.pool.bondCount g = .ok b ∧ (0 < n → 4 * n = b +
      ((Finset.range (2 * (L * L))).filter fun e =>
        S.lat.getBondGid e = .ok (g : Int) ∧ S.Occ (bondEnds L e).1 ∧ S.Occ (bondEnds L e).2).card) := by
  obtain ⟨_, A, M, hA⟩ := h.sim
  have hg' := natCast_mem_gids hg
  refine ⟨_, _, M.siteCount hg', M.bondCount hg', fun hn => ?_⟩
  rw [hA.inv.core.handshake hL hg' hn, M.occ_eq]
  congr 2
  refine Finset.filter_congr fun e he => ?_
  rw [M.bondGid (Finset.mem_range.1 he)]
  simp

/-- Both bounds are met: one site with four bonds; a full lattice with `2 L²` bonds.  In between: a square of four sites, 12 bonds. -/
example : (∃ S, Reach demoEnv .l0 3 S ∧ isOk (S.pool.siteCount 15) 1 = true ∧ isOk (S.pool.bondCount 15) 4 = true) ∧
    (∃ S, Reach demoEnv .l0 4 S ∧ isOk (S.pool.siteCount 28) 4 = true ∧ isOk (S.pool.bondCount 28) 12 = true) ∧
    ∃ S, Reach demoEnv .l0 2 S ∧ isOk (S.pool.siteCount 6) 4 = true ∧ isOk (S.pool.bondCount 6) 8 = true := by
  refine ⟨?_, ?_, ?_⟩
  · obtain ⟨S, h, hp⟩ := checkOps_reach (env := demoEnv) (v := .l0) (L := 3) (ops := placeInOrder [0] 1)
      (p := fun S => isOk (S.pool.siteCount 15) 1 && isOk (S.pool.bondCount 15) 4) (by decide +kernel)
    simp only [Bool.and_eq_true] at hp
    exact ⟨S, h, hp⟩
  · obtain ⟨S, h, hp⟩ := checkOps_reach (env := demoEnv) (v := .l0) (L := 4) (ops := placeInOrder [0, 1, 4, 5] 4)
      (p := fun S => isOk (S.pool.siteCount 28) 4 && isOk (S.pool.bondCount 28) 12) (by decide +kernel)
    simp only [Bool.and_eq_true] at hp
    exact ⟨S, h, hp⟩
  · obtain ⟨S, h, hp⟩ := checkOps_reach (env := demoEnv) (v := .l0) (L := 2) (ops := placeInOrder [0, 1, 2, 3] 4)
      (p := fun S => isOk (S.pool.siteCount 6) 4 && isOk (S.pool.bondCount 6) 8) (by decide +kernel)
    simp only [Bool.and_eq_true] at hp
    exact ⟨S, h, hp⟩

end SqPerc
