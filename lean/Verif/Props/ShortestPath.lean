import Verif.Proof.Shortest
import Verif.Props.Entropy
import Verif.Props.Sequence
import Verif.Props.Runs
import Verif.Props.L1L2
/-
Properties C39–C41: the class `ShortestPathAfter_pc`.
-/
namespace SqPerc

variable {α : Type} {L : Nat} {env : Env α} {S S' : Perc α} {pre : List Nat} {fuel : Nat}

/-- `run_once` in terms of its loop. -/
theorem spRunOnce_inv (h : S.spRunOnce env fuel = .ok S') : ∃ S1 b, Perc.spLoop env fuel S = .ok (S1, b) ∧ S' = { S1 with firstRun := false } := by
  simp only [Perc.spRunOnce] at h
  cases h1 : Perc.spLoop env fuel S with
  | error e => rw [h1] at h; cases h
  | ok r => rw [h1] at h; exact ⟨r.1, r.2, rfl, (Except.ok.inj h).symm⟩

/-- Changing `first_run` only. -/
theorem SpRun.first {S1 : Perc α} {seq : List Nat} {b : Bool} (h : SpRun env L S S1 pre seq b) (fr : Bool) :
    SpRun env L S { S1 with firstRun := fr } pre seq b :=
  ⟨h.trace.data fr S1.occProbList S1.entropyList S1.orderWrapList S1.orderLargestList S1.shortestP, h.before, h.last, h.none⟩

/-- How a run ended can be seen from `selection_flag`. -/
theorem SpRun.stopped {seq : List Nat} {b : Bool} (h : SpRun env L S S' pre seq b) : b = true ↔ S'.selectionFlag = some .success := by
  constructor
  · intro hb; obtain ⟨_, _, _, _, h4, _⟩ := h.last hb; exact h4
  · intro hf
    cases b with
    | true => rfl
    | false => have := (h.none rfl).2; rw [this] at hf; cases hf

theorem spRunOnce_run (T : Trace env .sp L S pre) (h : S.spRunOnce env fuel = .ok S') :
    ∃ seq b, SpRun env L S S' pre seq b := by
  obtain ⟨S1, b, h1, rfl⟩ := spRunOnce_inv h
  obtain ⟨seq, R⟩ := spLoop_run fuel T h1
  exact ⟨seq, b, R.first _⟩

/-! ### C39 -/

/-- C39: if `run_once` stops before the sites are exhausted (the last `place_one_site` was successful), then all sites of the row or all
sites of the column of the last placed site carry the gid `wrapping_cluster_id`. -/
theorem C39_line (T : Trace env .sp L S pre) (h : S.spRunOnce env fuel = .ok S') (hs : S'.selectionFlag = some .success) :
    ∃ k, S'.selected = some k ∧ k < L * L ∧ S'.afterWrapping = true ∧
      ((∀ c < L, S'.lat.getSiteGid (k / L * L + c) = .ok S'.wrappingId) ∨ ∀ r < L, S'.lat.getSiteGid (r * L + k % L) = .ok S'.wrappingId) := by
  obtain ⟨seq, b, R⟩ := spRunOnce_run T h
  obtain ⟨k, h1, h2, h3, _⟩ := R.last (R.stopped.2 hs)
  have hk : k < L * L := by
    refine R.trace.seq_lt k ?_
    rw [List.mem_append]; right
    exact List.mem_of_getLast? h1
  have haw := R.trace.aw_iff.2 h3.1
  have hL := pos_of_lt_sq hk
  refine ⟨k, h2, hk, haw, ?_⟩
  obtain ⟨_, A, M, hA, I⟩ := R.trace.sim
  rcases h3.2 with h | h
  · left; intro c hc
    have hlt : k / L * L + c < L * L := rc_lt (Nat.div_lt_of_lt_mul hk) hc
    rw [M.siteGid hlt, M.wid]
    exact congrArg _ ((I.inWrap_iff hA (by rw [← M.aw]; exact haw) hlt).2 (h c hc))
  · right; intro r hr
    have hlt : r * L + k % L < L * L := rc_lt hr (Nat.mod_lt _ hL)
    rw [M.siteGid hlt, M.wid]
    exact congrArg _ ((I.inWrap_iff hA (by rw [← M.aw]; exact haw) hlt).2 (h r hr))

theorem Straight.any {q : List Nat} {k : Nat} (hk : k < L * L) (h : Straight L q k) : AnyStraight L q :=
  ⟨h.1, h.2.imp (fun h => ⟨_, Nat.div_lt_of_lt_mul hk, h⟩) (fun h => ⟨_, Nat.mod_lt _ (pos_of_lt_sq hk), h⟩)⟩

/-- `scan_all_cols()` looks for a complete row and `scan_all_rows()` for a complete column of the wrapping cluster; they find one exactly
if there is one. -/
theorem scanAll_iff {v : Variant} {seq : List Nat} (T : Trace env v L S seq) :
    (S.scanAllCols = .ok true ↔ HasWrapped L seq ∧ ∃ r < L, RowIn L (InWrap L seq) r) ∧
    (S.scanAllRows = .ok true ↔ HasWrapped L seq ∧ ∃ c < L, ColIn L (InWrap L seq) c) ∧
    (S.scanAllCols = .ok true ∨ S.scanAllRows = .ok true ↔ AnyStraight L seq) := by
  obtain ⟨h1, h2⟩ := T.scanAll
  rw [h1, h2]
  simp [AnyStraight, ← and_or_left]

/-- The numbers behind `get_pc()` after wrapping and the occupation probability. -/
theorem Trace.pc_nums {v : Variant} {seq : List Nat} (T : Trace env v L S seq) (h : HasWrapped L seq) : ∃ m, 1 ≤ m ∧ m ≤ seq.length ∧
    seq.length ≤ L * L ∧ S.getPc env = env.ar.div (env.ar.ofNat m) (env.ar.ofNat (L * L)) ∧
    S.occupationProb env = env.ar.div (env.ar.ofNat seq.length) (env.ar.ofNat (L * L)) := by
  obtain ⟨p, k, post, h1, _, _, h4, _⟩ := (C21_critical_values h.1 T).1 h.2
  obtain ⟨_, A, M, hA, I⟩ := T.sim
  refine ⟨p.length + 1, by omega, by rw [h1]; simp, ?_, h4, ?_⟩
  · rw [← List.length_range (n := L * L)]
    exact (List.subperm_of_subset I.nd fun s hs => List.mem_range.2 (T.seq_lt s hs)).length_le
  · have hN : S.lat.siteCount = L * L := by rw [M.lat, mkLat_siteCount]
    rw [Perc.occupationProb, M.count, I.count, hN]

/-- C39: if `run_once` stops before the sites are exhausted, `scan_all_cols()` or `scan_all_rows()` is True, `get_shortest_path_p()` is
the current occupation probability `n / L²`, and `get_pc()` is `m / L²` with `1 ≤ m ≤ n ≤ L²`. -/
theorem C39_values (T : Trace env .sp L S pre) (h : S.spRunOnce env fuel = .ok S') (hs : S'.selectionFlag = some .success) :
    (S'.scanAllCols = .ok true ∨ S'.scanAllRows = .ok true) ∧ S'.shortestP = S'.occupationProb env ∧
    ∃ m n, 1 ≤ m ∧ m ≤ n ∧ n ≤ L * L ∧ S'.occupiedCount = n ∧ S'.getPc env = env.ar.div (env.ar.ofNat m) (env.ar.ofNat (L * L)) ∧
      S'.shortestP = env.ar.div (env.ar.ofNat n) (env.ar.ofNat (L * L)) := by
  obtain ⟨seq, b, R⟩ := spRunOnce_run T h
  obtain ⟨k, h1, h2, h3, h4, h5⟩ := R.last (R.stopped.2 hs)
  have hk : k < L * L := R.trace.seq_lt k (List.mem_append_right _ (List.mem_of_getLast? h1))
  refine ⟨(scanAll_iff R.trace).2.2.2 (h3.any hk), h5, ?_⟩
  obtain ⟨m, g1, g2, g3, g4, g5⟩ := R.trace.pc_nums h3.1
  obtain ⟨_, A, M, hA, I⟩ := R.trace.sim
  exact ⟨m, _, g1, g2, g3, by rw [M.count, I.count], g4, h5.trans g5⟩

/-- C39 in exact arithmetic: `0 < get_pc() ≤ get_shortest_path_p() ≤ 1`. -/
theorem C39_pc_le {so : SetOrder} {S S' : Perc ℝ} (T : Trace (realEnv so) .sp L S pre) (h : S.spRunOnce (realEnv so) fuel = .ok S')
    (hs : S'.selectionFlag = some .success) : 0 < S'.getPc (realEnv so) ∧ S'.getPc (realEnv so) ≤ S'.shortestP ∧ S'.shortestP ≤ 1 := by
  obtain ⟨_, _, m, n, h1, h2, h3, _, h4, h5⟩ := C39_values T h hs
  rw [h4, h5]
  show 0 < (m : ℝ) / (L * L : Nat) ∧ (m : ℝ) / (L * L : Nat) ≤ (n : ℝ) / (L * L : Nat) ∧ (n : ℝ) / (L * L : Nat) ≤ 1
  have hm : (0 : ℝ) < m := by exact_mod_cast h1
  have hmn : (m : ℝ) ≤ n := by exact_mod_cast h2
  have hn : (n : ℝ) ≤ (L * L : Nat) := by exact_mod_cast h3
  have hp : (0 : ℝ) < (L * L : Nat) := by linarith
  exact ⟨div_pos hm hp, div_le_div_of_nonneg_right hmn hp.le, (div_le_one hp).2 hn⟩

/-- A new or reset object reports shortest path point 0. -/
theorem Start.shortest {S : Perc α} (h : Start env .sp L S) : S.shortestP = env.ar.ofNat 0 := by
  cases h with
  | new h => obtain ⟨_, rev, rfl, _⟩ := new_inv h; rfl
  | @reset draws S0 _ _ hr =>
    simp only [Perc.reset] at hr
    cases h1 : Perc.resetBase S0 draws with
    | error e => rw [h1] at hr; cases hr
    | ok T => rw [h1] at hr; rw [← Except.ok.inj hr]

theorem Fresh.start {v : Variant} {S : Perc α} (h : Fresh env v L S) : Start env v L S := by
  cases h with
  | new h => exact .new h
  | reset h hr => exact .reset h.reach hr

/-- A custom order for which the run stops: the first row of a `3 × 3` lattice, after some other site. -/
example : ∃ (S S' : Perc Unit) (pre : List Nat), Trace demoEnv .sp 3 S pre ∧ S.spRunOnce demoEnv 9 = .ok S' ∧ S'.selectionFlag = some .success ∧
    S'.occupiedCount = 4 := by
  obtain ⟨S, q, T, h⟩ := checkTrace_trace (env := demoEnv) (v := .sp) (L := 3) (ids := [4, 2, 0, 1, 8]) (n := 0)
    (p := fun S _ => match S.spRunOnce demoEnv 9 with
      | .ok S' => decide (S'.selectionFlag = some .success) && decide (S'.occupiedCount = 4)
      | .error _ => false) (by decide +kernel)
  cases e : S.spRunOnce demoEnv 9 with
  | error x => rw [e] at h; cases h
  | ok S' =>
    rw [e] at h
    simp only [Bool.and_eq_true, decide_eq_true_eq] at h
    exact ⟨S, S', q, T, e, h⟩

/-! ### C40 -/

/-- The run of an object that works through a list of distinct sites. -/
theorem L0Ready.spRunOnce {ids : List Nat} (hnd : ids.Nodup) (T : Trace env .sp L S []) (H : L0Ready L S ids 0) (hf : ids.length < fuel) :
    ∃ S' n, S.spRunOnce env fuel = .ok S' ∧ n ≤ ids.length ∧ Trace env .sp L S' (ids.take n) ∧
      (∀ i k, i + 1 < n → ids[i]? = some k → ¬ Straight L (ids.take (i + 1)) k) ∧
      (S'.selectionFlag = some .success ∧ S'.shortestP = S'.occupationProb env ∧ 0 < n ∧ (∃ k, ids[n - 1]? = some k ∧ Straight L (ids.take n) k) ∨
       S'.selectionFlag = some .emptySiteList ∧ S'.shortestP = S.shortestP ∧ n = ids.length ∧
        ∀ i k, ids[i]? = some k → ¬ Straight L (ids.take (i + 1)) k) := by
  obtain ⟨S', b, n, e, R, h1, h2⟩ := spLoop_ready (env := env) hnd fuel (i := 0) (by simpa using T) H (by omega)
  have R := R.first false
  simp only [List.take_zero, List.drop_zero, Nat.zero_add] at R h1 h2
  refine ⟨{ S' with firstRun := false }, n, by rw [Perc.spRunOnce, e]; rfl, h1, by simpa using R.trace, ?_, ?_⟩
  · intro i k hi hk
    have := R.before i k (by rw [List.getElem?_take, if_pos (by omega)]; exact hk) (Or.inl (by simp; omega))
    rwa [List.nil_append, List.take_take, Nat.min_eq_left (by omega)] at this
  · cases b with
    | true =>
      left
      obtain ⟨k, g1, g2, g3, g4, g5⟩ := R.last rfl
      have hn : 0 < n := by
        rcases Nat.eq_zero_or_pos n with rfl | h
        · simp at g1
        · exact h
      refine ⟨g4, g5, hn, k, ?_, by simpa using g3⟩
      rw [List.getLast?_eq_getElem?, List.length_take, Nat.min_eq_left h1, List.getElem?_take, if_pos (by omega)] at g1
      exact g1
    | false =>
      right
      obtain ⟨g1, g2⟩ := R.none rfl
      have hn := h2 rfl
      refine ⟨g2, g1, hn, ?_⟩
      intro i k hk
      have hil := (List.getElem?_eq_some_iff.1 hk).1
      have := R.before i k (by rw [List.getElem?_take, if_pos (by omega)]; exact hk) (Or.inr rfl)
      rwa [List.nil_append, List.take_take, Nat.min_eq_left (by omega)] at this

/-- C40, what the code does: `run_once` on any list of distinct sites places them in order and stops exactly at the first site whose own
row or own column is then completely contained in the wrapping cluster; if there is no such site it places the whole list. -/
theorem C40_exact {ids : List Int} (hS : Start env .sp L S) (hne : ids ≠ []) (hids : ∀ i ∈ ids, 0 ≤ i ∧ i < (L : Int) * L) (hnd : ids.Nodup)
    (draws : Nat → Nat) (hf : ids.length < fuel) :
    ∃ S1 S' n, S.setCustomIds ids false draws = .ok S1 ∧ S1.spRunOnce env fuel = .ok S' ∧
      Trace env .sp L S' ((ids.map Int.toNat).take n) ∧ n ≤ ids.length ∧
      (∀ i k, i + 1 < n → (ids.map Int.toNat)[i]? = some k → ¬ Straight L ((ids.map Int.toNat).take (i + 1)) k) ∧
      (S'.selectionFlag = some .success ∧ 0 < n ∧ (∃ k, (ids.map Int.toNat)[n - 1]? = some k ∧ Straight L ((ids.map Int.toNat).take n) k) ∨
       S'.selectionFlag = some .emptySiteList ∧ n = ids.length ∧
        ∀ i k, (ids.map Int.toNat)[i]? = some k → ¬ Straight L ((ids.map Int.toNat).take (i + 1)) k) := by
  obtain ⟨S1, e1, H, T, _⟩ := hS.setIds hne hids draws
  have hnd' : (ids.map Int.toNat).Nodup := by
    refine List.Nodup.map_on ?_ hnd
    intro a ha b hb hab
    have := hids a ha; have := hids b hb
    omega
  obtain ⟨S', n, e2, h1, h2, h3, h4⟩ := H.spRunOnce (fuel := fuel) hnd' T (by simpa using hf)
  rw [List.length_map] at h1 h4
  exact ⟨S1, S', n, e1, e2, h2, h1, h3, h4.imp (fun h => ⟨h.1, h.2.2.1, h.2.2.2⟩) (fun h => ⟨h.1, h.2.2.1, h.2.2.2⟩)⟩

/-- C40, the stopping point is never too early: the wrapping cluster contains a complete row or column. -/
theorem C40_not_early (T : Trace env .sp L S pre) (h : S.spRunOnce env fuel = .ok S') (hs : S'.selectionFlag = some .success) :
    ∃ seq, Trace env .sp L S' seq ∧ AnyStraight L seq := by
  obtain ⟨seq, b, R⟩ := spRunOnce_run T h
  obtain ⟨k, h1, _, h3, _⟩ := R.last (R.stopped.2 hs)
  exact ⟨_, R.trace, h3.any (R.trace.seq_lt k (List.mem_append_right _ (List.mem_of_getLast? h1)))⟩

/-- C40: `scan_all_cols() or scan_all_rows()` is the exact test, for any class and history with detection. -/
theorem C40_scan_all {v : Variant} {seq : List Nat} (T : Trace env v L S seq) :
    S.scanAllCols = .ok true ∨ S.scanAllRows = .ok true ↔ AnyStraight L seq := (scanAll_iff T).2.2

/-- The order of the counterexample on the `5 × 5` lattice: a wrapping zigzag in the first two rows, the fourth row as a separate
cluster, the site `(2, 2)` joining them, and one more site. -/
def zigzag : List Nat := [0, 1, 6, 7, 8, 9, 4, 15, 16, 17, 18, 19, 12, 24]

/-- After the site `(2, 2)` the wrapping cluster contains the complete fourth row. -/
theorem zigzag_any : AnyStraight 5 (zigzag.take 13) := by
  obtain ⟨S, q, T, h⟩ := checkTrace_trace (env := demoEnv) (v := .sp) (L := 5) (ids := zigzag.map Int.ofNat) (n := 13)
    (p := fun S q => isOk S.scanAllCols true && decide (q = zigzag.take 13)) (by decide +kernel)
  simp only [Bool.and_eq_true, decide_eq_true_eq, isOk_iff] at h
  obtain ⟨h1, rfl⟩ := h
  exact (C40_scan_all T).1 (Or.inl h1)

/-- The run of the counterexample, for one environment. -/
def zigzagRun : Py (Perc Unit) := do
  let S ← Perc.new demoEnv 5 (fun _ => 0)
  let S ← S.setCustomIds (zigzag.map Int.ofNat) false (fun _ => 0)
  S.spRunOnce demoEnv 15

/-- At no stage the wrapping cluster contains the row or the column of the site just placed. -/
theorem zigzag_none : ∀ i k, zigzag[i]? = some k → ¬ Straight 5 (zigzag.take (i + 1)) k := by
  have hrun : (match zigzagRun with | .ok S => decide (S.selectionFlag = some .emptySiteList) | .error _ => false) = true := by decide +kernel
  obtain ⟨S0, e0, _⟩ := fresh_exists demoEnv .sp (L := 5) (by omega) (fun _ => 0)
  obtain ⟨S1, S', n, e1, e2, _, _, _, h⟩ := C40_exact (fuel := 15) (ids := zigzag.map Int.ofNat) (.new e0) (by decide) (by decide) (by decide)
    (fun _ => 0) (by decide)
  have : zigzagRun = .ok S' := by
    simp only [zigzagRun, e0, bind, Except.bind, e1, e2]
  rw [this] at hrun
  simp only [decide_eq_true_eq] at hrun
  rcases h with h | h
  · rw [h.1] at hrun; cases hrun
  · exact h.2.2

/-- C40 is false: in every environment and from every start, with the site order `zigzag` the wrapping cluster contains a complete row
after 13 placements (so `scan_all_cols()` is True there), but `run_once` places all 14 sites and reports no shortest path. -/
theorem C40_not_first (hS : Start env .sp 5 S) (draws : Nat → Nat) :
    AnyStraight 5 (zigzag.take 13) ∧ ∃ S1 S', S.setCustomIds (zigzag.map Int.ofNat) false draws = .ok S1 ∧ S1.spRunOnce env 15 = .ok S' ∧
      Trace env .sp 5 S' zigzag ∧ S'.selectionFlag = some .emptySiteList ∧ S'.shortestP = env.ar.ofNat 0 := by
  refine ⟨zigzag_any, ?_⟩
  obtain ⟨S1, e1, H, T, _⟩ := hS.setIds (ids := zigzag.map Int.ofNat) (by decide) (by decide) draws
  have hz : (zigzag.map Int.ofNat).map Int.toNat = zigzag := by decide
  rw [hz] at H
  obtain ⟨S', n, e2, h1, h2, h3, h4⟩ := H.spRunOnce (fuel := 15) (by decide) T (by decide)
  rcases h4 with ⟨_, _, h0, k, hk, hs⟩ | ⟨g1, g2, rfl, _⟩
  · refine absurd hs ?_
    have := zigzag_none (n - 1) k hk
    rwa [Nat.sub_add_cancel h0] at this
  · rw [List.take_length] at h2
    refine ⟨S1, S', e1, e2, h2, g1, ?_⟩
    obtain ⟨_, A, M, hA⟩ := hS.reach.sim
    have e := setIds_off M (ids := zigzag.map Int.ofNat) (by decide) (by decide) draws
    rw [e] at e1
    rw [g2, ← Except.ok.inj e1]
    exact hS.shortest

example : ∃ S, Start demoEnv .sp 5 S := (fresh_exists demoEnv .sp (by omega) (fun _ => 0)).elim fun _ h => ⟨_, .new h.1⟩

/-! ### C41 -/

theorem Fresh.shortest {S : Perc α} (h : Fresh env .sp L S) : S.shortestP = env.ar.ofNat 0 := h.start.shortest

/-- With all sites occupied the wrapping cluster is the whole lattice. -/
theorem full_straight {seq : List Nat} {v : Variant} (hL : 3 ≤ L) (T : Trace env v L S seq) (hfull : ∀ s < L * L, S.Occ s) {k : Nat} (hk : k < L * L) :
    Straight L seq k := by
  obtain ⟨haw, hs, _⟩ := C26_full_lattice hL T hfull
  have hin : ∀ s < L * L, InWrap L seq s := by
    intro s h
    obtain ⟨_, A, M, hA, I⟩ := T.sim
    refine (I.inWrap_iff hA (by rw [← M.aw]; exact haw) h).1 ?_
    have := hs s h
    rw [M.siteGid h, M.wid] at this
    exact Except.ok.inj this
  exact ⟨T.aw_iff.1 haw, Or.inl fun c hc => hin _ (rc_lt (Nat.div_lt_of_lt_mul hk) hc)⟩

/-- C41: for `L ≥ 3`, in the default mode (new object or after `reset`), `run_once` always finds a shortest path. -/
theorem C41_found (hL : 3 ≤ L) (h : Fresh env .sp L S) (hf : L * L < fuel) :
    ∃ S', S.spRunOnce env fuel = .ok S' ∧ S'.selectionFlag = some .success ∧ S'.shortestP = S'.occupationProb env ∧
      (S'.scanAllCols = .ok true ∨ S'.scanAllRows = .ok true) := by
  obtain ⟨hp, H⟩ := h.perm rfl
  have hl : S.siteIds.length = L * L := by rw [hp.length_eq, List.length_range]
  obtain ⟨S', n, e, h1, h2, _, h4⟩ := H.spRunOnce (fuel := fuel) (hp.nodup_iff.2 List.nodup_range) h.trace (by omega)
  rcases h4 with h4 | ⟨g1, g2, rfl, g3⟩
  · exact ⟨S', e, h4.1, h4.2.1, (C39_values h.trace e h4.1).1⟩
  · rw [List.take_length] at h2
    have h0 : 0 < L * L := Nat.mul_pos (by omega) (by omega)
    have hlt : S.siteIds.length - 1 < S.siteIds.length := by omega
    have := g3 _ _ (List.getElem?_eq_getElem hlt)
    rw [Nat.sub_add_cancel (by omega), List.take_length] at this
    refine absurd (full_straight hL h2 (fun s hs => ?_) ?_) this
    · exact (h2.reports.occ s).2 (hp.mem_iff.2 (List.mem_range.2 hs))
    · exact H.lt _ (List.getElem_mem hlt)

/-- C41 in exact arithmetic: `0 < get_pc() ≤ get_shortest_path_p() ≤ 1`. -/
theorem C41_bounds {so : SetOrder} {S : Perc ℝ} (hL : 3 ≤ L) (h : Fresh (realEnv so) .sp L S) (hf : L * L < fuel) :
    ∃ S', S.spRunOnce (realEnv so) fuel = .ok S' ∧ 0 < S'.getPc (realEnv so) ∧ S'.getPc (realEnv so) ≤ S'.shortestP ∧ S'.shortestP ≤ 1 := by
  obtain ⟨S', e, h1, _⟩ := C41_found hL h hf
  exact ⟨S', e, C39_pc_le h.trace e h1⟩

/-- C41: for `L ≤ 2` it never finds one: all sites are placed and `get_shortest_path_p()` is 0. -/
theorem C41_small (hL : L < 3) (h : Fresh env .sp L S) (hf : L * L < fuel) :
    ∃ S', S.spRunOnce env fuel = .ok S' ∧ S'.selectionFlag = some .emptySiteList ∧ S'.shortestP = env.ar.ofNat 0 ∧
      S'.getPc env = env.ar.ofNat 0 ∧ (∀ s < L * L, S'.Occ s) := by
  obtain ⟨hp, H⟩ := h.perm rfl
  have hl : S.siteIds.length = L * L := by rw [hp.length_eq, List.length_range]
  obtain ⟨S', n, e, h1, h2, _, h4⟩ := H.spRunOnce (fuel := fuel) (hp.nodup_iff.2 List.nodup_range) h.trace (by omega)
  rcases h4 with ⟨_, _, _, k, _, hs⟩ | ⟨g1, g2, rfl, g3⟩
  · have := hs.1.1; omega
  · rw [List.take_length] at h2
    refine ⟨S', e, g1, g2.trans h.shortest, ?_, fun s hs => (h2.reports.occ s).2 (hp.mem_iff.2 (List.mem_range.2 hs))⟩
    rw [Perc.getPc, if_neg]
    intro ha
    have := (h2.aw_iff.1 ha).1
    omega

/-- Such objects exist for every length and every shuffle. -/
example (env : Env α) (draws : Nat → Nat) : ∃ S S', Perc.new env 4 draws = .ok S ∧ S.spRunOnce env 17 = .ok S' ∧ S'.selectionFlag = some .success := by
  obtain ⟨S, e, F⟩ := fresh_exists env .sp (L := 4) (by omega) draws
  obtain ⟨S', e', h, _⟩ := C41_found (fuel := 17) (by omega) F (by omega)
  exact ⟨S, S', e, e', h⟩

end SqPerc
