import Verif.Props.Launch
import Verif.Props.Mean
import Verif.Proof.Arrays
/-
C83: the class ShortestPathAfter_pc given to the drivers that write entropies.
-/
namespace SqPerc

section any
variable {α : Type} {L : Nat} {env : Env α} {S S' : Perc α}

/-- `get_entropy_array()`, `get_order_param_largest_array()`, `get_order_param_wrapping_array()` and `get_occupation_prob_array()` are empty. -/
def Blank (S : Perc α) : Prop := S.occProbList = [] ∧ S.entropyList = [] ∧ S.orderLargestList = [] ∧ S.orderWrapList = []

theorem Blank.array (h : Blank S) : S.getDataArray = .ok [] := by
  simp only [Perc.getDataArray, h.1, h.2.1, h.2.2.1, h.2.2.2]
  rfl

theorem Blank.reset (h : Blank S) {v : Variant} {draws : Nat → Nat} (e : S.reset env v draws = .ok S') : Blank S' := by
  obtain ⟨h1, h2, h3, _, h4⟩ := reset_lists e
  refine ⟨?_, h1, h3, h2⟩
  rw [h4, h.1, ite_self]

/-- `run_once` of the shortest path class records nothing. -/
theorem Blank.spRun (h : Blank S) (hS : ∃ A, Sim env L S A ∧ AReach env L A) {fuel : Nat} (e : S.spRunOnce env fuel = .ok S') : Blank S' := by
  obtain ⟨S1, b, e1, rfl⟩ := spRunOnce_inv e
  have := spLoop_ind (env := env) (fun T => Blank T ∧ ∃ A, Sim env L T A ∧ AReach env L A)
    (by
      rintro T T' d b ⟨q, A, M, hA⟩ h
      have X := (placeOneSite_sim M hA.inv h).1
      obtain ⟨A', h1, h2⟩ := placeOneSite_steps M hA.inv h
      exact ⟨⟨X.occProb.trans q.1, X.entList.trans q.2.1, X.olList.trans q.2.2.1, X.owList.trans q.2.2.2⟩, A', h2, hA.steps h1⟩)
    (by
      rintro T T' w ⟨q, A, M, hA⟩ h
      obtain ⟨X, _, _, A', h1, h2, _⟩ := detectWrapping_steps M hA.inv h
      exact ⟨⟨X.occProb.trans q.1, X.entList.trans q.2.1, X.olList.trans q.2.2.1, X.owList.trans q.2.2.2⟩, A', h2, hA.steps h1⟩)
    (by
      rintro T p ⟨q, A, M, hA⟩
      exact ⟨q, A, M.aux rfl rfl rfl rfl rfl rfl rfl rfl rfl rfl rfl rfl rfl rfl, hA⟩)
    fuel ⟨h, hS⟩ e1
  exact this.1

theorem Realised.blank {rs : List RunDraws} {Ss : List (Perc α)} (hR : Realised env .sp S rs Ss) : DefReach env .sp L S → Blank S →
    ∀ T ∈ Ss, Blank T ∧ ∃ q, Trace env .sp L T q := by
  induction hR with
  | nil => intro _ _ T hT; cases hT
  | @cons S S1 S2 r rs Ss h1 h2 _ ih =>
    intro D B T hT
    have F : Fresh env .sp L S1 := .reset D h1
    have h2' : S1.spRunOnce env r.fuel = .ok S2 := h2
    obtain ⟨_, A, M, hA, _⟩ := F.trace.sim
    have B2 : Blank S2 := (B.reset h1).spRun ⟨A, M, hA⟩ h2'
    rcases List.mem_cons.1 hT with rfl | hT
    · obtain ⟨q, _, R⟩ := spRunOnce_run F.trace h2'
      exact ⟨B2, _, R.trace⟩
    · exact ih (.step (.runOnce r.fuel r.steps) rfl F.defReach h2) B2 T hT

theorem Realised.step {v : Variant} {S S1 S2 : Perc α} {r : RunDraws} (h1 : S.reset env v r.shuffle = .ok S1) (h2 : S1.runOnceV env v r.fuel r.steps = .ok S2) :
    realisation env v S r = .ok S2 := by
  simp only [realisation]
  rw [h1]
  exact h2

theorem blank_loop {rs : List RunDraws} {Ss : List (Perc α)} (hR : Realised env .sp S rs Ss) :
    (∀ T ∈ Ss, Blank T) → ∀ crit, ∃ E, ensembleLoop env .sp false rs S (some []) crit = .ok (E, some [], crit ++ Ss.map (critRow env)) ∧
      ensembleThreadsLoop env .sp rs S (some []) = .ok (some []) := by
  induction hR with
  | @nil S => intro _ crit; exact ⟨S, by rw [ensembleLoop]; simp, rfl⟩
  | @cons S S1 S2 r rs Ss h1 h2 _ ih =>
    intro hB crit
    obtain ⟨E, e, e'⟩ := ih (fun T hT => hB T (List.mem_cons_of_mem _ hT)) (crit ++ [critRow env S2])
    refine ⟨E, ?_, ?_⟩
    · simp only [ensembleLoop]
      rw [Realised.step h1 h2]
      simp only [bind, Except.bind, (hB S2 (List.mem_cons_self ..)).array]
      have : addArrays env ([] : List (List α)) [] = .ok [] := rfl
      simp only [this]
      rw [← List.append_cons] at e
      simpa using e
    · simp only [ensembleThreadsLoop]
      rw [Realised.step h1 h2]
      simp only [bind, Except.bind, (hB S2 (List.mem_cons_self ..)).array]
      exact e'

theorem sp_realised (rs : List RunDraws) (hf : ∀ r ∈ rs, L * L < r.fuel) :
    ∀ {S : Perc α}, DefReach env .sp L S → ∃ Ss, Realised env .sp S rs Ss := by
  induction rs with
  | nil => intro S _; exact ⟨[], .nil⟩
  | cons r rs ih =>
    intro S hS
    obtain ⟨S1, e1, _⟩ := hS.live.reset r.shuffle
    have F : Fresh env .sp L S1 := .reset hS e1
    obtain ⟨hp, R⟩ := F.perm rfl
    obtain ⟨S2, n, e2, _⟩ := R.spRunOnce (env := env) (hp.nodup_iff.2 List.nodup_range) F.trace (fuel := r.fuel)
      (by rw [hp.length_eq, List.length_range]; exact hf r (List.mem_cons_self ..))
    have e2' : S1.runOnceV env .sp r.fuel r.steps = .ok S2 := e2
    obtain ⟨Ss, h⟩ := ih (fun r hr => hf r (List.mem_cons_of_mem _ hr)) (.step (.runOnce r.fuel r.steps) rfl F.defReach e2')
    exact ⟨S2 :: Ss, .cons e1 e2' h⟩

theorem new_blank {ctor : Nat → Nat} {S0 : Perc α} (e0 : Perc.new env L ctor = .ok S0) : Blank S0 := by
  obtain ⟨_, rev, hS0, _⟩ := new_inv e0
  rw [hS0]
  exact ⟨rfl, rfl, rfl, rfl⟩

/-- C83: the drivers for entropies, given ShortestPathAfter_pc and at least one realisation: `run_ensemble_entropy_order` raises IndexError in the
first realisation; the two thread functions get through, their table has no rows and there is one row of critical values for each realisation. -/
theorem C83_drivers (hL : 0 < L) (ctor : Nat → Nat) {rs : List RunDraws} (hne : rs ≠ []) (hf : ∀ r ∈ rs, L * L < r.fuel) :
    ∃ S0 Ss, Perc.new env L ctor = .ok S0 ∧ Realised env .sp S0 rs Ss ∧ runEnsemble env .sp true L ctor rs = .error .indexError ∧
      runEnsemble env .sp false L ctor rs = .ok ([], Ss.map fun S => ⟨S.getPc env, S.getSiteCountPc, S.getBondCountPc⟩) ∧
      runEnsembleThreads env .sp L ctor rs = .ok [] := by
  obtain ⟨S0, e0, F⟩ := fresh_exists env .sp hL ctor
  obtain ⟨Ss, hR⟩ := sp_realised rs hf F.defReach
  have hB := fun T hT => (hR.blank F.defReach (new_blank e0) T hT).1
  refine ⟨S0, Ss, e0, hR, ?_⟩
  cases hR with
  | nil => exact absurd rfl hne
  | @cons _ S1 S2 r rs Ss h1 h2 h3 =>
    obtain ⟨E, e, e'⟩ := blank_loop h3 (fun T hT => hB T (List.mem_cons_of_mem _ hT)) [critRow env S2]
    have hA := (hB S2 (List.mem_cons_self ..)).array
    refine ⟨?_, ?_, ?_⟩
    · simp only [runEnsemble, e0, bind, Except.bind, ensembleLoop, Realised.step h1 h2, hA]
      rfl
    · simp only [runEnsemble, e0, bind, Except.bind, ensembleLoop, Realised.step h1 h2, hA]
      have e2 : ensembleLoop env .sp false rs S2 (some []) [critRow env S2] = .ok (E, some [], (S2 :: Ss).map (critRow env)) := e
      simp only [Bool.false_eq_true, if_false, List.nil_append]
      simp only [e2]
      rfl
    · simp only [runEnsembleThreads, e0, bind, Except.bind, ensembleThreadsLoop, Realised.step h1 h2, hA, e']
      rfl

end any

section real
variable {L : Nat} {so : SetOrder}

/-- The critical values of a run that worked through a part of the order `q` that wraps, or on a lattice that is too small. -/
theorem critOf_prefix {v : Variant} {S : Perc ℝ} {q : List Nat} {m : Nat} (T : Trace (realEnv so) v L S (q.take m))
    (hw : 3 ≤ L → Wraps L (· ∈ q.take m)) : CritOf L q (critRow (realEnv so) S) := by
  unfold CritOf
  split
  · next hL3 =>
    obtain ⟨pre, k, post, g1, g2, g3, g4, g5, g6⟩ := (C21_critical_values hL3 T).1 (hw hL3)
    refine ⟨pre, k, post ++ q.drop m, ?_, g2, ⟨k, g3⟩, g4, g5, g6 _⟩
    conv_lhs => rw [← List.take_append_drop m q, g1]
    simp
  · next hL3 =>
    obtain ⟨_, A, M, hA, _⟩ := T.sim
    have hf := (hA.wrap.flat (by omega)).2
    obtain ⟨_, o2, o3, o4⟩ := hA.wrap.off hf
    refine ⟨?_, ?_, ?_⟩
    · show S.getPc (realEnv so) = 0
      rw [Perc.getPc, M.aw, hf]; exact Nat.cast_zero
    · show S.getSiteCountPc = 0
      rw [Perc.getSiteCountPc, M.pcs, o3]
    · show S.getBondCountPc = 0
      rw [Perc.getBondCountPc, M.pcb, o2]

/-- A placement order has one row of critical values. -/
theorem CritOf.unique {q : List Nat} {r r' : CritRow ℝ} (h : CritOf L q r) (h' : CritOf L q r') : r = r' := by
  unfold CritOf at h h'
  obtain ⟨a, b, c⟩ := r
  obtain ⟨a', b', c'⟩ := r'
  by_cases hL : 3 ≤ L
  · rw [if_pos hL] at h h'
    obtain ⟨pre, k, post, rfl, h1, h2, h3, h4, h5⟩ := h
    obtain ⟨pre', k', post', e, h1', h2', h3', h4', h5'⟩ := h'
    obtain ⟨rfl, rfl, rfl⟩ := first_unique e h1 h2 h1' h2'
    simp only at h3 h4 h5 h3' h4' h5'
    rw [h3, h4, h5, h3', h4', h5']
  · rw [if_neg hL] at h h'
    simp only at h h'
    rw [h.1, h.2.1, h.2.2, h'.1, h'.2.1, h'.2.2]

/-- C83: with the same random numbers the critical values written for ShortestPathAfter_pc are those written for SitePercolationL0, although its runs
stop earlier. -/
theorem C83_same_critical (hL : 0 < L) (ctor : Nat → Nat) {rs : List RunDraws} (hne : rs ≠ []) (hf : ∀ r ∈ rs, 5 * (L * L) < r.fuel) :
    ∃ d crit, runEnsemble (realEnv so) .l0 false L ctor rs = .ok (d, crit) ∧ d.length = L * L ∧
      runEnsemble (realEnv so) .sp false L ctor rs = .ok ([], crit) := by
  have hf' : ∀ r ∈ rs, L * L < r.fuel := fun r hr => by have := hf r hr; omega
  obtain ⟨Ts, d, hran, e1, _⟩ := ensemble_orders (so := so) hL false ctor hne hf
  obtain ⟨S0, Ss, e0, hR, _, e2, _⟩ := C83_drivers (env := realEnv so) hL ctor hne hf'
  have hd : d.length = L * L := by
    obtain ⟨_, _, _, _, d', _, _, _, _, k1, _, k2, _⟩ := C42_entrywise_mean (env := realEnv so) (v := .l0) (by decide) hL false ctor hne hf
    have := Except.ok.inj (e1.symm.trans k1)
    rw [show d = d' from congrArg Prod.fst this]; exact k2
  refine ⟨d, Ts.map (critRow (realEnv so)), e1, hd, ?_⟩
  rw [e2]
  congr 2
  have F : Fresh (realEnv so) .sp L S0 := .new e0
  have hids : S0.siteIds = pyShuffle ctor (List.range (L * L)) := by
    obtain ⟨rev, e, _⟩ := new_ok (realEnv so) hL ctor
    rw [e] at e0
    rw [← Except.ok.inj e0]
  have h2 : List.Forall₂ (fun S q => CritOf L q (critRow (realEnv so) S)) Ts (shuffleOrders (pyShuffle ctor (List.range (L * L))) (rs.map (·.shuffle))) :=
    hran.imp fun S q h => critOf_prefix (m := q.length) (by rw [List.take_length]; exact h.trace) fun h3 => by
      rw [List.take_length]; exact full_wraps (by omega) fun s hs => h.perm.mem_iff.2 (List.mem_range.2 hs)
  have h1 : List.Forall₂ (fun S q => CritOf L q (critRow (realEnv so) S)) Ss (shuffleOrders (pyShuffle ctor (List.range (L * L))) (rs.map (·.shuffle))) := by
    rcases Nat.lt_or_ge L 3 with h3 | h3
    · have hlen : Ss.length = (shuffleOrders (pyShuffle ctor (List.range (L * L))) (rs.map (·.shuffle))).length := by
        rw [hR.length, shuffleOrders_length, List.length_map]
      refine List.forall₂_iff_zip.2 ⟨hlen, fun {S q} hm => ?_⟩
      obtain ⟨_, q', T⟩ := hR.blank F.defReach (new_blank e0) S (List.of_mem_zip hm).1
      have := critOf_prefix (m := q'.length) (q := q') (by rw [List.take_length]; exact T) (fun h => by omega)
      unfold CritOf at this ⊢
      rw [if_neg (by omega)] at this ⊢
      exact this
    · have := hR.spRan h3 F.defReach hf'
      rw [hids] at this
      refine this.imp fun S q h => ?_
      obtain ⟨m, T, hw⟩ := h.run
      exact critOf_prefix T fun _ => hw
  clear hran e1 e2 hR
  generalize shuffleOrders (pyShuffle ctor (List.range (L * L))) (rs.map (·.shuffle)) = qs at h1 h2
  clear hne hf hf'
  induction h1 generalizing Ts with
  | nil => cases h2; rfl
  | cons a _ ih =>
    cases h2 with
    | cons b h2 =>
      rw [List.map_cons, List.map_cons]
      congr 1
      · exact CritOf.unique a b
      · exact ih _ h2

/-- C83: a worker of `run_ensemble_entropy_order_threads_v2` or `run_ensemble_entropy_order_threads` with ShortestPathAfter_pc: the table file has a
header and no rows, the file of critical values is that of L0. -/
theorem C83_worker (hL : 0 < L) {n : Int} (hn : 0 < n) (i : Nat) {o : Outside} (hf : ∀ j, 5 * (L * L) < (o.runs j).fuel) :
    ∃ d crit, entropyWorker (realEnv so) true .sp L n i o = .ok [(fileName .sp .entropyOrder L o.time (some i), .table n []),
        (fileName .sp .criticalValues L o.time (some i), .critical n crit)] ∧
      entropyWorker (realEnv so) true .l0 L n i o = .ok [(fileName .l0 .entropyOrder L o.time (some i), .table n d),
        (fileName .l0 .criticalValues L o.time (some i), .critical n crit)] ∧ d.length = L * L ∧ crit.length = n.toNat ∧
      threadWorker (realEnv so) true (.cls .sp) L n i o = .ok [(fileName .sp .entropyOrder L o.time (some i), .table n [])] := by
  obtain ⟨d, crit, h1, h2, h3⟩ := C83_same_critical (so := so) hL o.ctor (o.take_ne hn) (Outside.take_fuel hf)
  obtain ⟨_, Ss, _, hR, _, h4, h5⟩ := C83_drivers (env := realEnv so) hL o.ctor (o.take_ne hn)
    (Outside.take_fuel (o := o) (F := L * L) fun j => by have := hf j; omega)
  have hc : crit.length = n.toNat := by
    rw [h3] at h4
    rw [show crit = _ from congrArg Prod.snd (Except.ok.inj h4), List.length_map, hR.length, o.take_length]
  refine ⟨d, crit, ?_, ?_, h2, hc, ?_⟩
  · simp only [entropyWorker]
    rw [show FileClass.sp.variant = .sp from rfl, h3]
    rfl
  · simp only [entropyWorker]
    rw [show FileClass.l0.variant = .l0 from rfl, h1]
    rfl
  · simp only [threadWorker]
    rw [show FileClass.sp.variant = .sp from rfl, h5]
    rfl

end real

/-- C83: the file that `single_realization(ShortestPathAfter_pc, L)` writes lists every site once as if all had been placed, and no entropies or
order parameters, so that the test of such a file compares nothing but the critical values. -/
theorem C83_single {α : Type} (env : Env α) {L : Nat} (hL : 0 < L) {o : Outside} (hf : L * L < (o.runs 0).fuel) :
    ∃ f : CrossFile α, singleFile env true .sp L o = .ok [(fileName .sp .crossCheck L o.time none, .cross f)] ∧
      f.siteIdSequence.Perm (List.range (L * L)) ∧ f.siteIndexSequence = (f.siteIdSequence.map (rowCol L)).map (fun p => [p.1, p.2]) ∧
      f.entropyList = [] ∧ f.orderLargestList = [] ∧ f.orderWrappingList = [] := by
  obtain ⟨S0, e0, F0⟩ := fresh_exists env .sp hL o.ctor
  obtain ⟨Ss, hR⟩ := sp_realised [o.runs 0] (by simpa using hf) F0.defReach
  have hB := hR.blank F0.defReach (new_blank e0)
  cases hR with
  | @cons _ S1 S2 r rs Ss h1 h2 h3 =>
    obtain ⟨⟨_, b2, b3, b4⟩, _⟩ := hB S2 (List.mem_cons_self ..)
    have F : Fresh env .sp L S1 := .reset F0.defReach h1
    have R2 : Reach env .sp L S2 := .step (.runOnce (o.runs 0).fuel (o.runs 0).steps) F.defReach.reach h2
    have hidx := indexSequence_ids R2 (by decide)
    have h2' : S1.spRunOnce env (o.runs 0).fuel = .ok S2 := h2
    obtain ⟨V, b, hV, hV'⟩ := spRunOnce_inv h2'
    have hids : S2.siteIds = S1.siteIds := by
      have := spLoop_siteIds (o.runs 0).fuel F.trace hV
      rw [hV']; exact this
    refine ⟨crossFile env S2 S2.siteIds ((S2.siteIds.map (rowCol L)).map fun p => [p.1, p.2]), ?_, ?_, rfl, b2, b3, b4⟩
    · simp only [singleFile, singleRealization, show FileClass.sp.variant = .sp from rfl, e0, bind, Except.bind, Realised.step h1 h2, hidx]
      rfl
    · show S2.siteIds.Perm _
      rw [hids]; exact (F.perm rfl).1

/-- The hypotheses of `C83_drivers` are met by any random numbers; here two realisations on the lattice of length 3. -/
example (ctor sh sh' : Nat → Nat) (ds : Nat → Draw) :
    runEnsemble demoEnv .sp true 3 ctor [⟨sh, ds, 10⟩, ⟨sh', ds, 10⟩] = .error .indexError ∧
    runEnsembleThreads demoEnv .sp 3 ctor [⟨sh, ds, 10⟩, ⟨sh', ds, 10⟩] = .ok [] := by
  obtain ⟨_, _, _, _, h1, _, h2⟩ := C83_drivers (env := demoEnv) (L := 3) (by decide) ctor (rs := [⟨sh, ds, 10⟩, ⟨sh', ds, 10⟩]) (by simp) (by simp)
  exact ⟨h1, h2⟩

/-- A run of the class that stops before all sites are placed, and still the file lists all of them. -/
example : ∃ S0 S2 : Perc Unit, Perc.new demoEnv 3 (fun i => i) = .ok S0 ∧ realisation demoEnv .sp S0 ⟨fun i => i, fun _ => ⟨0, 0⟩, 10⟩ = .ok S2 ∧
    S2.occupiedCount < 9 ∧ S2.siteIds.length = 9 ∧ S2.entropyList = [] := by
  have h : (match Perc.new demoEnv 3 (fun i => i) with
    | .error _ => false
    | .ok S0 => match realisation demoEnv .sp S0 ⟨fun i => i, fun _ => ⟨0, 0⟩, 10⟩ with
      | .error _ => false
      | .ok S2 => decide (S2.occupiedCount < 9) && (S2.siteIds.length == 9) && S2.entropyList.isEmpty) = true := by decide +kernel
  split at h
  · cases h
  · next S0 e0 =>
    split at h
    · cases h
    · next S2 e2 =>
      simp only [Bool.and_eq_true, decide_eq_true_eq, beq_iff_eq, List.isEmpty_iff] at h
      exact ⟨S0, S2, e0, e2, h.1.1, h.1.2, h.2⟩

end SqPerc
