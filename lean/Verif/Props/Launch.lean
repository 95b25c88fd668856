import Verif.Model.Launch
import Verif.Props.Files
import Verif.Props.Ensemble
import Verif.Props.Seed
import Verif.Props.CrossCheck
/-
C78: which files exist after the top-level functions, and what is in them.
-/
namespace SqPerc

section directory
variable {β : Type} {workers : List (Py (List (String × β)))} {D D' : Directory β}

theorem Left.kept (h : Left workers D D') {name : String} (hn : name ∉ (workers.flatMap written).map Prod.fst) : D' name = D name := by
  obtain ⟨ws, hp, rfl⟩ := h
  exact foldl_write_of_not_mem _ _ _ fun hm => hn ((hp.map Prod.fst).mem_iff.1 hm)

theorem Left.stored (h : Left workers D D') (hn : ((workers.flatMap written).map Prod.fst).Nodup) {w : String × β}
    (hw : w ∈ workers.flatMap written) : D' w.1 = some w.2 := by
  obtain ⟨ws, hp, rfl⟩ := h
  exact foldl_write_of_mem _ _ ((hp.map Prod.fst).nodup_iff.2 hn) _ (hp.mem_iff.2 hw)

/-- If every worker raises, the directory is what it was. -/
theorem Left.same (h : Left workers D D') (he : ∀ w ∈ workers, ∃ e, w = .error e) : D' = D := by
  funext name
  refine h.kept fun hm => ?_
  obtain ⟨x, hx, -⟩ := List.mem_map.1 hm
  obtain ⟨w, hw, hx⟩ := List.mem_flatMap.1 hx
  obtain ⟨e, rfl⟩ := he w hw
  cases hx

end directory

section real
variable {so : SetOrder} {L : Nat}

/-- The entropy table of a worker, for the placement orders `qs` of its realisations. -/
noncomputable def meanTable (L : Nat) (qs : List (List Nat)) : List (List ℝ) :=
  (List.range (L * L)).map fun k => [((k + 1 : Nat) : ℝ) / (L * L : Nat),
    meanOver qs fun q => shannon L (· ∈ q.take (k + 1)),
    meanOver qs fun q => (seqLargest L (q.take (k + 1)) : ℝ) / (2 * (L * L) : Nat),
    meanOver qs fun q => (seqWrapping L (q.take (k + 1)) : ℝ) / (2 * (L * L) : Nat)]

theorem Outside.take_length (o : Outside) (n : Int) : (o.take n).length = n.toNat := by simp [Outside.take]

theorem Outside.take_ne (o : Outside) {n : Int} (h : 0 < n) : o.take n ≠ [] := by
  intro e
  have := o.take_length n
  rw [e] at this
  simp at this
  omega

theorem Outside.take_fuel {o : Outside} {n : Int} {F : Nat} (h : ∀ j, F < (o.runs j).fuel) : ∀ r ∈ o.take n, F < r.fuel := by
  intro r hr
  obtain ⟨j, -, rfl⟩ := List.mem_map.1 hr
  exact h j

theorem entropyWorker_ok {c : FileClass} (hc : c ≠ .sp) (hL : 0 < L) {n : Int} (hn : 0 < n) (i : Nat) {o : Outside}
    (hf : ∀ j, 5 * (L * L) < (o.runs j).fuel) :
    ∃ (qs : List (List Nat)) (crit : List (CritRow ℝ)), qs.length = n.toNat ∧ (∀ q ∈ qs, q.Perm (List.range (L * L))) ∧
      List.Forall₂ (CritOf L) qs crit ∧
      entropyWorker (realEnv so) true c L n i o = .ok [(fileName c .entropyOrder L o.time (some i), .table n (meanTable L qs)),
        (fileName c .criticalValues L o.time (some i), .critical n crit)] := by
  have hv : c.variant ≠ .sp := by cases c <;> simp_all [FileClass.variant]
  obtain ⟨qs, crit, h1, h2, h3, h4⟩ := C42_mean (so := so) hv hL false o.ctor (o.take_ne hn) (Outside.take_fuel hf)
  refine ⟨qs, crit, by rw [h1, o.take_length], h2, h4, ?_⟩
  simp only [entropyWorker]
  rw [h3]
  rfl

/-- An ensemble with nothing in it, a lattice of length 0, or no directory `data`: the worker raises. -/
theorem entropyWorker_error {α : Type} {env : Env α} {c : FileClass} {dataDir : Bool} {n : Int} (h : n ≤ 0 ∨ L = 0 ∨ dataDir = false) (i : Nat) (o : Outside) :
    ∃ e, entropyWorker env dataDir c L n i o = .error e := by
  rcases Nat.eq_zero_or_pos L with rfl | hL
  · exact ⟨_, rfl⟩
  rcases h with h | h | rfl
  · refine ⟨.typeError, ?_⟩
    have e : o.take n = [] := List.length_eq_zero_iff.1 (by rw [o.take_length]; omega)
    simp only [entropyWorker]
    rw [e, (C42_empty_raises hL false o.ctor).1]
    rfl
  · omega
  · simp only [entropyWorker]
    cases h : runEnsemble env c.variant false L o.ctor (o.take n) with
    | error e => exact ⟨e, rfl⟩
    | ok q => exact ⟨.fileNotFoundError, rfl⟩

/-- The names of the two files of worker `i`. -/
def tableName (c : FileClass) (L : Nat) (o : Nat → Outside) (i : Nat) : String := fileName c .entropyOrder L (o i).time (some i)
def criticalName (c : FileClass) (L : Nat) (o : Nat → Outside) (i : Nat) : String := fileName c .criticalValues L (o i).time (some i)

theorem pairs_nodup {β : Type} {c : FileClass} {o : Nat → Outside} (ht : ∀ i, (o i).time.Valid) (T : Nat) (f : Nat → β × β) :
    ((((List.range T).map fun i => [(tableName c L o i, (f i).1), (criticalName c L o i, (f i).2)]).flatten).map Prod.fst).Nodup := by
  rw [List.map_flatten, List.map_map, List.nodup_flatten]
  constructor
  · intro l hl
    obtain ⟨i, -, rfl⟩ := List.mem_map.1 hl
    simp only [Function.comp, List.map_cons, List.map_nil, List.nodup_cons, List.mem_singleton, List.not_mem_nil, not_false_eq_true, List.nodup_nil, and_true]
    intro h
    have := ((C62_names_distinct (ht i) (ht i)).1 h).2.1
    cases this
  · rw [List.pairwise_map]
    refine List.Pairwise.imp ?_ (List.nodup_range (n := T))
    intro i j hij
    have no : ∀ k k' : FileKind, fileName c k L (o i).time (some i) ≠ fileName c k' L (o j).time (some j) := fun k k' h =>
      hij (Option.some.inj ((C62_names_distinct (ht i) (ht j)).1 h).2.2.2.2)
    intro x hx hx'
    simp only [Function.comp, List.map_cons, List.map_nil, List.mem_cons, List.not_mem_nil, or_false] at hx hx'
    rcases hx with rfl | rfl <;> rcases hx' with h | h <;> exact no _ _ h

/-- What `run_simulation_threads_v4` and `_v3` leave behind if the workers do not raise. -/
theorem workers_left {c : FileClass} (hc : c ≠ .sp) (hL : 0 < L) {n : Int} (hn : 0 < n) {T : Nat} {o : Nat → Outside} (ht : ∀ i, (o i).time.Valid)
    (hf : ∀ i j, 5 * (L * L) < ((o i).runs j).fuel) {D D' : Directory (FileData ℝ)}
    (h : Left ((List.range T).map fun i => entropyWorker (realEnv so) true c L n i (o i)) D D') :
    (∀ i < T, ∃ (qs : List (List Nat)) (crit : List (CritRow ℝ)), qs.length = n.toNat ∧ (∀ q ∈ qs, q.Perm (List.range (L * L))) ∧
      List.Forall₂ (CritOf L) qs crit ∧
      D' (tableName c L o i) = some (.table n (meanTable L qs)) ∧ D' (criticalName c L o i) = some (.critical n crit)) ∧
    ∀ name, (∀ i < T, name ≠ tableName c L o i ∧ name ≠ criticalName c L o i) → D' name = D name := by
  choose qs crit h1 h2 h3 h4 using fun i => entropyWorker_ok (so := so) hc hL hn i (hf i)
  have e : (((List.range T).map fun i => entropyWorker (realEnv so) true c L n i (o i)).flatMap written) =
      ((List.range T).map fun i => [(tableName c L o i, FileData.table n (meanTable L (qs i))),
        (criticalName c L o i, FileData.critical n (crit i))]).flatten := by
    rw [List.flatMap_map, List.flatMap_def]
    congr 1
    refine List.map_congr_left fun i _ => ?_
    simp only [Function.comp, h4 i, written]
    rfl
  have hnd := pairs_nodup (L := L) (c := c) ht T fun i => (FileData.table n (meanTable L (qs i)), FileData.critical n (crit i))
  have hmem : ∀ i < T, ∀ w ∈ [(tableName c L o i, FileData.table n (meanTable L (qs i))), (criticalName c L o i, FileData.critical n (crit i))],
      D' w.1 = some w.2 := by
    intro i hi w hw
    refine h.stored (by rw [e]; exact hnd) ?_
    rw [e]
    exact List.mem_flatten.2 ⟨_, List.mem_map.2 ⟨i, List.mem_range.2 hi, rfl⟩, hw⟩
  refine ⟨fun i hi => ⟨qs i, crit i, h1 i, h2 i, h3 i, hmem i hi _ List.mem_cons_self,
    hmem i hi _ (List.mem_cons_of_mem _ List.mem_cons_self)⟩, ?_⟩
  intro name hname
  refine h.kept ?_
  rw [e]
  intro hm
  obtain ⟨w, hw, rfl⟩ := List.mem_map.1 hm
  obtain ⟨l, hl, hw⟩ := List.mem_flatten.1 hw
  obtain ⟨i, hi, rfl⟩ := List.mem_map.1 hl
  have := hname i (List.mem_range.1 hi)
  simp only [List.mem_cons, List.not_mem_nil, or_false] at hw
  rcases hw with rfl | rfl
  · exact this.1 rfl
  · exact this.2 rfl

/-- The class that `run_simulation_threads_v4` is documented to use: 1 means L1, 2 means L2, anything else L0. -/
def Simulates (interaction : Int) (c : FileClass) : Prop :=
  (interaction = 1 ∧ c = .l1) ∨ (interaction = 2 ∧ c = .l2) ∨ (interaction ≠ 1 ∧ interaction ≠ 2 ∧ c = .l0)

theorem Simulates.eq {interaction : Int} {c : FileClass} (h : Simulates interaction c) :
    (if interaction = 1 then FileClass.l1 else if interaction = 2 then .l2 else .l0) = c := by
  rcases h with ⟨rfl, rfl⟩ | ⟨rfl, rfl⟩ | ⟨h1, h2, rfl⟩
  · rfl
  · rfl
  · rw [if_neg h1, if_neg h2]

theorem Simulates.ne {interaction : Int} {c : FileClass} (h : Simulates interaction c) : c ≠ .sp := by
  rcases h with ⟨_, rfl⟩ | ⟨_, rfl⟩ | ⟨_, _, rfl⟩ <;> decide

/-- C78: `run_simulation_threads_v4(L, En, T, interaction)` with `1 ≤ T ≤ En` returns; whatever the random numbers and the order in which the
workers end, afterwards there are for each worker `i < T` a table with the means over `En // T` complete placement orders and the critical values of the
same orders, both with the ensemble size `En // T` in the header, and every other file is what it was. -/
theorem C78_v4 (hL : 0 < L) {En T : Nat} (hT : 0 < T) (hE : T ≤ En) {interaction : Int} {c : FileClass} (hc : Simulates interaction c)
    {o : Nat → Outside} (ht : ∀ i, (o i).time.Valid) (hf : ∀ i j, 5 * (L * L) < ((o i).runs j).fuel) :
    ∃ ws, runV4 (realEnv so) true L En T interaction o = .ok ws ∧ ∀ D D' : Directory (FileData ℝ), Left ws D D' →
      (∀ i < T, ∃ (qs : List (List Nat)) (crit : List (CritRow ℝ)), qs.length = En / T ∧ (∀ q ∈ qs, q.Perm (List.range (L * L))) ∧
        List.Forall₂ (CritOf L) qs crit ∧
        D' (fileName c .entropyOrder L (o i).time (some i)) = some (.table (En / T : Nat) (meanTable L qs)) ∧
        D' (fileName c .criticalValues L (o i).time (some i)) = some (.critical (En / T : Nat) crit)) ∧
      ∀ name, (∀ i < T, name ≠ fileName c .entropyOrder L (o i).time (some i) ∧ name ≠ fileName c .criticalValues L (o i).time (some i)) →
        D' name = D name := by
  refine ⟨_, by rw [runV4, if_neg (by omega)], ?_⟩
  intro D D' h
  rw [hc.eq, ← Int.ofNat_fdiv, Int.toNat_natCast] at h
  have hn : (0 : Int) < (En / T : Nat) := by exact_mod_cast Nat.div_pos hE hT
  exact workers_left hc.ne hL hn ht hf h

/-- C78: `_v3` is `_v4` without an interaction. -/
theorem C78_v3 {α : Type} {env : Env α} (dataDir : Bool) (En T : Int) (o : Nat → Outside) {interaction : Int} (h1 : interaction ≠ 1) (h2 : interaction ≠ 2) :
    runV3 env dataDir L En T o = runV4 env dataDir L En T interaction o := by
  simp only [runV3, runV4, if_neg h1, if_neg h2]

/-- C78: with more workers than realisations, a negative number of workers, a lattice of length 0, or without a directory `data`,
`run_simulation_threads_v4` returns as usual and no file is written or changed. -/
theorem C78_v4_nothing {α : Type} {env : Env α} {dataDir : Bool} {En T : Int} (hT : T ≠ 0) (h : En < T ∨ T < 0 ∨ L = 0 ∨ dataDir = false)
    (interaction : Int) (o : Nat → Outside) :
    ∃ ws, runV4 env dataDir L En T interaction o = .ok ws ∧ ∀ D D' : Directory (FileData α), Left ws D D' → D' = D := by
  refine ⟨_, by rw [runV4, if_neg hT], ?_⟩
  intro D D' hl
  refine hl.same fun w hw => ?_
  obtain ⟨i, hi, rfl⟩ := List.mem_map.1 hw
  have hi := List.mem_range.1 hi
  refine entropyWorker_error ?_ i (o i)
  rcases h with h | h | h
  · refine .inl ?_
    have h0 : 0 < T := by omega
    rw [Int.fdiv_eq_ediv_of_nonneg _ (by omega)]
    have := Int.ediv_lt_of_lt_mul h0 (show En < 1 * T by omega)
    omega
  · omega
  · exact .inr h

/-- C78: no worker: ZeroDivisionError. -/
theorem C78_v4_zero {α : Type} {env : Env α} (dataDir : Bool) (En interaction : Int) (o : Nat → Outside) :
    runV4 env dataDir L En 0 interaction o = .error .zeroDivisionError ∧ runV3 env dataDir L En 0 o = .error .zeroDivisionError ∧
    runPathThreads env dataDir L En 0 o = .error .zeroDivisionError := ⟨rfl, rfl, rfl⟩

/-- C78: `run_simulation_threads()` and `run_simulation_threads_v2()` hand the length to the worker where it expects the class: whatever lengths,
ensemble size and number of threads are put in, every thread raises TypeError and no file is written or changed. -/
theorem C78_threads {α : Type} {env : Env α} (dataDir : Bool) (lengths : List Nat) (length threads En En' : Nat) (o : Nat → Outside)
    {D D' : Directory (FileData α)} :
    (∀ w ∈ runV1With env dataDir lengths En o ++ runV2With env dataDir length threads En' o, w = .error .typeError) ∧
    (Left (runV1With env dataDir lengths En o) D D' → D' = D) ∧ (Left (runV2With env dataDir length threads En' o) D D' → D' = D) := by
  have h1 : ∀ w ∈ runV1With env dataDir lengths En o, w = .error .typeError := by
    intro w hw
    obtain ⟨i, hi, rfl⟩ := List.mem_mapIdx.1 hw
    rfl
  have h2 : ∀ w ∈ runV2With env dataDir length threads En' o, w = .error .typeError := by
    intro w hw
    obtain ⟨i, hi, rfl⟩ := List.mem_map.1 hw
    rfl
  exact ⟨fun w hw => (List.mem_append.1 hw).elim (h1 w) (h2 w), fun h => h.same fun w hw => ⟨_, h1 w hw⟩, fun h => h.same fun w hw => ⟨_, h2 w hw⟩⟩

/-- C78: `run_simulation_threads()` starts three threads and `run_simulation_threads_v2()` two; every one of them raises TypeError. -/
theorem C78_fixed_threads {α : Type} (env : Env α) (dataDir : Bool) (o : Nat → Outside) :
    runV1 env dataDir o = [.error .typeError, .error .typeError, .error .typeError] ∧
    runV2 env dataDir o = [.error .typeError, .error .typeError] := ⟨rfl, rfl⟩

/-- C78: started with a class instead, the same worker function writes its table. -/
theorem C78_threads_class {c : FileClass} (hc : c ≠ .sp) (hL : 0 < L) {n : Nat} (hn : 0 < n) (i : Nat) {o : Outside}
    (hf : ∀ j, 5 * (L * L) < (o.runs j).fuel) :
    ∃ d, d.length = L * L ∧ threadWorker (realEnv so) true (.cls c) L n i o = .ok [(fileName c .entropyOrder L o.time (some i), .table n d)] := by
  have hv : c.variant ≠ .sp := by cases c <;> simp_all [FileClass.variant]
  obtain ⟨_, _, _, _, d, _, _, _, _, _, h, hd, _⟩ := C42_entrywise_mean (env := realEnv so) hv hL false o.ctor
    (o.take_ne (n := n) (by omega)) (Outside.take_fuel hf)
  refine ⟨d, hd, ?_⟩
  simp only [threadWorker]
  rw [h]
  rfl

/-- C78: `run_simulations()` writes the means over 100 placement orders of the 5×5 lattice and their critical values, as worker 0; the two files
do not depend on what the generator was used for before. -/
theorem C78_simulations {σ : Type} (G : Rng σ) {fuel : Nat} (hf : 125 < fuel) (g : σ) (t : Stamp) :
    ∃ (qs : List (List Nat)) (crit : List (CritRow ℝ)), qs.length = 100 ∧ (∀ q ∈ qs, q.Perm (List.range (5 * 5))) ∧ List.Forall₂ (CritOf 5) qs crit ∧
      ∀ g' : σ, runSimulations G (realEnv so) true fuel g' t = .ok [(fileName .l0 .entropyOrder 5 t (some 0), .table 100 (meanTable 5 qs)),
        (fileName .l0 .criticalValues 5 t (some 0), .critical 100 crit)] := by
  obtain ⟨ctor, rs, h1, h2, h3⟩ := C61_run_with_generator (G := G) (env := realEnv so) (v := .l0) (L := 5) false fuel 100 (some 0) g
  obtain ⟨qs, crit, k1, k2, k3, k4⟩ := C42_mean (so := so) (v := .l0) (L := 5) (by decide) (by decide) false ctor (rs := rs)
    (by intro e; rw [e] at h1; cases h1) (by intro r hr; rw [h2 r hr]; exact hf)
  refine ⟨qs, crit, by rw [k1, h1], k2, k4, fun g' => ?_⟩
  simp only [runSimulations]
  rw [(C61_seed_reproducible (G := G) (env := realEnv so) (v := .l0) (L := 5) false fuel 100 0 g' g).1, h3, k3]
  rfl

/-- C78: `run_simulation_shortest_path_threads(L, En, T)` writes one file per worker with `En // T` rows `pc ≤ p* ≤ 1`, also when `En // T` is 0
(then there is only the header). -/
theorem C78_shortest_path (hL : 3 ≤ L) {En T : Nat} (hT : 0 < T) {o : Nat → Outside} (ht : ∀ i, (o i).time.Valid)
    (hf : ∀ i j, L * L < ((o i).runs j).fuel) :
    ∃ ws, runPathThreads (realEnv so) true L En T o = .ok ws ∧ ∀ D D' : Directory (FileData ℝ), Left ws D D' →
      (∀ i < T, ∃ rows : List (ℝ × ℝ), rows.length = En / T ∧ (∀ r ∈ rows, 0 < r.1 ∧ r.1 ≤ r.2 ∧ r.2 ≤ 1) ∧
        D' (fileName .sp .shortestPathP L (o i).time (some i)) = some (.path (En / T : Nat) rows)) ∧
      ∀ name, (∀ i < T, name ≠ fileName .sp .shortestPathP L (o i).time (some i)) → D' name = D name := by
  refine ⟨_, by rw [runPathThreads, if_neg (by omega)], ?_⟩
  intro D D' h
  rw [← Int.ofNat_fdiv, Int.toNat_natCast] at h
  have hw : ∀ i, ∃ rows : List (ℝ × ℝ), rows.length = En / T ∧ (∀ r ∈ rows, 0 < r.1 ∧ r.1 ≤ r.2 ∧ r.2 ≤ 1) ∧
      pathWorker (realEnv so) true L (En / T : Nat) i (o i) = .ok [(fileName .sp .shortestPathP L (o i).time (some i), .path (En / T : Nat) rows)] := by
    intro i
    obtain ⟨S0, Ss, rows, _, _, h1, _, h2, h3⟩ := C42_shortest_path (so := so) hL (o i).ctor (Outside.take_fuel (n := (En / T : Nat)) (hf i))
    refine ⟨rows, by rw [h2, Outside.take_length, Int.toNat_natCast], h3, ?_⟩
    simp only [pathWorker]
    rw [h1]
    rfl
  choose rows h1 h2 h3 using hw
  have e : (((List.range T).map fun i => pathWorker (realEnv so) true L (En / T : Nat) i (o i)).flatMap written) =
      (List.range T).map fun i => (fileName .sp .shortestPathP L (o i).time (some i), FileData.path (En / T : Nat) (rows i)) := by
    rw [List.flatMap_map]
    simp only [h3, written]
    rw [← List.map_eq_flatMap]
  have hnd : (((List.range T).map fun i => (fileName .sp .shortestPathP L (o i).time (some i), FileData.path (En / T : Nat) (rows i))).map Prod.fst).Nodup := by
    rw [List.map_map]
    refine List.Nodup.map_on ?_ List.nodup_range
    intro i _ j _ h
    exact Option.some.inj ((C62_names_distinct (ht i) (ht j)).1 h).2.2.2.2
  refine ⟨fun i hi => ⟨rows i, h1 i, h2 i, ?_⟩, ?_⟩
  · refine h.stored (w := (_, _)) (by rw [e]; exact hnd) ?_
    rw [e]
    exact List.mem_map.2 ⟨i, List.mem_range.2 hi, rfl⟩
  · intro name hname
    refine h.kept ?_
    rw [e]
    intro hm
    obtain ⟨w, hw, rfl⟩ := List.mem_map.1 hm
    obtain ⟨i, hi, rfl⟩ := List.mem_map.1 hw
    exact hname i (List.mem_range.1 hi) rfl

/-- C78: `single_realization` of L0, L1 and L2 writes exactly one file. -/
theorem C78_single {α : Type} (env : Env α) (hL : 0 < L) {c : FileClass} (hc : c = .l0 ∨ c = .l1 ∨ c = .l2) {o : Outside}
    (hf : 5 * (L * L) < (o.runs 0).fuel) :
    ∃ f : CrossFile α, singleRealization env c.variant L o.ctor (o.runs 0) = .ok f ∧ ∀ D D' : Directory (FileData α),
      Left [singleFile env true c L o] D D' → D' (fileName c .crossCheck L o.time none) = some (.cross f) ∧
        ∀ name, name ≠ fileName c .crossCheck L o.time none → D' name = D name := by
  have hs : ∃ f : CrossFile α, singleRealization env c.variant L o.ctor (o.runs 0) = .ok f := by
    rcases hc with rfl | rfl | rfl
    · obtain ⟨f, h, _⟩ := C59_replay_exact env hL o.ctor (r := o.runs 0) (by omega); exact ⟨f, h⟩
    · obtain ⟨f, _, h, _⟩ := C59_replay_L1 (so := env.set) (so' := env.set) (ar := env.ar) hL o.ctor hf; exact ⟨f, h⟩
    · obtain ⟨f, h, _⟩ := C59_L2_not_replayable env hL o.ctor hf; exact ⟨f, h⟩
  obtain ⟨f, h⟩ := hs
  have e : singleFile env true c L o = .ok [(fileName c .crossCheck L o.time none, .cross f)] := by
    simp only [singleFile]
    rw [h]
    rfl
  refine ⟨f, h, fun D D' hl => ?_⟩
  rw [e] at hl
  refine ⟨hl.stored (w := (fileName c .crossCheck L o.time none, .cross f)) (by simp [written]) (by simp [written]), fun name hn => hl.kept (by simpa [written] using hn)⟩

/-- C78: the script main.py.  Without a directory `logs` it raises FileNotFoundError and no file is written or changed, even if there is a directory
`data`.  With it, it logs `No errors`
in every case: with a directory `data` there are then two files for each of the two L1 workers of length 10, with 50 realisations each; without one
both workers have raised and no file is written or changed. -/
theorem C78_main {o : Nat → Outside} (ht : ∀ i, (o i).time.Valid) (hf : ∀ i j, 500 < ((o i).runs j).fuel) :
    (∀ dataDir, ∃ ws, mainScript (realEnv so) false dataDir o = (ws, .error .fileNotFoundError) ∧
      ∀ D D' : Directory (FileData ℝ), Left ws D D' → D' = D) ∧
    (∃ ws, mainScript (realEnv so) true true o = (ws, .ok "No errors") ∧ ∀ D D' : Directory (FileData ℝ), Left ws D D' →
      ∀ i < 2, ∃ (qs : List (List Nat)) (crit : List (CritRow ℝ)), qs.length = 50 ∧ (∀ q ∈ qs, q.Perm (List.range (10 * 10))) ∧
        List.Forall₂ (CritOf 10) qs crit ∧
        D' (fileName .l1 .entropyOrder 10 (o i).time (some i)) = some (.table 50 (meanTable 10 qs)) ∧
        D' (fileName .l1 .criticalValues 10 (o i).time (some i)) = some (.critical 50 crit)) ∧
    ∃ ws, mainScript (realEnv so) true false o = (ws, .ok "No errors") ∧ ∀ D D' : Directory (FileData ℝ), Left ws D D' → D' = D := by
  refine ⟨fun d => ⟨[], rfl, fun D D' ⟨l, h, e⟩ => ?_⟩, ?_, ?_⟩
  · have hl : l = [] := List.perm_nil.mp (by simpa using h)
    rw [e, hl]
    rfl
  · obtain ⟨ws, h1, h2⟩ := C78_v4 (so := so) (L := 10) (En := 100) (T := 2) (interaction := 1) (c := .l1) (by decide) (by decide) (by decide)
      (.inl ⟨rfl, rfl⟩) ht hf
    refine ⟨ws, ?_, fun D D' hl => (h2 D D' hl).1⟩
    simp only [mainScript, initLogging, if_true]
    rw [show runV4 (realEnv so) true 10 100 2 1 o = .ok ws from h1]
  · obtain ⟨ws, h1, h2⟩ := C78_v4_nothing (env := realEnv so) (L := 10) (En := 100) (T := 2) (by decide) (.inr (.inr (.inr rfl))) 1 o
    refine ⟨ws, ?_, h2⟩
    simp only [mainScript, initLogging, if_true]
    rw [h1]

/-- C78: `print_hi()` raises AttributeError at its first call: source_py/simulation/lattice.py defines no function `test`. -/
theorem C78_print_hi : printHi latticeModule = .error .attributeError := by decide

/-- C78: `print_hi()` would need both functions in the module; neither is there. -/
theorem C78_print_hi_needs (names : List String) : (printHi names = .ok () ↔ "test" ∈ names ∧ "test_neighbors" ∈ names) ∧
    "test" ∉ latticeModule ∧ "test_neighbors" ∉ latticeModule := by
  refine ⟨?_, by decide, by decide⟩
  by_cases h1 : "test" ∈ names <;> by_cases h2 : "test_neighbors" ∈ names <;> simp [printHi, moduleGet, h1, h2, bind, Except.bind]

/-- The hypotheses of `C78_v4` are met by every directory, all random numbers and any order of writing; here two workers for 5 realisations of
L2 on a lattice of length 3, the second one writing first. -/
example (so : SetOrder) (D : Directory (FileData ℝ)) : ∃ (o : Nat → Outside) (ws : List (Py (List (FileWrite ℝ)))) (D' : Directory (FileData ℝ)),
    runV4 (realEnv so) true 3 5 2 2 o = .ok ws ∧ Left ws D D' ∧
    ∃ rows, D' "./data/SitePercolationL2__entropy_order_L3_20240229_235959_th1.txt" = some (.table 2 rows) ∧ rows.length = 9 := by
  let o : Nat → Outside := fun _ => ⟨fun i => i, fun _ => ⟨fun i => i, fun _ => ⟨0, 0⟩, 46⟩, ⟨2024, 2, 29, 23, 59, 59⟩⟩
  obtain ⟨ws, h1, h2⟩ := C78_v4 (so := so) (L := 3) (En := 5) (T := 2) (interaction := 2) (c := .l2) (by decide) (by decide) (by decide)
      (.inr (.inl ⟨rfl, rfl⟩)) (o := o) (fun _ => by simp [o, Stamp.Valid]) (fun _ _ => by simp [o])
  have hl : Left ws D ((ws.flatMap written).reverse.foldl Directory.write D) := ⟨_, List.reverse_perm _, rfl⟩
  refine ⟨o, ws, _, h1, hl, ?_⟩
  obtain ⟨qs, crit, _, _, _, h, _⟩ := (h2 _ _ hl).1 1 (by decide)
  have hn : fileName .l2 .entropyOrder 3 (o 1).time (some 1) = "./data/SitePercolationL2__entropy_order_L3_20240229_235959_th1.txt" := by
    decide +kernel
  rw [hn] at h
  exact ⟨_, h, by simp [meanTable]⟩

end real
end SqPerc
