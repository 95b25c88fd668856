import Verif.Props.SeededDemos
import Verif.Props.SeedsTable
/-
C113, evaluated: what `test_L1` prints with its seed 0, and the critical values of small ensembles of L1 and L2.
-/
namespace SqPerc

variable {α : Type} {env : Env α} {so : SetOrder}

/-- The placement order of `test_L1`. -/
def growth0 : List Nat := [25, 2, 8, 21, 24, 0, 17, 15, 30, 32, 23, 4, 22, 35, 28, 29, 26, 16, 10, 33, 27, 11, 20, 13, 5, 14, 7, 1, 31, 3, 19, 6, 18, 9,
  34, 12]

/-- The placement order of `test_L2`: the same draws, but a site beyond an occupied neighbour may be taken. -/
def growth0' : List Nat := [25, 2, 8, 21, 24, 0, 17, 15, 30, 32, 23, 4, 22, 35, 28, 29, 26, 27, 16, 10, 33, 11, 20, 13, 5, 14, 18, 7, 1, 31, 3, 19, 6,
  9, 34, 12]

theorem growth0_run : ((growthNew 6 false (5 * (6 * 6))).run pyRng (pyRng.seed 0)).1 = growth0 :=
  Ask.run_seed (key := 0) (by norm_num) 700 (by decide +kernel)

/-- C113: the sites of `test_L2` (percolation_sq_lattice_L1L2.py:317-330, seed 0) in the order of their placement. -/
theorem C113_order_L2 : ((growthNew 6 true (5 * (6 * 6))).run pyRng (pyRng.seed 0)).1 = growth0' :=
  Ask.run_seed (key := 0) (by norm_num) 700 (by decide +kernel)

/-- C113: `test_L1()` (percolation_sq_lattice_L1L2.py:261-280), with the seed 0, prints 180 tables and then `tc = 21 / 36`. -/
theorem C113_evaluated_L1 (env : Env α) {fuel : Nat} (hf : 180 < fuel) (g : Nat → Word) : ∃ (S' : Perc α) (tables : List Text) (g' : Nat → Word),
    demoL1G pyRng env 6 fuel 0 g = .ok (S', tables.map .text ++
      [.values ["tc = "] [env.ar.div (env.ar.ofNat 21) (env.ar.ofNat 36)], .text S'.occupiedSummaryL1, .text S'.viewCluster], g') ∧
    tables.length = 180 ∧ Trace env .l1 6 S' growth0 := by
  obtain ⟨S', tables, e, hl, _, _, T, h⟩ := C113_test_L1 (env := env) pyRng (L := 6) (by norm_num) (fuel := fuel) hf 0 g
  obtain ⟨pre, k, h1, h2⟩ := h (by norm_num)
  simp only [growth0_run] at h1 T
  have hw : wrapsFirst 6 growth0 21 = true := by decide +kernel
  obtain ⟨k', post, _, w1, w2, w3, w4, w5, w6⟩ := wrapsFirst_spec hw
  rw [w6] at h1
  obtain ⟨rfl, rfl⟩ : growth0.take (21 - 1) = pre ∧ k' = k := by simpa using h1
  have hp : prob env 6 (growth0.take (21 - 1) ++ [k']) = env.ar.div (env.ar.ofNat 21) (env.ar.ofNat 36) := by
    rw [prob, List.length_append, List.length_singleton, w5]
  rw [h2, hp] at e
  exact ⟨S', tables, _, e, hl, T⟩

/-- The check of the averages and of the critical values of `n` realisations. -/
def growthCheck (deep : Bool) (L n m : Nat) (rows : List (Nat × Nat × Nat)) (table : List (Nat × Nat × List (Nat × Nat))) : Bool :=
  match Ask.execN (MT.wordsN 0 m) (growthOrders L deep n) with
  | some qs => rowsAre L qs rows && totalsAre (totals L qs rows) table
  | none => false

theorem growth_of {v : Variant} {L n m : Nat} (hv : v = .l1 ∨ v = .l2) (hL : 3 ≤ L) (hn : 0 < n) {rows : List (Nat × Nat × Nat)}
    {table : List (Nat × Nat × List (Nat × Nat))} (h : growthCheck v.deep L n m rows table = true) (hl : n * (2 * (L * L)) < 65536)
    (ht : table.length = L * L) (hx : ∀ r ∈ table, (expand r.2.2).length < 65536) (pl : Bool) {fuel : Nat} (hf : 5 * (L * L) < fuel) (g : Nat → Word) :
    runEnsembleG pyRng (realEnv so) v pl fuel L n (some 0) g =
      .ok (averagesOf L n table, rows.map fun r => ⟨(r.1 : ℝ) / (L * L : Nat), r.2.1, r.2.2⟩) := by
  rw [growthCheck] at h
  cases he : Ask.execN (MT.wordsN 0 m) (growthOrders L v.deep n) with
  | none => rw [he] at h; cases h
  | some qs =>
    simp only [he, Bool.and_eq_true] at h
    obtain ⟨h, ha⟩ := h
    obtain ⟨hlen, hp, table', crit, e, t1, t2, hc⟩ := C113_ensemble (so := so) pyRng hv (by omega : 0 < L) pl hf hn (some 0) g
    have hq : ((growthOrders L v.deep n).run pyRng (pyRng.seed 0)).1 = qs := Ask.run_seed (key := 0) (by norm_num) m he
    simp only [hq] at hlen hp t2 hc
    rw [e, rowsAre_crit hL h hc, table_of_totals hL h (fun q hq => by rw [(hp q hq).length_eq, List.length_range]) (by rw [hlen]; exact hl) ha ht hx t1 t2, hlen]

/-- The sums for L1. -/
def growthTable1 : List (Nat × Nat × List (Nat × Nat)) := [(12, 0, [(1, 138), (4, 3)]), (21, 0, [(1, 129), (7, 3)]), (24, 0, [(1, 118), (4, 2), (7, 2), (10, 1)]),
  (30, 0, [(1, 108), (4, 3), (7, 1), (10, 1), (13, 1)]), (36, 0, [(1, 99), (4, 2), (7, 1), (10, 1), (13, 2)]),
  (42, 0, [(1, 91), (7, 1), (10, 2), (13, 1), (19, 1)]), (54, 0, [(1, 82), (4, 1), (10, 2), (22, 2)]),
  (54, 0, [(1, 71), (4, 2), (7, 1), (10, 2), (22, 2)]), (71, 0, [(1, 65), (4, 1), (10, 1), (19, 1), (25, 1), (27, 1)]),
  (88, 0, [(1, 58), (4, 1), (28, 1), (30, 2)]), (95, 0, [(1, 51), (4, 1), (30, 1), (31, 1), (34, 1)]),
  (102, 36, [(1, 44), (4, 1), (33, 2), (36, 1)]), (111, 72, [(1, 39), (34, 1), (38, 1), (39, 1)]), (119, 78, [(1, 31), (37, 1), (41, 2)]),
  (124, 124, [(1, 26), (39, 1), (42, 1), (43, 1)]), (129, 129, [(1, 21), (41, 1), (44, 2)]), (134, 134, [(1, 16), (42, 1), (46, 2)]),
  (137, 137, [(1, 13), (43, 1), (46, 1), (48, 1)]), (139, 139, [(1, 11), (45, 1), (46, 1), (48, 1)]), (142, 142, [(1, 8), (46, 1), (48, 2)]),
  (146, 146, [(1, 4), (48, 1), (49, 2)]), (147, 147, [(1, 3), (49, 3)]), (150, 150, [(50, 3)]), (150, 150, [(50, 3)]), (150, 150, [(50, 3)])]

/-- The sums for L2. -/
def growthTable2 : List (Nat × Nat × List (Nat × Nat)) := [(12, 0, [(1, 138), (4, 3)]), (18, 0, [(1, 128), (4, 2), (7, 2)]), (24, 0, [(1, 118), (4, 3), (10, 2)]),
  (27, 0, [(1, 107), (4, 5), (10, 1), (13, 1)]), (27, 0, [(1, 95), (4, 8), (10, 1), (13, 1)]), (39, 0, [(1, 87), (4, 6), (10, 2), (19, 1)]),
  (51, 0, [(1, 80), (4, 3), (7, 1), (10, 1), (19, 1), (22, 1)]), (57, 0, [(1, 70), (4, 4), (7, 1), (16, 1), (19, 1), (22, 1)]),
  (66, 0, [(1, 62), (4, 3), (10, 1), (16, 1), (25, 2)]), (81, 26, [(1, 57), (4, 3), (26, 1), (27, 1), (28, 1)]),
  (91, 27, [(1, 51), (4, 2), (27, 1), (30, 1), (34, 1)]), (99, 66, [(1, 43), (4, 2), (30, 1), (33, 1), (36, 1)]),
  (108, 108, [(1, 38), (4, 1), (34, 1), (36, 1), (38, 1)]), (116, 116, [(1, 30), (4, 1), (36, 1), (39, 1), (41, 1)]),
  (117, 117, [(1, 29), (4, 1), (36, 1), (39, 1), (42, 1)]), (123, 123, [(1, 23), (4, 1), (38, 1), (41, 1), (44, 1)]),
  (130, 130, [(1, 16), (4, 1), (41, 1), (43, 1), (46, 1)]), (136, 136, [(1, 14), (44, 1), (46, 2)]),
  (139, 139, [(1, 11), (45, 1), (46, 1), (48, 1)]), (142, 142, [(1, 8), (46, 1), (48, 2)]), (145, 145, [(1, 5), (48, 2), (49, 1)]),
  (148, 148, [(1, 2), (49, 2), (50, 1)]), (149, 149, [(1, 1), (49, 1), (50, 2)]), (150, 150, [(50, 3)]), (150, 150, [(50, 3)])]

/-- C113: ensembles of three realisations with `length=5, seed=0`, in exact arithmetic, for L1 and L2: the averages and the critical values. -/
theorem C113_evaluated_ensembles (pl : Bool) {fuel : Nat} (hf : 125 < fuel) (g : Nat → Word) :
    runEnsembleG pyRng (realEnv so) .l1 pl fuel 5 3 (some 0) g =
      .ok (averagesOf 5 3 growthTable1, [⟨12 / 25, 12, 36⟩, ⟨15 / 25, 15, 43⟩, ⟨13 / 25, 13, 34⟩]) ∧
    runEnsembleG pyRng (realEnv so) .l2 pl fuel 5 3 (some 0) g =
      .ok (averagesOf 5 3 growthTable2, [⟨12 / 25, 12, 36⟩, ⟨13 / 25, 12, 34⟩, ⟨10 / 25, 9, 26⟩]) := by
  constructor
  · rw [growth_of (so := so) (v := .l1) (L := 5) (n := 3) (m := 1400) (rows := [(12, 12, 36), (15, 15, 43), (13, 13, 34)]) (table := growthTable1)
      (.inl rfl) (by norm_num) (by norm_num) (by decide +kernel) (by norm_num) (by decide +kernel) (by decide +kernel) pl hf g]
    norm_num
  · rw [growth_of (so := so) (v := .l2) (L := 5) (n := 3) (m := 1400) (rows := [(12, 12, 36), (13, 12, 34), (10, 9, 26)]) (table := growthTable2)
      (.inr rfl) (by norm_num) (by norm_num) (by decide +kernel) (by norm_num) (by decide +kernel) (by decide +kernel) pl hf g]
    norm_num

end SqPerc
