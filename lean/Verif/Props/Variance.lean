import Verif.Proof.Variance
import Verif.Props.Mean
import Verif.Props.Averages
/-
C87: the statistical error of the averaged tables.
-/
namespace SqPerc

variable {so : SetOrder} {L : Nat}

/-- The mean of the column of the critical points of a critical file. -/
noncomputable def meanPc (crit : List (CritRow ℝ)) : ℝ := (crit.map (·.pc)).sum / crit.length

/-- The stage at which an order wraps, as a fraction of the sites. -/
noncomputable def wrapStage (L : Nat) (q : List Nat) : ℝ := (∑ n ∈ Finset.range (L * L), (1 - ind (Wraps L (· ∈ q.take n)))) / (L * L : Nat)

theorem wrapStage_eq {q : List Nat} {p : Nat} (hp : p < L * L) (h : ∀ n, Wraps L (· ∈ q.take n) ↔ p < n) :
    wrapStage L q = ((p + 1 : Nat) : ℝ) / (L * L : Nat) := by
  have : ∀ n ∈ Finset.range (L * L), (1 - ind (Wraps L (· ∈ q.take n))) = if n < p + 1 then 1 else 0 := by
    intro n _
    rw [h n]
    unfold ind
    by_cases h : p < n
    · rw [if_pos h, if_neg (by omega)]; norm_num
    · rw [if_neg h, if_pos (by omega)]; norm_num
  rw [wrapStage, Finset.sum_congr rfl this, ← Finset.sum_filter, Finset.sum_const, nsmul_eq_mul, mul_one]
  congr 2
  have hf : (Finset.range (L * L)).filter (· < p + 1) = Finset.range (p + 1) := by
    ext n
    simp only [Finset.mem_filter, Finset.mem_range]
    omega
  rw [hf, Finset.card_range]

theorem wrapStage_bounds (hL : 0 < L) (q : List Nat) : 0 ≤ wrapStage L q ∧ wrapStage L q ≤ 1 := by
  have hN : (0 : ℝ) < (L * L : Nat) := by exact_mod_cast Nat.mul_pos hL hL
  have h0 : ∀ n ∈ Finset.range (L * L), 0 ≤ 1 - ind (Wraps L (· ∈ q.take n)) := by
    intro n _; unfold ind; split <;> norm_num
  have h1 : ∀ n ∈ Finset.range (L * L), 1 - ind (Wraps L (· ∈ q.take n)) ≤ 1 := by
    intro n _; unfold ind; split <;> norm_num
  refine ⟨div_nonneg (Finset.sum_nonneg h0) hN.le, ?_⟩
  rw [wrapStage, div_le_one hN]
  refine (Finset.sum_le_sum h1).trans (le_of_eq ?_)
  rw [Finset.sum_const, Finset.card_range, nsmul_eq_mul, mul_one]

/-- The entry of one realisation. -/
noncomputable def runEntry (so : SetOrder) (L k c : Nat) (q : List Nat) : ℝ := (dataRow so L (q.take (k + 1))).getD c 0

/-- The critical points in terms of the orders. -/
theorem crit_pcs {v : Variant} (hL : 3 ≤ L) {Ss : List (Perc ℝ)} {qs : List (List Nat)} (h1 : List.Forall₂ (Ran so v L) Ss qs) :
    qs.map (wrapStage L) = (Ss.map (critRow (realEnv so))).map (·.pc) := by
  rw [List.map_map]
  have : ∀ S q, Ran so v L S q → (critRow (realEnv so) S).pc = wrapStage L q := by
    intro S q hr
    have hw : Wraps L (· ∈ q) := full_wraps (by omega) fun s hs => hr.perm.mem_iff.2 (List.mem_range.2 hs)
    have hall : q.take (L * L) = q := List.take_of_length_le (by rw [hr.perm.length_eq, List.length_range])
    obtain ⟨p, p1, p2, p3⟩ := Ran.pc (so := so) (v := v) (S := S) hL hr.perm (m := L * L) (by rw [hall]; exact hr.trace) (by rw [hall]; exact hw)
    rw [wrapStage_eq p1 p3, ← p2]; rfl
  induction h1 with
  | nil => rfl
  | cons h _ ih => rw [List.map_cons, List.map_cons, ih, Function.comp, this _ _ h]

/-- The mean critical point in terms of the orders. -/
theorem meanPc_orders {v : Variant} (hL : 3 ≤ L) {Ss : List (Perc ℝ)} {qs : List (List Nat)} (h1 : List.Forall₂ (Ran so v L) Ss qs) :
    meanPc (Ss.map (critRow (realEnv so))) = (∑ i ∈ Finset.range qs.length, wrapStage L (qs.getD i [])) / qs.length := by
  rw [meanPc, ← crit_pcs hL h1, List.length_map, h1.length_eq]
  congr 1
  rw [← Fin.sum_univ_eq_sum_range (fun i => wrapStage L (qs.getD i [])), ← List.sum_ofFn]
  congr 1
  apply List.ext_getElem
  · simp
  · intro n a1 a2
    simp only [List.getElem_map, List.getElem_ofFn]
    rw [getD_of_lt (by simpa using a1)]

/-- The table and the critical file of `E` realisations in terms of the orders. -/
theorem ensemble_entries (hL : 0 < L) {E : Nat} (hE : 0 < E) (pl : Bool) (ctor : Nat → Nat) (steps : Nat → Draw) {fuel : Nat} (hf : 5 * (L * L) < fuel)
    (x : Fin E → DrawVec (L * L)) :
    ∃ table crit, runEnsemble (realEnv so) .l0 pl L ctor (ensembleDraws steps fuel x) = .ok (table, crit) ∧
      runEnsembleThreads (realEnv so) .l0 L ctor (ensembleDraws steps fuel x) = .ok table ∧
      (∀ k < L * L, ∀ c < 4, entry table k c = (∑ i ∈ Finset.range E, runEntry so L k c
        ((shuffleOrders (pyShuffle ctor (List.range (L * L))) (List.ofFn fun j => (x j).draws)).getD i [])) / E) ∧
      (3 ≤ L → meanPc crit = (∑ i ∈ Finset.range E, wrapStage L
        ((shuffleOrders (pyShuffle ctor (List.range (L * L))) (List.ofFn fun j => (x j).draws)).getD i [])) / E) := by
  have hlen : (ensembleDraws steps fuel x).length = E := List.length_ofFn
  obtain ⟨Ss, table, h1, h2, h3, h4⟩ := ensemble_orders (so := so) hL pl ctor (rs := ensembleDraws steps fuel x)
    (by intro h; rw [h] at hlen; simp at hlen; omega)
    (by
      intro r hr
      obtain ⟨i, rfl⟩ := (List.mem_ofFn' _ _).1 hr
      exact hf)
  rw [ensembleDraws_shuffles] at h1 h4
  generalize hqs : shuffleOrders (pyShuffle ctor (List.range (L * L))) (List.ofFn fun j => (x j).draws) = qs at h1 h4 ⊢
  have hql : qs.length = E := by rw [← hqs, shuffleOrders_length, List.length_ofFn]
  refine ⟨table, _, h2, h3, fun k hk c hc => ?_, fun hL3 => ?_⟩
  · rw [h4 k hk c hc, hlen]; rfl
  · rw [meanPc_orders hL3 h1, hql]

theorem runEntry_bounds (hL : 0 < L) {q : List Nat} (hq : q.Perm (List.range (L * L))) {k : Nat} (hk : k < L * L) :
    runEntry so L k 0 q = ((k + 1 : Nat) : ℝ) / (L * L : Nat) ∧
    (0 ≤ runEntry so L k 1 q ∧ runEntry so L k 1 q ≤ Real.log (2 * (L * L) : Nat)) ∧
    (0 ≤ runEntry so L k 2 q ∧ runEntry so L k 2 q ≤ 1) ∧ 0 ≤ runEntry so L k 3 q ∧ runEntry so L k 3 q ≤ 1 := by
  have hB : (0 : ℝ) < (2 * (L * L) : Nat) := by exact_mod_cast (by have := Nat.mul_pos hL hL; omega : 0 < 2 * (L * L))
  obtain ⟨b1, b2, b3, b4, _⟩ := order_bounds (q := q.take (k + 1)) hL ((hq.nodup_iff.2 List.nodup_range).sublist (List.take_sublist _ _))
    (fun s hs => List.mem_range.1 (hq.mem_iff.1 (List.mem_of_mem_take hs)))
  refine ⟨?_, ⟨b1, b2⟩, ⟨?_, ?_⟩, ?_, ?_⟩
  · show ((q.take (k + 1)).length : ℝ) / _ = _
    rw [List.length_take, hq.length_eq, List.length_range, Nat.min_eq_left (by omega)]
  · show 0 ≤ (seqLargest L _ : ℝ) / _
    positivity
  · show (seqLargest L _ : ℝ) / _ ≤ 1
    rw [div_le_one hB]; exact_mod_cast b4
  · show 0 ≤ ordW (realEnv so) L _
    rw [ordW_real]; positivity
  · show ordW (realEnv so) L _ ≤ 1
    rw [ordW_real, div_le_one hB]; exact_mod_cast b3.trans b4

/-- C87: the averages over `E` realisations of L0 have the same mean as those over one realisation, and `E` times smaller variance: in every
entry of the table, and (for `L ≥ 3`) in the mean of the column of the critical points.  (Exact arithmetic.) -/
theorem C87_variance (hL : 0 < L) (pl : Bool) (ctor : Nat → Nat) (steps : Nat → Draw) {fuel : Nat} (hf : 5 * (L * L) < fuel) :
    ∃ (table : ∀ E, (Fin E → DrawVec (L * L)) → List (List ℝ)) (crit : ∀ E, (Fin E → DrawVec (L * L)) → List (CritRow ℝ)), ∀ E, 0 < E →
      (∀ x, runEnsemble (realEnv so) .l0 pl L ctor (ensembleDraws steps fuel x) = .ok (table E x, crit E x)) ∧
      (∀ x, runEnsembleThreads (realEnv so) .l0 L ctor (ensembleDraws steps fuel x) = .ok (table E x)) ∧
      (∀ k < L * L, ∀ c < 4, meanOf (fun x => entry (table E x) k c) = meanOf (fun x => entry (table 1 x) k c) ∧
        varOf (fun x => entry (table E x) k c) = varOf (fun x => entry (table 1 x) k c) / E) ∧
      (3 ≤ L → meanOf (fun x => meanPc (crit E x)) = meanOf (fun x => meanPc (crit 1 x)) ∧
        varOf (fun x => meanPc (crit E x)) = varOf (fun x => meanPc (crit 1 x)) / E) := by
  have hall : ∀ (E : Nat) (x : Fin E → DrawVec (L * L)), ∃ table crit, 0 < E → _ := fun E x => by
    by_cases hE : 0 < E
    · obtain ⟨table, crit, h⟩ := ensemble_entries (so := so) hL hE pl ctor steps hf x
      exact ⟨table, crit, fun _ => h⟩
    · exact ⟨[], [], fun h => absurd h hE⟩
  choose table crit h using hall
  have hp := pyShuffle_perm ctor (List.range (L * L))
  refine ⟨table, crit, fun E hE => ⟨fun x => (h E x hE).1, fun x => (h E x hE).2.1, fun k hk c hc => ?_, fun hL3 => ?_⟩⟩
  · obtain ⟨a1, a2⟩ := varOf_orders hE (runEntry so L k c) hp fun x => (h E x hE).2.2.1 k hk c hc
    obtain ⟨b1, b2⟩ := varOf_orders one_pos (runEntry so L k c) hp fun x => (h 1 x one_pos).2.2.1 k hk c hc
    exact ⟨a1.trans b1.symm, by rw [a2, b2, Nat.cast_one, div_one]⟩
  · obtain ⟨a1, a2⟩ := varOf_orders hE (wrapStage L) hp fun x => (h E x hE).2.2.2 hL3
    obtain ⟨b1, b2⟩ := varOf_orders one_pos (wrapStage L) hp fun x => (h 1 x one_pos).2.2.2 hL3
    exact ⟨a1.trans b1.symm, by rw [a2, b2, Nat.cast_one, div_one]⟩

/-- C87, how far the averages can be off: the fraction of the outcomes for which an entry of the table of `E` realisations differs from the
value it estimates by `ε` or more is at most `1 / (4 E ε²)` in the two order parameter columns and `(log 2L²)² / (4 E ε²)` in the entropy
column; for the mean critical point it is at most `1 / (4 E ε²)`.  The first column does not vary. -/
theorem C87_deviation (hL : 0 < L) {E : Nat} (hE : 0 < E) (pl : Bool) (ctor : Nat → Nat) (steps : Nat → Draw) {fuel : Nat} (hf : 5 * (L * L) < fuel)
    {ε : ℝ} (hε : 0 < ε) :
    ∃ (table : (Fin E → DrawVec (L * L)) → List (List ℝ)) (crit : (Fin E → DrawVec (L * L)) → List (CritRow ℝ)),
      (∀ x, runEnsemble (realEnv so) .l0 pl L ctor (ensembleDraws steps fuel x) = .ok (table x, crit x)) ∧
      (∀ x, runEnsembleThreads (realEnv so) .l0 L ctor (ensembleDraws steps fuel x) = .ok (table x)) ∧
      (∀ k < L * L, (∀ x, entry (table x) k 0 = ((k + 1 : Nat) : ℝ) / (L * L : Nat)) ∧
        meanOf (fun x => ind (ε ≤ |entry (table x) k 1 - micro (L * L) (k + 1) (fun T => shannon L (· ∈ T))|)) ≤
          Real.log (2 * (L * L) : Nat) ^ 2 / (4 * E * ε ^ 2) ∧
        meanOf (fun x => ind (ε ≤ |entry (table x) k 2 -
          micro (L * L) (k + 1) (fun T => ((bondComps L (· ∈ T)).sup Finset.card : ℕ) / (2 * (L * L) : Nat))|)) ≤ 1 / (4 * E * ε ^ 2) ∧
        meanOf (fun x => ind (ε ≤ |entry (table x) k 3 - meanOf (fun x => entry (table x) k 3)|)) ≤ 1 / (4 * E * ε ^ 2)) ∧
      (3 ≤ L → meanOf (fun x => ind (ε ≤ |meanPc (crit x) -
        (∑ n ∈ Finset.range (L * L), (1 - micro (L * L) n fun T => ind (Wraps L (· ∈ T)))) / (L * L : Nat)|)) ≤ 1 / (4 * E * ε ^ 2)) := by
  choose table crit h1 h2 h3 h4 using fun x => ensemble_entries (so := so) hL hE pl ctor steps hf x
  have hp := pyShuffle_perm ctor (List.range (L * L))
  have hE0 : (0 : ℝ) < E := by exact_mod_cast hE
  have hy : ∀ y : DrawVec (L * L), (pyShuffle y.draws (List.range (L * L))).Perm (List.range (L * L)) := fun y => pyShuffle_perm _ _
  -- the bound for one column
  have key : ∀ (g : List Nat → ℝ) (G : (Fin E → DrawVec (L * L)) → ℝ) (μ b : ℝ),
      (∀ x, G x = (∑ i ∈ Finset.range E, g ((shuffleOrders (pyShuffle ctor (List.range (L * L))) (List.ofFn fun k => (x k).draws)).getD i [])) / E) →
      meanOf G = μ → (∀ q, q.Perm (List.range (L * L)) → 0 ≤ g q ∧ g q ≤ b) →
      meanOf (fun x => ind (ε ≤ |G x - μ|)) ≤ b ^ 2 / (4 * E * ε ^ 2) := by
    intro g G μ b hG hμ hb
    obtain ⟨_, a2⟩ := varOf_orders hE g hp hG
    rw [← hμ]
    refine (chebyshev hε).trans ?_
    rw [a2]
    have := varOf_le (a := 0) (b := b) fun y : DrawVec (L * L) => hb _ (hy y)
    rw [sub_zero] at this
    rw [div_div, div_le_div_iff₀ (by positivity) (by positivity)]
    have h2 := mul_le_mul_of_nonneg_right this (by positivity : (0 : ℝ) ≤ 4 * E * ε ^ 2)
    calc _ ≤ _ := h2
      _ = _ := by ring
  obtain ⟨table', crit', t1, t2, t3⟩ := C69_table (so := so) hL hE pl ctor steps hf
  have ht : table' = table := by
    funext x
    have := (t2 x).symm.trans (h2 x)
    exact Except.ok.inj this
  rw [ht] at t3
  refine ⟨table, crit, h1, h2, fun k hk => ⟨fun x => ?_, ?_, ?_, ?_⟩, fun hL3 => ?_⟩
  · rw [h3 x k hk 0 (by decide)]
    have : ∀ i ∈ Finset.range E, runEntry so L k 0 ((shuffleOrders (pyShuffle ctor (List.range (L * L))) (List.ofFn fun j => (x j).draws)).getD i []) =
        ((k + 1 : Nat) : ℝ) / (L * L : Nat) := by
      intro i hi
      have hi' : i < (shuffleOrders (pyShuffle ctor (List.range (L * L))) (List.ofFn fun j => (x j).draws)).length := by
        rw [shuffleOrders_length, List.length_ofFn]; exact Finset.mem_range.1 hi
      rw [getD_of_lt hi']
      exact (runEntry_bounds hL ((shuffleOrders_perm (List.getElem_mem hi')).trans hp) hk).1
    rw [Finset.sum_congr rfl this, Finset.sum_const, Finset.card_range, nsmul_eq_mul]
    field_simp
  · exact key (runEntry so L k 1) _ _ _ (fun x => h3 x k hk 1 (by decide)) (t3 k hk).1 fun q hq => (runEntry_bounds hL hq hk).2.1
  · simpa using key (runEntry so L k 2) _ _ 1 (fun x => h3 x k hk 2 (by decide)) (t3 k hk).2 fun q hq => (runEntry_bounds hL hq hk).2.2.1
  · simpa using key (runEntry so L k 3) _ _ 1 (fun x => h3 x k hk 3 (by decide)) rfl fun q hq => (runEntry_bounds hL hq hk).2.2.2
  · have hm : meanOf (fun x => meanPc (crit x)) = (∑ n ∈ Finset.range (L * L), (1 - micro (L * L) n fun T => ind (Wraps L (· ∈ T)))) / (L * L : Nat) := by
      rw [(varOf_orders hE (wrapStage L) hp fun x => h4 x hL3).1]
      unfold wrapStage
      rw [meanOf_div, meanOf_sum]
      congr 1
      refine Finset.sum_congr rfl fun n hn => ?_
      rw [meanOf_sub, meanOf_const, meanOf_wraps (Finset.mem_range.1 hn).le]
    simpa using key (wrapStage L) _ _ 1 (fun x => h4 x hL3) hm fun q _ => wrapStage_bounds hL q

/-- Wrapping starts at one stage of an order. -/
theorem exists_stage (hL : 0 < L) {q : List Nat} (hq : q.Perm (List.range (L * L))) : ∃ p, p < L * L ∧ ∀ n, Wraps L (· ∈ q.take n) ↔ p < n := by
  classical
  have hfull : Wraps L (· ∈ q.take (L * L)) := by
    rw [List.take_of_length_le (by rw [hq.length_eq, List.length_range])]
    exact full_wraps hL fun s hs => hq.mem_iff.2 (List.mem_range.2 hs)
  have hex : ∃ n, Wraps L (· ∈ q.take n) := ⟨_, hfull⟩
  have h0 : ¬ Wraps L (· ∈ q.take 0) := by
    rintro ⟨s, v, _, w⟩
    exact absurd w.occ_left (by simp)
  have hpos : 0 < Nat.find hex := Nat.pos_of_ne_zero fun h => h0 (h ▸ Nat.find_spec hex)
  have hle : Nat.find hex ≤ L * L := Nat.find_le hfull
  refine ⟨Nat.find hex - 1, by omega, fun n => ⟨fun h => ?_, fun h => ?_⟩⟩
  · have := Nat.find_le (h := hex) h
    omega
  · exact (Nat.find_spec hex).mono fun s hs => (List.take_subset_take_left _ (by omega : Nat.find hex ≤ n)) hs

theorem sum_odd (p : Nat) : ∑ n ∈ Finset.range p, ((2 * n + 1 : Nat) : ℝ) = (p : ℝ) ^ 2 := by
  induction p with
  | zero => simp
  | succ p ih => rw [Finset.sum_range_succ, ih]; push_cast; ring

theorem wrapStage_sq {q : List Nat} {p : Nat} (hp : p < L * L) (h : ∀ n, Wraps L (· ∈ q.take n) ↔ p < n) :
    wrapStage L q ^ 2 = (∑ n ∈ Finset.range (L * L), ((2 * n + 1 : Nat) : ℝ) * (1 - ind (Wraps L (· ∈ q.take n)))) / ((L * L : Nat) : ℝ) ^ 2 := by
  rw [wrapStage_eq hp h, div_pow, ← sum_odd]
  congr 1
  have : ∀ n ∈ Finset.range (L * L), ((2 * n + 1 : Nat) : ℝ) * (1 - ind (Wraps L (· ∈ q.take n))) = if n < p + 1 then ((2 * n + 1 : Nat) : ℝ) else 0 := by
    intro n _
    rw [h n]
    unfold ind
    by_cases h : p < n
    · rw [if_pos h, if_neg (by omega)]; norm_num
    · rw [if_neg h, if_pos (by omega)]; norm_num
  rw [Finset.sum_congr rfl this, ← Finset.sum_filter]
  refine Finset.sum_congr ?_ fun _ _ => rfl
  ext n
  simp only [Finset.mem_filter, Finset.mem_range]
  omega

/-- C87: the variance of the mean critical point of `E` realisations, in terms of the fractions of wrapping sets. -/
theorem C87_pc_variance (hL : 3 ≤ L) {E : Nat} (hE : 0 < E) (pl : Bool) (ctor : Nat → Nat) (steps : Nat → Draw) {fuel : Nat}
    (hf : 5 * (L * L) < fuel) :
    ∃ (table : (Fin E → DrawVec (L * L)) → List (List ℝ)) (crit : (Fin E → DrawVec (L * L)) → List (CritRow ℝ)),
      (∀ x, runEnsemble (realEnv so) .l0 pl L ctor (ensembleDraws steps fuel x) = .ok (table x, crit x)) ∧
      varOf (fun x => meanPc (crit x)) =
        ((∑ n ∈ Finset.range (L * L), ((2 * n + 1 : Nat) : ℝ) * (1 - micro (L * L) n fun T => ind (Wraps L (· ∈ T)))) -
          (∑ n ∈ Finset.range (L * L), (1 - micro (L * L) n fun T => ind (Wraps L (· ∈ T)))) ^ 2) / (((L * L : Nat) : ℝ) ^ 2 * E) := by
  have hL0 : 0 < L := by omega
  choose table crit h1 h2 h3 h4 using fun x => ensemble_entries (so := so) hL0 hE pl ctor steps hf x
  have hp := pyShuffle_perm ctor (List.range (L * L))
  refine ⟨table, crit, h1, ?_⟩
  rw [(varOf_orders hE (wrapStage L) hp fun x => h4 x hL).2, varOf_eq]
  have e1 : meanOf (fun y : DrawVec (L * L) => wrapStage L (pyShuffle y.draws (List.range (L * L)))) =
      (∑ n ∈ Finset.range (L * L), (1 - micro (L * L) n fun T => ind (Wraps L (· ∈ T)))) / (L * L : Nat) := by
    unfold wrapStage
    rw [meanOf_div, meanOf_sum]
    congr 1
    refine Finset.sum_congr rfl fun n hn => ?_
    rw [meanOf_sub, meanOf_const, meanOf_wraps (Finset.mem_range.1 hn).le]
  have e2 : meanOf (fun y : DrawVec (L * L) => wrapStage L (pyShuffle y.draws (List.range (L * L))) ^ 2) =
      (∑ n ∈ Finset.range (L * L), ((2 * n + 1 : Nat) : ℝ) * (1 - micro (L * L) n fun T => ind (Wraps L (· ∈ T)))) / ((L * L : Nat) : ℝ) ^ 2 := by
    rw [meanOf_congr fun y => by
      obtain ⟨p, p1, p2⟩ := exists_stage hL0 (pyShuffle_perm y.draws (List.range (L * L)))
      exact wrapStage_sq p1 p2]
    rw [meanOf_div, meanOf_sum]
    congr 1
    refine Finset.sum_congr rfl fun n hn => ?_
    rw [meanOf_mul_left, meanOf_sub, meanOf_const, meanOf_wraps (Finset.mem_range.1 hn).le]
  rw [e1, e2]
  have : ((L * L : Nat) : ℝ) ≠ 0 := by
    have : 0 < L * L := Nat.mul_pos hL0 hL0
    exact_mod_cast this.ne'
  have hE0 : (E : ℝ) ≠ 0 := by exact_mod_cast hE.ne'
  field_simp

end SqPerc
