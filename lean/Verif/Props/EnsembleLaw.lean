import Verif.Props.Growth
import Verif.Props.Variance
/-
Property C93: the statistics of ensembles of L1 and L2.
-/
namespace SqPerc

variable {L M E : Nat} {so : SetOrder} {v : Variant}

/-! ### Independent realisations -/

/-- Functions of independent random variables are independent. -/
theorem meanOf_prod {X : Type} [Fintype X] (f : Fin E → X → ℝ) : meanOf (fun x : Fin E → X => ∏ i, f i (x i)) = ∏ i, meanOf (f i) := by
  unfold meanOf
  rw [Finset.prod_div_distrib, Finset.prod_const, Finset.card_univ, Fintype.card_fin, Fintype.card_fun, Fintype.card_fin, Nat.cast_pow]
  congr 1
  rw [Finset.prod_univ_sum, Fintype.piFinset_univ]

theorem meanOf_coord {X : Type} [Fintype X] [Nonempty X] (g : X → ℝ) (i : Fin E) : meanOf (fun x : Fin E → X => g (x i)) = meanOf g := by
  have e : ∀ x : Fin E → X, g (x i) = ∏ j, (if j = i then g else fun _ => 1) (x j) := by
    intro x
    rw [Finset.prod_eq_single i]
    · rw [if_pos rfl]
    · intro j _ hj; rw [if_neg hj]
    · intro h; exact absurd (Finset.mem_univ _) h
  rw [meanOf_congr e, meanOf_prod (fun j => if j = i then g else fun _ => 1), Finset.prod_eq_single i]
  · rw [if_pos rfl]
  · intro j _ hj; rw [if_neg hj, meanOf_const]
  · intro h; exact absurd (Finset.mem_univ _) h

theorem meanOf_coord_mul {X : Type} [Fintype X] [Nonempty X] (g h : X → ℝ) {i j : Fin E} (hij : i ≠ j) :
    meanOf (fun x : Fin E → X => g (x i) * h (x j)) = meanOf g * meanOf h := by
  have e : ∀ x : Fin E → X, g (x i) * h (x j) = ∏ l, (if l = i then g else if l = j then h else fun _ => 1) (x l) := by
    intro x
    rw [← Finset.mul_prod_erase Finset.univ _ (Finset.mem_univ i), ← Finset.mul_prod_erase _ _ (Finset.mem_erase.2 ⟨hij.symm, Finset.mem_univ j⟩),
      Finset.prod_eq_one]
    · rw [if_pos rfl, if_neg hij.symm, if_pos rfl, mul_one]
    · intro l hl
      rw [Finset.mem_erase, Finset.mem_erase] at hl
      rw [if_neg hl.2.1, if_neg hl.1]
  rw [meanOf_congr e, meanOf_prod (fun l => if l = i then g else if l = j then h else fun _ => 1),
    ← Finset.mul_prod_erase Finset.univ _ (Finset.mem_univ i), ← Finset.mul_prod_erase _ _ (Finset.mem_erase.2 ⟨hij.symm, Finset.mem_univ j⟩),
    Finset.prod_eq_one]
  · rw [if_pos rfl, if_neg hij.symm, if_pos rfl, mul_one]
  · intro l hl
    rw [Finset.mem_erase, Finset.mem_erase] at hl
    rw [if_neg hl.2.1, if_neg hl.1, meanOf_const]

/-- Mean and variance of the average of independent copies. -/
theorem varOf_average {X : Type} [Fintype X] [Nonempty X] (hE : 0 < E) (g : X → ℝ) {G : (Fin E → X) → ℝ} (hG : ∀ x, G x = (∑ i, g (x i)) / E) :
    meanOf G = meanOf g ∧ varOf G = varOf g / E := by
  have hE0 : (E : ℝ) ≠ 0 := by exact_mod_cast hE.ne'
  have hm : meanOf G = meanOf g := by
    rw [meanOf_congr hG, meanOf_div, meanOf_sum, Finset.sum_congr rfl fun i _ => meanOf_coord g i, Finset.sum_const, Finset.card_univ, Fintype.card_fin,
      nsmul_eq_mul]
    field_simp
  refine ⟨hm, ?_⟩
  have hsq : meanOf (fun x => G x ^ 2) = (E * meanOf (fun y => g y ^ 2) + E * (E - 1) * meanOf g ^ 2) / E ^ 2 := by
    have e : ∀ x, G x ^ 2 = (∑ i : Fin E, ∑ j : Fin E, g (x i) * g (x j)) / (E : ℝ) ^ 2 := by
      intro x
      rw [hG, div_pow, pow_two (∑ i, g (x i)), Finset.sum_mul_sum]
    rw [meanOf_congr e, meanOf_div, meanOf_sum]
    congr 1
    have : ∀ i ∈ (Finset.univ : Finset (Fin E)), meanOf (fun x : Fin E → X => ∑ j, g (x i) * g (x j)) =
        meanOf (fun y => g y ^ 2) + (E - 1) * meanOf g ^ 2 := by
      intro i _
      rw [meanOf_sum, ← Finset.add_sum_erase Finset.univ _ (Finset.mem_univ i)]
      congr 1
      · rw [← meanOf_coord (E := E) (fun y => g y ^ 2) i]
        exact meanOf_congr fun x => (pow_two _).symm
      · rw [Finset.sum_congr rfl fun j hj => meanOf_coord_mul g g (Finset.mem_erase.1 hj).1.symm, Finset.sum_const,
          Finset.card_erase_of_mem (Finset.mem_univ i), Finset.card_univ, Fintype.card_fin, nsmul_eq_mul, Nat.cast_sub hE, Nat.cast_one, pow_two]
    rw [Finset.sum_congr rfl this, Finset.sum_const, Finset.card_univ, Fintype.card_fin, nsmul_eq_mul]
    ring
  rw [varOf_eq, varOf_eq, hm, hsq]
  field_simp
  ring

/-! ### The ensembles of L1 and L2 -/

/-- The order in which a realisation of L1 (or L2, if `deep`) places the sites, as a function of its random numbers: the growth process of the
specification. -/
def runOrder (L : Nat) (deep : Bool) (y : Draws M (5 * (L * L))) : List Nat :=
  growthOrder L deep (List.range (L * L)) (5 * (L * L)) fun i => (y.seq i).pick

/-- The random numbers of `E` realisations: `x i` for the placements of the `i`-th one and arbitrary numbers for the shuffles. -/
def growthDraws {n : Nat} (sh : Nat → Nat → Nat) (fuel : Nat) (x : Fin E → Draws M n) : List RunDraws :=
  List.ofFn fun i => ⟨sh i, (x i).seq, fuel⟩

theorem Clean.growth_realisation (hv : v = .l1 ∨ v = .l2) {b : Bool} {S : Perc ℝ} (h : Clean (realEnv so) v L b S) {r : RunDraws}
    (hf : 5 * (L * L) < r.fuel) :
    ∃ S1 S2, S.reset (realEnv so) v r.shuffle = .ok S1 ∧ S1.runOnceV (realEnv so) v r.fuel r.steps = .ok S2 ∧ Clean (realEnv so) v L false S2 ∧
      Ran so v L S2 (growthOrder L v.deep (List.range (L * L)) (5 * (L * L)) fun i => (r.steps i).pick) := by
  have hv' : v ≠ .sp := by rcases hv with rfl | rfl <;> decide
  obtain ⟨S1, e1, _⟩ := (h.reach hv').1.live.reset r.shuffle
  have h1 := h.reset e1
  have hF := (h1.reach hv').2 rfl
  have hid := reset_siteIds (h.reach hv').1 e1
  rw [if_pos hv] at hid
  obtain ⟨U, e2, T, c, hp⟩ := C92_run_once hF hv hf r.steps le_rfl
  rw [hid] at T c hp
  generalize hq : (growthOrder L v.deep (List.range (L * L)) (5 * (L * L)) fun i => (r.steps i).pick) = q at T c hp
  have hl : q.length = L * L := by rw [hp.length_eq, List.length_range]
  refine ⟨S1, _, e1, by rcases hv with rfl | rfl <;> exact e2, h1.run e2, T, hp, ?_⟩
  have D := h1.data hv'
  obtain ⟨d1, d2, d3⟩ := D.lists rfl
  obtain ⟨es, x1, _, x2⟩ := c.entropy
  have hes := x2 (fun q => shannon L (· ∈ q)) (fun T q h => h.entropy)
  have hprob : (stages [] q).map (prob (realEnv so) L) = fullProbs (realEnv so) L := by
    rw [stages_prob, hl]
    unfold fullProbs
    apply List.map_congr_left
    intro k _; simp
  have c1 : U.occProbList = (stages [] q).map (prob (realEnv so) L) := by
    rw [c.occProb]
    rcases D.probs with ⟨h1, h2⟩ | ⟨h1, h2⟩
    · rw [if_pos h1, h2]; rfl
    · rw [if_neg (by rw [h1]; simp), h2, hprob]
  have c2 := c.ordWrap
  have c3 := c.ordLargest
  rw [d1, List.nil_append, hes] at x1
  rw [d2, List.nil_append] at c2
  rw [d3, List.nil_append] at c3
  simp only [Perc.getDataArray, c1, x1, c2, c3]
  rw [if_pos (by simp)]
  congr 1
  generalize stages [] q = l
  induction l with
  | nil => rfl
  | cons q l ih => simp only [List.map_cons, List.zip_cons_cons, ih]; rfl

theorem Realised.growth (hv : v = .l1 ∨ v = .l2) {rs : List RunDraws} {Ss : List (Perc ℝ)} {S : Perc ℝ} (hR : Realised (realEnv so) v S rs Ss) :
    ∀ {b : Bool}, Clean (realEnv so) v L b S → (∀ r ∈ rs, 5 * (L * L) < r.fuel) →
      List.Forall₂ (Ran so v L) Ss (rs.map fun r => growthOrder L v.deep (List.range (L * L)) (5 * (L * L)) fun i => (r.steps i).pick) := by
  induction hR with
  | nil => intro b _ _; exact .nil
  | @cons S S1 S2 r rs Ss h1 h2 _ ih =>
    intro b h hf
    obtain ⟨T1, T2, e1, e2, hc, hr⟩ := h.growth_realisation hv (hf r (List.mem_cons_self ..))
    rw [h1] at e1
    obtain rfl := Except.ok.inj e1
    rw [h2] at e2
    obtain rfl := Except.ok.inj e2
    exact .cons hr (ih hc fun r hr => hf r (List.mem_cons_of_mem _ hr))

theorem runOrder_perm (hv : v = .l1 ∨ v = .l2) (hL : 0 < L) (y : Draws M (5 * (L * L))) : (runOrder L v.deep y).Perm (List.range (L * L)) := by
  obtain ⟨S, _, h⟩ := fresh_exists demoEnv v hL (fun _ => 0)
  obtain ⟨_, _, _, _, _, hp⟩ := C92_realisation h.defReach hv (fun _ => 0) (Nat.lt_succ_self _) y.seq
  exact hp

/-- C93: the averaged table and the critical file of L1 and L2 as functions of the random numbers of the placements.  (Exact arithmetic.)  The
numbers used for shuffling, in the constructor and in each `reset`, play no role. -/
theorem C93_table (hv : v = .l1 ∨ v = .l2) (hL : 0 < L) (hE : 0 < E) (pl : Bool) (ctor : Nat → Nat) (sh : Nat → Nat → Nat) {fuel : Nat}
    (hf : 5 * (L * L) < fuel) (x : Fin E → Draws M (5 * (L * L))) :
    ∃ table crit, runEnsemble (realEnv so) v pl L ctor (growthDraws sh fuel x) = .ok (table, crit) ∧
      runEnsembleThreads (realEnv so) v L ctor (growthDraws sh fuel x) = .ok table ∧
      (∀ k < L * L, ∀ c < 4, entry table k c = (∑ i, runEntry so L k c (runOrder L v.deep (x i))) / E) ∧
      (3 ≤ L → crit.map (·.pc) = List.ofFn (fun i => wrapStage L (runOrder L v.deep (x i))) ∧
        meanPc crit = (∑ i, wrapStage L (runOrder L v.deep (x i))) / E) := by
  have hv' : v ≠ .sp := by rcases hv with rfl | rfl <;> decide
  have hlen : (growthDraws sh fuel x).length = E := List.length_ofFn
  have hfu : ∀ r ∈ growthDraws sh fuel x, 5 * (L * L) < r.fuel := by
    intro r hr
    obtain ⟨i, rfl⟩ := (List.mem_ofFn' _ _).1 hr
    exact hf
  have hqs : (growthDraws sh fuel x).map (fun r => growthOrder L v.deep (List.range (L * L)) (5 * (L * L)) fun i => (r.steps i).pick) =
      List.ofFn fun i => runOrder L v.deep (x i) := by
    rw [growthDraws, List.map_ofFn]; rfl
  obtain ⟨Ss, table, h1, h2, h3, h4⟩ := ensemble_of_orders (so := so) hv' hL pl ctor (rs := growthDraws sh fuel x)
    (by intro h; rw [h] at hlen; simp at hlen; omega) hfu (fun S0 Ss e0 hR => hR.growth hv (.new e0) hfu)
  rw [hqs] at h1 h4
  have hget : ∀ i : Fin E, (List.ofFn fun i => runOrder L v.deep (x i)).getD i.1 [] = runOrder L v.deep (x i) := by
    intro i
    rw [getD_of_lt (by rw [List.length_ofFn]; exact i.2), List.getElem_ofFn]
  refine ⟨table, _, h2, h3, fun k hk c hc => ?_, fun hL3 => ⟨?_, ?_⟩⟩
  · rw [h4 k hk c hc, hlen, ← Fin.sum_univ_eq_sum_range (fun i => (dataRow so L (((List.ofFn fun i => runOrder L v.deep (x i)).getD i []).take (k + 1))).getD c 0)]
    congr 1
    refine Finset.sum_congr rfl fun i _ => ?_
    rw [hget i]; rfl
  · rw [← crit_pcs hL3 h1, List.map_ofFn]; rfl
  · rw [meanPc_orders hL3 h1, List.length_ofFn, ← Fin.sum_univ_eq_sum_range (fun i => wrapStage L ((List.ofFn fun i => runOrder L v.deep (x i)).getD i []))]
    congr 1
    refine Finset.sum_congr rfl fun i _ => ?_
    rw [hget i]

theorem draws_nonempty {n : Nat} (hM : 0 < M) : Nonempty (Draws M n) := ⟨fun _ => (⟨0, hM⟩, 0)⟩

/-- C93: the averages over `E` realisations of L1 or L2 have the same mean as those over one realisation, and `E` times smaller variance: in
every entry of the table, and (for `L ≥ 3`) in the mean of the column of the critical points.  All outcomes of the random numbers of the
placements are equally likely; the numbers for the shuffles are arbitrary.  (Exact arithmetic.) -/
theorem C93_variance (hv : v = .l1 ∨ v = .l2) (hL : 0 < L) (hM : 0 < M) (pl : Bool) (ctor : Nat → Nat) (sh : Nat → Nat → Nat) {fuel : Nat}
    (hf : 5 * (L * L) < fuel) :
    ∃ (table : ∀ E, (Fin E → Draws M (5 * (L * L))) → List (List ℝ)) (crit : ∀ E, (Fin E → Draws M (5 * (L * L))) → List (CritRow ℝ)),
      ∀ E, 0 < E →
      (∀ x, runEnsemble (realEnv so) v pl L ctor (growthDraws sh fuel x) = .ok (table E x, crit E x)) ∧
      (∀ x, runEnsembleThreads (realEnv so) v L ctor (growthDraws sh fuel x) = .ok (table E x)) ∧
      (∀ k < L * L, ∀ c < 4, meanOf (fun x => entry (table E x) k c) = meanOf (fun x => entry (table 1 x) k c) ∧
        varOf (fun x => entry (table E x) k c) = varOf (fun x => entry (table 1 x) k c) / E) ∧
      (3 ≤ L → meanOf (fun x => meanPc (crit E x)) = meanOf (fun x => meanPc (crit 1 x)) ∧
        varOf (fun x => meanPc (crit E x)) = varOf (fun x => meanPc (crit 1 x)) / E) := by
  have := draws_nonempty (n := 5 * (L * L)) hM
  have hall : ∀ (E : Nat) (x : Fin E → Draws M (5 * (L * L))), ∃ table crit, 0 < E → _ := fun E x => by
    by_cases hE : 0 < E
    · obtain ⟨table, crit, h⟩ := C93_table (so := so) hv hL hE pl ctor sh hf x
      exact ⟨table, crit, fun _ => h⟩
    · exact ⟨[], [], fun h => absurd h hE⟩
  choose table crit h using hall
  refine ⟨table, crit, fun E hE => ⟨fun x => (h E x hE).1, fun x => (h E x hE).2.1, fun k hk c hc => ?_, fun hL3 => ?_⟩⟩
  · obtain ⟨a1, a2⟩ := varOf_average hE (fun y => runEntry so L k c (runOrder L v.deep y)) fun x => (h E x hE).2.2.1 k hk c hc
    obtain ⟨b1, b2⟩ := varOf_average one_pos (fun y => runEntry so L k c (runOrder L v.deep y)) fun x => (h 1 x one_pos).2.2.1 k hk c hc
    exact ⟨a1.trans b1.symm, by rw [a2, b2, Nat.cast_one, div_one]⟩
  · obtain ⟨a1, a2⟩ := varOf_average hE (fun y => wrapStage L (runOrder L v.deep y)) fun x => ((h E x hE).2.2.2 hL3).2
    obtain ⟨b1, b2⟩ := varOf_average one_pos (fun y => wrapStage L (runOrder L v.deep y)) fun x => ((h 1 x one_pos).2.2.2 hL3).2
    exact ⟨a1.trans b1.symm, by rw [a2, b2, Nat.cast_one, div_one]⟩

/-- C93, what the averages estimate and how far they can be off: entry (k, c) of the table of `E` realisations has as its mean the average of
that quantity over the growth process of the specification, and the fraction of the outcomes for which it differs from that by `ε` or more
is at most `1 / (4 E ε²)` in the two order parameter columns and `(log 2L²)² / (4 E ε²)` in the entropy column; for the mean critical
point it is at most `1 / (4 E ε²)`. -/
theorem C93_deviation (hv : v = .l1 ∨ v = .l2) (hL : 0 < L) (hM : 0 < M) (hE : 0 < E) (pl : Bool) (ctor : Nat → Nat) (sh : Nat → Nat → Nat)
    {fuel : Nat} (hf : 5 * (L * L) < fuel) {ε : ℝ} (hε : 0 < ε) :
    ∃ (table : (Fin E → Draws M (5 * (L * L))) → List (List ℝ)) (crit : (Fin E → Draws M (5 * (L * L))) → List (CritRow ℝ)),
      (∀ x, runEnsemble (realEnv so) v pl L ctor (growthDraws sh fuel x) = .ok (table x, crit x)) ∧
      (∀ x, runEnsembleThreads (realEnv so) v L ctor (growthDraws sh fuel x) = .ok (table x)) ∧
      (∀ k < L * L, (∀ x, entry (table x) k 0 = ((k + 1 : Nat) : ℝ) / (L * L : Nat)) ∧
        (∀ c < 4, meanOf (fun x => entry (table x) k c) = meanOf fun y : Draws M (5 * (L * L)) => runEntry so L k c (runOrder L v.deep y)) ∧
        meanOf (fun x => ind (ε ≤ |entry (table x) k 1 - meanOf fun y : Draws M (5 * (L * L)) => runEntry so L k 1 (runOrder L v.deep y)|)) ≤
          Real.log (2 * (L * L) : Nat) ^ 2 / (4 * E * ε ^ 2) ∧
        meanOf (fun x => ind (ε ≤ |entry (table x) k 2 - meanOf fun y : Draws M (5 * (L * L)) => runEntry so L k 2 (runOrder L v.deep y)|)) ≤
          1 / (4 * E * ε ^ 2) ∧
        meanOf (fun x => ind (ε ≤ |entry (table x) k 3 - meanOf fun y : Draws M (5 * (L * L)) => runEntry so L k 3 (runOrder L v.deep y)|)) ≤
          1 / (4 * E * ε ^ 2)) ∧
      (3 ≤ L → meanOf (fun x => ind (ε ≤ |meanPc (crit x) - meanOf fun y : Draws M (5 * (L * L)) => wrapStage L (runOrder L v.deep y)|)) ≤
        1 / (4 * E * ε ^ 2)) := by
  have := draws_nonempty (n := 5 * (L * L)) hM
  choose table crit h1 h2 h3 h4 using fun x : Fin E → Draws M (5 * (L * L)) => C93_table (so := so) hv hL hE pl ctor sh hf x
  have hE0 : (0 : ℝ) < E := by exact_mod_cast hE
  have key : ∀ (f : List Nat → ℝ) (G : (Fin E → Draws M (5 * (L * L))) → ℝ) (b : ℝ), (∀ x, G x = (∑ i, f (runOrder L v.deep (x i))) / E) →
      (∀ q, q.Perm (List.range (L * L)) → 0 ≤ f q ∧ f q ≤ b) →
      meanOf (fun x => ind (ε ≤ |G x - meanOf fun y : Draws M (5 * (L * L)) => f (runOrder L v.deep y)|)) ≤ b ^ 2 / (4 * E * ε ^ 2) := by
    intro f G b hG hb
    obtain ⟨a1, a2⟩ := varOf_average hE (fun y : Draws M (5 * (L * L)) => f (runOrder L v.deep y)) hG
    rw [← a1]
    refine (chebyshev hε).trans ?_
    rw [a2]
    have := varOf_le (a := 0) (b := b) fun y : Draws M (5 * (L * L)) => hb _ (runOrder_perm hv hL y)
    rw [sub_zero] at this
    rw [div_div, div_le_div_iff₀ (by positivity) (by positivity)]
    have h2 := mul_le_mul_of_nonneg_right this (by positivity : (0 : ℝ) ≤ 4 * E * ε ^ 2)
    calc _ ≤ _ := h2
      _ = _ := by ring
  refine ⟨table, crit, h1, h2, fun k hk => ⟨fun x => ?_, fun c hc => ?_, ?_, ?_, ?_⟩, fun hL3 => ?_⟩
  · rw [h3 x k hk 0 (by decide), Finset.sum_congr rfl fun i _ => (runEntry_bounds hL (runOrder_perm hv hL (x i)) hk).1, Finset.sum_const,
      Finset.card_univ, Fintype.card_fin, nsmul_eq_mul]
    field_simp
  · exact (varOf_average hE (fun y => runEntry so L k c (runOrder L v.deep y)) fun x => h3 x k hk c hc).1
  · exact key (runEntry so L k 1) _ _ (fun x => h3 x k hk 1 (by decide)) fun q hq => (runEntry_bounds hL hq hk).2.1
  · simpa using key (runEntry so L k 2) _ 1 (fun x => h3 x k hk 2 (by decide)) fun q hq => (runEntry_bounds hL hq hk).2.2.1
  · simpa using key (runEntry so L k 3) _ 1 (fun x => h3 x k hk 3 (by decide)) fun q hq => (runEntry_bounds hL hq hk).2.2.2
  · simpa using key (wrapStage L) _ 1 (fun x => (h4 x hL3).2) fun q _ => wrapStage_bounds hL q

/-- C93: the critical points of the realisations are independent and all have the same distribution, that of the stage at which the growth
process wraps. -/
theorem C93_independent (hv : v = .l1 ∨ v = .l2) (hL : 3 ≤ L) (hE : 0 < E) (pl : Bool) (ctor : Nat → Nat) (sh : Nat → Nat → Nat) {fuel : Nat}
    (hf : 5 * (L * L) < fuel) :
    ∃ (table : (Fin E → Draws M (5 * (L * L))) → List (List ℝ)) (crit : (Fin E → Draws M (5 * (L * L))) → List (CritRow ℝ))
      (pc : Fin E → (Fin E → Draws M (5 * (L * L))) → ℝ),
      (∀ x, runEnsemble (realEnv so) v pl L ctor (growthDraws sh fuel x) = .ok (table x, crit x)) ∧
      (∀ x, (crit x).map (·.pc) = List.ofFn fun i => pc i x) ∧
      ∀ A : Fin E → ℝ → Prop, meanOf (fun x => ∏ i, ind (A i (pc i x))) =
        ∏ i, meanOf fun y : Draws M (5 * (L * L)) => ind (A i (wrapStage L (runOrder L v.deep y))) := by
  choose table crit h1 h2 h3 h4 using fun x : Fin E → Draws M (5 * (L * L)) => C93_table (so := so) hv (by omega : 0 < L) hE pl ctor sh hf x
  exact ⟨table, crit, fun i x => wrapStage L (runOrder L v.deep (x i)), h1, fun x => (h4 x hL).1, fun A =>
    meanOf_prod fun i y => ind (A i (wrapStage L (runOrder L v.deep y)))⟩

/-- C93: the law of the placement order of a realisation of L1 is invariant under the symmetries of the periodic lattice (if `M` is divisible by all
numbers of candidates, so that the choice among the candidates is uniform), so all that the tables estimate is independent of the numbering
of rows and columns. -/
theorem C93_symmetric (hM : ∀ w, 0 < w → w ≤ L * L → w ∣ M) (hL : 0 < L) (σ : Symmetry L) (f : List Nat → ℝ) :
    meanOf (fun y : Draws M (5 * (L * L)) => f ((runOrder L false y).map σ.site)) =
      meanOf fun y : Draws M (5 * (L * L)) => f (runOrder L false y) := by
  obtain ⟨S0, _, h0⟩ := fresh_exists demoEnv .l1 hL (fun _ => 0)
  obtain ⟨S, e1, _⟩ := h0.live.1.reset (fun _ => 0)
  have h : Fresh demoEnv .l1 L S := .reset h0.defReach e1
  have hid := reset_siteIds h0.defReach e1
  rw [if_pos (Or.inl rfl)] at hid
  have e : ∀ y : Draws M (5 * (L * L)), runOrder L false y = order demoEnv .l1 (5 * (L * L)) y.seq S := by
    intro y
    rw [h.growth (Or.inl rfl), hid]; rfl
  unfold meanOf
  congr 1
  have := C91_average h h σ hM (5 * (L * L)) (fun l => f (l.filterMap id))
  simp only [filterMap_option] at this
  simp only [e]
  exact this.symm

/-- The hypotheses are met, for example, by two realisations on the lattice of length 3 with `M = 9!`. -/
example (so : SetOrder) : ∃ (table : (Fin 2 → Draws (Nat.factorial 9) 45) → List (List ℝ)) (crit : (Fin 2 → Draws (Nat.factorial 9) 45) → List (CritRow ℝ)),
    (∀ x, runEnsemble (realEnv so) .l2 true 3 id (growthDraws (fun i => (· + i)) 46 x) = .ok (table x, crit x)) ∧
    meanOf (fun x => ind ((1 : ℝ) ≤ |meanPc (crit x) - meanOf fun y : Draws (Nat.factorial 9) 45 => wrapStage 3 (runOrder 3 true y)|)) ≤ 1 / 8 := by
  obtain ⟨table, crit, h1, _, _, h4⟩ := C93_deviation (so := so) (v := .l2) (M := Nat.factorial 9) (E := 2) (L := 3) (Or.inr rfl) (by decide)
    (Nat.factorial_pos 9) (by decide) true id (fun i => (· + i)) (fuel := 46) (by decide) one_pos
  refine ⟨table, crit, h1, (h4 (by decide)).trans (by norm_num)⟩

end SqPerc
