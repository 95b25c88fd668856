import Verif.Proof.Mean
import Verif.Props.Seed
import Verif.Props.Symmetry
/-
Property C69: what the tables and critical values estimate.
-/
namespace SqPerc

variable {L : Nat} {so : SetOrder}

/-! ### The placement orders of an ensemble of L0 -/

theorem Clean.plain_realisation {b : Bool} {S : Perc ℝ} (h : Clean (realEnv so) .l0 L b S) {r : RunDraws} (hf : L * L < r.fuel) :
    ∃ S1 S2, S.reset (realEnv so) .l0 r.shuffle = .ok S1 ∧ S1.runOnceV (realEnv so) .l0 r.fuel r.steps = .ok S2 ∧
      Clean (realEnv so) .l0 L false S2 ∧ S2.siteIds = pyShuffle r.shuffle S.siteIds ∧
      Trace (realEnv so) .l0 L S2 (pyShuffle r.shuffle S.siteIds) ∧ (pyShuffle r.shuffle S.siteIds).Perm (List.range (L * L)) ∧
      S2.getDataArray = .ok ((stages [] (pyShuffle r.shuffle S.siteIds)).map (dataRow so L)) := by
  have hv : Variant.l0 ≠ .sp := by decide
  obtain ⟨S1, e1, _⟩ := (h.reach hv).1.live.reset r.shuffle
  have h1 := h.reset e1
  have hF := (h1.reach hv).2 rfl
  have hid := reset_siteIds (h.reach hv).1 e1
  rw [if_neg (by decide)] at hid
  obtain ⟨hp, R⟩ := hF.perm rfl
  have hl : S1.siteIds.length = L * L := by rw [hp.length_eq, List.length_range]
  obtain ⟨U, e, T, R1, c⟩ := R.runLoop rfl (hp.nodup_iff.2 List.nodup_range) r.fuel r.steps hF.trace (by omega)
  rw [List.take_zero, List.drop_zero] at c
  have e2 : S1.runOnce (realEnv so) .l0 r.fuel r.steps = .ok { U with firstRun := false } := by
    simp only [Perc.runOnce]; rw [e]; rfl
  rw [← hid]
  refine ⟨S1, _, e1, e2, h1.run e2, R1.siteIds, T.data false _ _ _ _ _, hp, ?_⟩
  have D := h1.data hv
  obtain ⟨d1, d2, d3⟩ := D.lists rfl
  obtain ⟨es, x1, _, x2⟩ := c.entropy
  have hes := x2 (fun q => shannon L (· ∈ q)) (fun T q h => h.entropy)
  have hprob : (stages [] S1.siteIds).map (prob (realEnv so) L) = fullProbs (realEnv so) L := by
    rw [stages_prob, hl]
    unfold fullProbs
    apply List.map_congr_left
    intro k _; simp
  have c1 : U.occProbList = (stages [] S1.siteIds).map (prob (realEnv so) L) := by
    rw [c.occProb]
    rcases D.probs with ⟨h1, h2⟩ | ⟨h1, h2⟩
    · rw [if_pos h1, h2]; rfl
    · rw [if_neg (by rw [h1]; simp), h2, hprob]
  have c2 := c.ordWrap
  have c3 := c.ordLargest
  rw [d1, List.nil_append, hes] at x1
  rw [d2, List.nil_append] at c2
  rw [d3, List.nil_append] at c3
  simp only [Perc.getDataArray, c1, x1, c2, c3]
  rw [if_pos (by simp)]
  congr 1
  generalize stages [] S1.siteIds = l
  induction l with
  | nil => rfl
  | cons q l ih => simp only [List.map_cons, List.zip_cons_cons, ih]; rfl

/-- An object with the placement order `q` of its run. -/
structure Ran (so : SetOrder) (v : Variant) (L : Nat) (S : Perc ℝ) (q : List Nat) : Prop where
  trace : Trace (realEnv so) v L S q
  perm : q.Perm (List.range (L * L))
  array : S.getDataArray = .ok ((stages [] q).map (dataRow so L))

theorem Realised.ran {rs : List RunDraws} {Ss : List (Perc ℝ)} {S : Perc ℝ} (hR : Realised (realEnv so) .l0 S rs Ss) :
    ∀ {b : Bool}, Clean (realEnv so) .l0 L b S → (∀ r ∈ rs, L * L < r.fuel) →
      List.Forall₂ (Ran so .l0 L) Ss (shuffleOrders S.siteIds (rs.map (·.shuffle))) := by
  induction hR with
  | nil => intro b _ _; exact .nil
  | @cons S S1 S2 r rs Ss h1 h2 _ ih =>
    intro b h hf
    obtain ⟨T1, T2, e1, e2, hc, hid, hT, hp, hd⟩ := h.plain_realisation (hf r (List.mem_cons_self ..))
    rw [h1] at e1
    obtain rfl := Except.ok.inj e1
    rw [h2] at e2
    obtain rfl := Except.ok.inj e2
    rw [List.map_cons, shuffleOrders]
    refine .cons ⟨hT, hp, hd⟩ ?_
    rw [← hid]
    exact ih hc (fun r hr => hf r (List.mem_cons_of_mem _ hr))

theorem getD_of_lt {β : Type} {l : List β} {d : β} {i : Nat} (h : i < l.length) : l.getD i d = l[i] := by
  rw [List.getD_eq_getElem?_getD, List.getElem?_eq_getElem h]; rfl

/-- The entry in row `k` and column `c` of a table. -/
def entry (t : List (List ℝ)) (k c : Nat) : ℝ := (t.getD k []).getD c 0

/-- The table of an ensemble of L0, L1 or L2 in terms of the placement orders. -/
theorem ensemble_of_orders {v : Variant} (hv : v ≠ .sp) (hL : 0 < L) (pl : Bool) (ctor : Nat → Nat) {rs : List RunDraws} (hne : rs ≠ [])
    (hf : ∀ r ∈ rs, 5 * (L * L) < r.fuel) {qs : List (List Nat)}
    (hqs : ∀ S0 Ss, Perc.new (realEnv so) L ctor = .ok S0 → Realised (realEnv so) v S0 rs Ss → List.Forall₂ (Ran so v L) Ss qs) :
    ∃ (Ss : List (Perc ℝ)) (data : List (List ℝ)), List.Forall₂ (Ran so v L) Ss qs ∧
      runEnsemble (realEnv so) v pl L ctor rs = .ok (data, Ss.map (critRow (realEnv so))) ∧
      runEnsembleThreads (realEnv so) v L ctor rs = .ok data ∧
      ∀ k < L * L, ∀ c < 4, entry data k c = (∑ i ∈ Finset.range rs.length, ((dataRow so L ((qs.getD i []).take (k + 1))).getD c 0)) / rs.length := by
  obtain ⟨S0, S1, Ss, F, data, e0, hR, hlen, hF, h1, h2, h3, h4⟩ := C42_entrywise_mean (env := realEnv so) hv hL pl ctor hne hf
  have hran := hqs _ _ e0 hR
  have hql : qs.length = rs.length := by rw [← hran.length_eq, hlen]
  refine ⟨S1 :: Ss, data, hran, h1, h2, ?_⟩
  intro k hk c hc
  obtain ⟨row, r1, r2, r3⟩ := h4 k hk
  have hval : ∀ S q, S ∈ S1 :: Ss → Ran so v L S q → F S k c = (dataRow so L (q.take (k + 1))).getD c 0 := by
    intro S q hS hr
    obtain ⟨A, a1, a2, a3⟩ := hF S hS
    have hk' := a3 k hk
    rw [hr.array] at a1
    have hst : (stages [] q)[k]? = some (q.take (k + 1)) := by
      rw [stages_getElem?, if_pos (by rw [hr.perm.length_eq, List.length_range]; exact hk)]
      simp
    rw [← Except.ok.inj a1, List.getElem?_map, hst] at hk'
    have hrow := Option.some.inj hk'
    rw [hrow]
    match c, hc with
    | 0, _ => rfl
    | 1, _ => rfl
    | 2, _ => rfl
    | 3, _ => rfl
  have hent : entry data k c = (∑ i ∈ Finset.range (S1 :: Ss).length, F ((S1 :: Ss).getD i S1) k c) / rs.length := by
    rw [entry, List.getD_eq_getElem?_getD, List.getD_eq_getElem?_getD, r1, Option.getD_some, r3 c hc, Option.getD_some]
    show _ / (rs.length : ℝ) = _
    congr 1
    have hfold : ∀ (Ss : List (Perc ℝ)) (a : ℝ), Ss.foldl (fun a S => (realEnv so).ar.add a (F S k c)) a = a + (Ss.map fun S => F S k c).sum := by
      intro Ss
      induction Ss with
      | nil => intro a; simp
      | cons S Ss ih =>
        intro a
        rw [List.foldl_cons, ih, List.map_cons, List.sum_cons, ← add_assoc]; rfl
    rw [hfold, ← List.sum_cons, ← List.map_cons (f := fun S => F S k c), ← Fin.sum_univ_eq_sum_range (fun i => F ((S1 :: Ss).getD i S1) k c)]
    rw [← List.sum_ofFn]
    congr 1
    apply List.ext_getElem
    · simp
    · intro n h1 h2
      simp only [List.getElem_map, List.getElem_ofFn]
      rw [getD_of_lt (by simpa using h1)]
  rw [hent, hlen]
  congr 1
  refine Finset.sum_congr rfl fun i hi => ?_
  rw [Finset.mem_range] at hi
  have i1 : i < (S1 :: Ss).length := by omega
  have i2 : i < qs.length := by omega
  rw [getD_of_lt i1, getD_of_lt i2]
  exact hval _ _ (List.getElem_mem i1) (List.forall₂_iff_get.1 hran |>.2 i i1 i2)

/-- The table of an ensemble of L0 in terms of the shuffles. -/
theorem ensemble_orders (hL : 0 < L) (pl : Bool) (ctor : Nat → Nat) {rs : List RunDraws} (hne : rs ≠ []) (hf : ∀ r ∈ rs, 5 * (L * L) < r.fuel) :
    ∃ (Ss : List (Perc ℝ)) (data : List (List ℝ)),
      List.Forall₂ (Ran so .l0 L) Ss (shuffleOrders (pyShuffle ctor (List.range (L * L))) (rs.map (·.shuffle))) ∧
      runEnsemble (realEnv so) .l0 pl L ctor rs = .ok (data, Ss.map (critRow (realEnv so))) ∧
      runEnsembleThreads (realEnv so) .l0 L ctor rs = .ok data ∧
      ∀ k < L * L, ∀ c < 4, entry data k c =
        (∑ i ∈ Finset.range rs.length, ((dataRow so L (((shuffleOrders (pyShuffle ctor (List.range (L * L))) (rs.map (·.shuffle))).getD i []).take
          (k + 1))).getD c 0)) / rs.length := by
  refine ensemble_of_orders (by decide) hL pl ctor hne hf fun S0 Ss e0 hR => ?_
  have hids : S0.siteIds = pyShuffle ctor (List.range (L * L)) := by
    obtain ⟨rev, e, _⟩ := new_ok (realEnv so) hL ctor
    rw [e] at e0
    rw [← Except.ok.inj e0]
  rw [← hids]
  exact hR.ran (.new e0) (fun r hr => by have := hf r hr; omega)

/-! ### The critical point of an order -/

theorem ind_nonneg (p : Prop) : 0 ≤ ind p := by
  unfold ind; split <;> norm_num

theorem Ran.pc {v : Variant} {S : Perc ℝ} {q : List Nat} (hL : 3 ≤ L) (hq : q.Perm (List.range (L * L))) {m : Nat}
    (T : Trace (realEnv so) v L S (q.take m)) (hw : Wraps L (· ∈ q.take m)) : ∃ p, p < L * L ∧ S.getPc (realEnv so) = ((p + 1 : Nat) : ℝ) / (L * L : Nat) ∧
      ∀ n, Wraps L (· ∈ q.take n) ↔ p < n := by
  obtain ⟨pre, k, post, g1, g2, g3, g4, _⟩ := (C21_critical_values hL T).1 hw
  have hq' : q = pre ++ k :: (post ++ q.drop m) := by
    conv_lhs => rw [← List.take_append_drop m q, g1]
    simp
  refine ⟨pre.length, ?_, g4, fun n => ?_⟩
  · have : q.length = L * L := by rw [hq.length_eq, List.length_range]
    rw [← this, hq']; simp
  · constructor
    · intro h
      by_contra hn
      refine g2 (h.mono fun s hs => ?_)
      rw [hq', List.take_append_of_le_length (by omega)] at hs
      exact List.mem_of_mem_take hs
    · intro h
      refine Wraps.mono (fun s hs => ?_) ⟨k, g3⟩
      have : (pre ++ [k]).length ≤ n := by simpa using h
      rw [hq', List.append_cons, List.take_append, List.take_of_length_le this]
      exact List.mem_append_left _ hs

/-- The average of the indicator that a random order has wrapped after `n` sites is the fraction of wrapping sets of `n` sites. -/
theorem meanOf_wraps {n : Nat} (hn : n ≤ L * L) :
    meanOf (fun y : DrawVec (L * L) => ind (Wraps L (· ∈ (pyShuffle y.draws (List.range (L * L))).take n))) =
    micro (L * L) n fun T => ind (Wraps L (· ∈ T)) := by
  rw [← meanOf_take hn]
  refine meanOf_congr fun y => ?_
  congr 1
  simp only [List.mem_toFinset]

/-- The law of the critical point of the `i`-th shuffle of a row of independent ones. -/
theorem critical_law {E i : Nat} (hL : 3 ≤ L) (hi : i < E) {l : List Nat} (hp : l.Perm (List.range (L * L)))
    {pc : (Fin E → DrawVec (L * L)) → ℝ} {p : (Fin E → DrawVec (L * L)) → Nat} (c2 : ∀ x, p x < L * L)
    (c3 : ∀ x, pc x = ((p x + 1 : Nat) : ℝ) / (L * L : Nat))
    (c4 : ∀ x n, Wraps L (· ∈ ((shuffleOrders l (List.ofFn fun j => (x j).draws)).getD i []).take n) ↔ p x < n) :
    (∀ n ≤ L * L, meanOf (fun x => ind (pc x ≤ (n : ℝ) / (L * L : Nat))) = micro (L * L) n fun T => ind (Wraps L (· ∈ T))) ∧
    meanOf pc = (∑ n ∈ Finset.range (L * L), (1 - micro (L * L) n fun T => ind (Wraps L (· ∈ T)))) / (L * L : Nat) := by
  have hL0 : 0 < L * L := by positivity
  let qs := fun x : Fin E → DrawVec (L * L) => shuffleOrders l (List.ofFn fun j => (x j).draws)
  have hwr : ∀ n ≤ L * L, meanOf (fun x => ind (Wraps L (· ∈ ((qs x).getD i []).take n))) = micro (L * L) n fun T => ind (Wraps L (· ∈ T)) := by
    intro n hn
    rw [← meanOf_wraps hn]
    exact meanOf_orders (fun q => ind (Wraps L (· ∈ q.take n))) hp i hi
  have hN : (0 : ℝ) < (L * L : Nat) := by exact_mod_cast hL0
  refine ⟨fun n hn => ?_, ?_⟩
  · rw [← hwr n hn]
    refine meanOf_congr fun x => ?_
    congr 1
    rw [eq_iff_iff, c4 x n, c3 x, div_le_div_iff_of_pos_right hN, Nat.cast_le]
    exact Nat.succ_le_iff
  · have hsum : ∀ x, pc x = (∑ n ∈ Finset.range (L * L), (1 - ind (Wraps L (· ∈ ((qs x).getD i []).take n)))) / (L * L : Nat) := by
      intro x
      rw [c3 x]
      congr 1
      have : ∀ n ∈ Finset.range (L * L), (1 - ind (Wraps L (· ∈ ((qs x).getD i []).take n))) = if n < p x + 1 then 1 else 0 := by
        intro n _
        rw [c4 x n]
        unfold ind
        by_cases h : p x < n
        · rw [if_pos h, if_neg (by omega)]; norm_num
        · rw [if_neg h, if_pos (by omega)]; norm_num
      rw [Finset.sum_congr rfl this, ← Finset.sum_filter, Finset.sum_const, nsmul_eq_mul, mul_one]
      congr 1
      have hf : (Finset.range (L * L)).filter (· < p x + 1) = Finset.range (p x + 1) := by
        ext n
        simp only [Finset.mem_filter, Finset.mem_range]
        have := c2 x
        omega
      rw [hf, Finset.card_range]
    rw [meanOf_congr hsum, meanOf_div, meanOf_sum]
    congr 1
    refine Finset.sum_congr rfl fun n hn => ?_
    have : Nonempty (Fin E → DrawVec (L * L)) := inferInstance
    rw [meanOf_sub, meanOf_const, hwr n (Finset.mem_range.1 hn).le]

/-! ### C69 -/

/-- The random numbers of `E` realisations: the vectors `x i` of the shuffles, and arbitrary numbers for the placements, which L0 does not
use.  The fuel is enough for every run. -/
def ensembleDraws {N E : Nat} (steps : Nat → Draw) (fuel : Nat) (x : Fin E → DrawVec N) : List RunDraws :=
  List.ofFn fun i => ⟨(x i).draws, steps, fuel⟩

theorem ensembleDraws_shuffles {N E : Nat} (steps : Nat → Draw) (fuel : Nat) (x : Fin E → DrawVec N) :
    (ensembleDraws steps fuel x).map (·.shuffle) = List.ofFn fun i => (x i).draws := by
  rw [ensembleDraws, List.map_ofFn]; rfl

theorem meanOf_ensemble {E : Nat} (hE : 0 < E) {l : List Nat} (hl : l.Perm (List.range (L * L))) {n : Nat} (hn : n ≤ L * L) (f : Finset Nat → ℝ)
    {h : List Nat → ℝ} (hh : ∀ q, h q = f q.toFinset) {G : (Fin E → DrawVec (L * L)) → ℝ}
    (hG : ∀ x, G x = (∑ i ∈ Finset.range E, h (((shuffleOrders l (List.ofFn fun j => (x j).draws)).getD i []).take n)) / E) :
    meanOf G = micro (L * L) n f := by
  rw [meanOf_congr hG, meanOf_div, meanOf_sum]
  have : ∀ i ∈ Finset.range E, meanOf (fun x : Fin E → DrawVec (L * L) => h (((shuffleOrders l (List.ofFn fun j => (x j).draws)).getD i []).take n)) =
      micro (L * L) n f := by
    intro i hi
    rw [meanOf_orders (fun q => h (q.take n)) hl i (Finset.mem_range.1 hi), ← meanOf_take hn]
    exact meanOf_congr fun y => hh _
  rw [Finset.sum_congr rfl this, Finset.sum_const, Finset.card_range, nsmul_eq_mul]
  have : (E : ℝ) ≠ 0 := by exact_mod_cast hE.ne'
  field_simp

/-- C69: the table of `run_ensemble_entropy_order(SitePercolationL0, L, E)` is an unbiased estimate: averaged over all outcomes of the
shuffles, row `k` of the entropy column is the average entropy of all configurations with `k + 1` occupied sites, and row `k` of the
column of the largest cluster is the average of their largest clusters.  (Exact arithmetic.) -/
theorem C69_table (hL : 0 < L) {E : Nat} (hE : 0 < E) (pl : Bool) (ctor : Nat → Nat) (steps : Nat → Draw) {fuel : Nat} (hf : 5 * (L * L) < fuel) :
    ∃ (table : (Fin E → DrawVec (L * L)) → List (List ℝ)) (crit : (Fin E → DrawVec (L * L)) → List (CritRow ℝ)),
      (∀ x, runEnsemble (realEnv so) .l0 pl L ctor (ensembleDraws steps fuel x) = .ok (table x, crit x)) ∧
      (∀ x, runEnsembleThreads (realEnv so) .l0 L ctor (ensembleDraws steps fuel x) = .ok (table x)) ∧
      ∀ k < L * L,
        meanOf (fun x => entry (table x) k 1) = micro (L * L) (k + 1) (fun T => shannon L (· ∈ T)) ∧
        meanOf (fun x => entry (table x) k 2) =
          micro (L * L) (k + 1) (fun T => ((bondComps L (· ∈ T)).sup Finset.card : ℕ) / (2 * (L * L) : Nat)) := by
  have hlen : ∀ x : Fin E → DrawVec (L * L), (ensembleDraws steps fuel x).length = E := fun x => List.length_ofFn
  have hall : ∀ x : Fin E → DrawVec (L * L), _ := fun x => ensemble_orders (so := so) hL pl ctor (rs := ensembleDraws steps fuel x)
    (by intro h; have := hlen x; rw [h] at this; simp at this; omega)
    (by
      intro r hr
      obtain ⟨i, rfl⟩ := (List.mem_ofFn' _ _).1 hr
      exact hf)
  choose Ss table h1 h2 h3 h4 using hall
  refine ⟨table, fun x => (Ss x).map (critRow (realEnv so)), h2, h3, fun k hk => ?_⟩
  have hp := pyShuffle_perm ctor (List.range (L * L))
  refine ⟨?_, ?_⟩
  · refine meanOf_ensemble hE hp (n := k + 1) hk _ (h := fun q => shannon L (· ∈ q)) (fun q => by simp only [List.mem_toFinset]) fun x => ?_
    rw [h4 x k hk 1 (by decide), ensembleDraws_shuffles, hlen]
    rfl
  · have hE' : ∀ x : Fin E → DrawVec (L * L), entry (table x) k 2 = (∑ i ∈ Finset.range E, (fun q : List Nat => ((bondComps L (· ∈ q)).sup Finset.card : ℕ) / ((2 * (L * L) : Nat) : ℝ))
        (((shuffleOrders (pyShuffle ctor (List.range (L * L))) (List.ofFn fun j => (x j).draws)).getD i []).take (k + 1))) / E := by
      intro x
      rw [h4 x k hk 2 (by decide), ensembleDraws_shuffles, hlen]
      congr 1
      refine Finset.sum_congr rfl fun i hi => ?_
      rw [Finset.mem_range] at hi
      have hi' : i < (shuffleOrders (pyShuffle ctor (List.range (L * L))) (List.ofFn fun j => (x j).draws)).length := by
        rw [shuffleOrders_length, List.length_ofFn]; exact hi
      have hq := (shuffleOrders_perm (List.getElem_mem hi')).trans hp
      rw [getD_of_lt hi']
      show (seqLargest L _ : ℝ) / _ = _
      rw [seqLargest, if_neg]
      intro h
      have := congrArg List.length h
      rw [List.length_take, hq.length_eq, List.length_range, List.length_nil] at this
      omega
    exact meanOf_ensemble hE hp (n := k + 1) hk _ (h := fun q : List Nat => ((bondComps L (· ∈ q)).sup Finset.card : ℕ) / ((2 * (L * L) : Nat) : ℝ))
      (fun q => by simp only [List.mem_toFinset]) hE'

/-- C69: every row of the critical file of L0 has the distribution of the critical point: for `L ≥ 3` the probability that the `i`-th value
of p_c is at most `n / (L * L)` is the fraction of the sets of `n` sites that wrap, and its mean is the sum of the fractions of the
sets that do not wrap, divided by the number of sites. -/
theorem C69_critical (hL : 3 ≤ L) {E : Nat} (pl : Bool) (ctor : Nat → Nat) (steps : Nat → Draw) {fuel : Nat} (hf : 5 * (L * L) < fuel) {i : Nat}
    (hi : i < E) :
    ∃ (table : (Fin E → DrawVec (L * L)) → List (List ℝ)) (crit : (Fin E → DrawVec (L * L)) → List (CritRow ℝ))
      (pc : (Fin E → DrawVec (L * L)) → ℝ),
      (∀ x, runEnsemble (realEnv so) .l0 pl L ctor (ensembleDraws steps fuel x) = .ok (table x, crit x)) ∧
      (∀ x, (crit x)[i]?.map (·.pc) = some (pc x)) ∧
      (∀ n ≤ L * L, meanOf (fun x => ind (pc x ≤ (n : ℝ) / (L * L : Nat))) = micro (L * L) n fun T => ind (Wraps L (· ∈ T))) ∧
      meanOf pc = (∑ n ∈ Finset.range (L * L), (1 - micro (L * L) n fun T => ind (Wraps L (· ∈ T)))) / (L * L : Nat) := by
  have hL0 : 0 < L * L := by positivity
  have hlen : ∀ x : Fin E → DrawVec (L * L), (ensembleDraws steps fuel x).length = E := fun x => List.length_ofFn
  have hall : ∀ x : Fin E → DrawVec (L * L), _ := fun x => ensemble_orders (so := so) (by omega : 0 < L) pl ctor (rs := ensembleDraws steps fuel x)
    (by intro h; have := hlen x; rw [h] at this; simp at this; omega)
    (by
      intro r hr
      obtain ⟨i, rfl⟩ := (List.mem_ofFn' _ _).1 hr
      exact hf)
  choose Ss table h1 h2 h3 h4 using hall
  have hp := pyShuffle_perm ctor (List.range (L * L))
  let qs := fun x : Fin E → DrawVec (L * L) => shuffleOrders (pyShuffle ctor (List.range (L * L))) (List.ofFn fun j => (x j).draws)
  have hR : ∀ x, List.Forall₂ (Ran so .l0 L) (Ss x) (qs x) := by
    intro x
    have := h1 x
    rwa [ensembleDraws_shuffles] at this
  have hql : ∀ x, i < (qs x).length := fun x => by
    show i < (shuffleOrders _ _).length
    rw [shuffleOrders_length, List.length_ofFn]; exact hi
  have hSl : ∀ x, i < (Ss x).length := fun x => by rw [(hR x).length_eq]; exact hql x
  have hcrit : ∀ x, ∃ pc p, ((Ss x).map (critRow (realEnv so)))[i]?.map (·.pc) = some pc ∧ p < L * L ∧ pc = ((p + 1 : Nat) : ℝ) / (L * L : Nat) ∧
      ∀ n, Wraps L (· ∈ ((qs x).getD i []).take n) ↔ p < n := by
    intro x
    have hr := List.forall₂_iff_get.1 (hR x) |>.2 i (hSl x) (hql x)
    have hperm : ((qs x)[i]'(hql x)).Perm (List.range (L * L)) := hr.perm
    have hw : Wraps L (· ∈ (qs x)[i]'(hql x)) := full_wraps (by omega) fun s hs => hperm.mem_iff.2 (List.mem_range.2 hs)
    have hall : ((qs x)[i]'(hql x)).take (L * L) = (qs x)[i]'(hql x) := List.take_of_length_le (by rw [hperm.length_eq, List.length_range])
    obtain ⟨p, p1, p2, p3⟩ := Ran.pc (so := so) (v := .l0) (S := (Ss x)[i]'(hSl x)) hL hperm (m := L * L) (by rw [hall]; exact hr.trace) (by rw [hall]; exact hw)
    refine ⟨_, p, ?_, p1, p2, ?_⟩
    · rw [List.getElem?_map, List.getElem?_eq_getElem (hSl x)]; rfl
    · rw [getD_of_lt (hql x)]; exact p3
  choose pc p c1 c2 c3 c4 using hcrit
  obtain ⟨a, b⟩ := critical_law hL hi hp c2 c3 c4
  exact ⟨table, fun x => (Ss x).map (critRow (realEnv so)), pc, h2, c1, a, b⟩

/-! ### The shortest-path class -/

/-- The run of the shortest-path class does not change the list of sites. -/
theorem spLoop_siteIds {α : Type} {env : Env α} (fuel : Nat) : ∀ {S S' : Perc α} {pre : List Nat} {b : Bool}, Trace env .sp L S pre →
    Perc.spLoop env fuel S = .ok (S', b) → S'.siteIds = S.siteIds := by
  induction fuel with
  | zero => intro S S' pre b _ h; cases h
  | succ fuel ih =>
    intro S S' pre b T h
    cases hp : S.placeOneSite env .sp ⟨0, 0⟩ with
    | error e => simp only [Perc.spLoop] at h; rw [hp] at h; cases h
    | ok r =>
      obtain ⟨S1, more⟩ := r
      obtain ⟨A, M, hA⟩ := T.reachable
      have h1 : S1.siteIds = S.siteIds := by
        obtain ⟨S0, f, g1, _, _, K⟩ := placeOneSite_select M hA.inv hp
        rw [K.siteIds]
        exact selectL0_siteIds g1
      have hd : ∀ {S2 : Perc α} {w : Bool}, S1.detectWrapping = .ok (S2, w) → S2.siteIds = S.siteIds := by
        intro S2 w hd
        obtain ⟨A1, hst, M1⟩ := placeOneSite_steps M hA.inv hp
        obtain ⟨K, _, _⟩ := detectWrapping_keep M1 (hA.steps hst).inv hd
        rw [K.siteIds, h1]
      rcases spLoop_round T hp fuel with ⟨rfl, e, R⟩ | ⟨rfl, S2, k, _, _, T2, _, ⟨w, hw⟩, hsp, ⟨_, e, R⟩ | ⟨hn, e⟩⟩
      · rw [e] at h
        obtain ⟨rfl, rfl⟩ := Prod.mk.inj (Except.ok.inj h)
        exact h1
      · rw [e] at h
        obtain ⟨rfl, rfl⟩ := Prod.mk.inj (Except.ok.inj h)
        have := hd hw
        exact this
      · rw [e] at h
        rw [ih T2 h, hd hw]

/-- A finished run of the shortest-path class that worked through a prefix of the order `q`. -/
structure SpRan (so : SetOrder) (L : Nat) (S : Perc ℝ) (q : List Nat) : Prop where
  perm : q.Perm (List.range (L * L))
  run : ∃ m, Trace (realEnv so) .sp L S (q.take m) ∧ Wraps L (· ∈ q.take m)

theorem Realised.spRan (hL : 3 ≤ L) {rs : List RunDraws} {Ss : List (Perc ℝ)} {S : Perc ℝ} (hR : Realised (realEnv so) .sp S rs Ss) :
    DefReach (realEnv so) .sp L S → (∀ r ∈ rs, L * L < r.fuel) →
      List.Forall₂ (SpRan so L) Ss (shuffleOrders S.siteIds (rs.map (·.shuffle))) := by
  induction hR with
  | nil => intro _ _; exact .nil
  | @cons S S1 S2 r rs Ss h1 h2 _ ih =>
    intro h hf
    have F : Fresh (realEnv so) .sp L S1 := .reset h h1
    have hid := reset_siteIds h h1
    rw [if_neg (by decide)] at hid
    obtain ⟨hp, R⟩ := F.perm rfl
    have hnd := hp.nodup_iff.2 List.nodup_range
    have hl : S1.siteIds.length = L * L := by rw [hp.length_eq, List.length_range]
    obtain ⟨U, n, e, hn, T, _, hc⟩ := R.spRunOnce hnd F.trace (fuel := r.fuel) (by rw [hl]; exact hf r (List.mem_cons_self ..))
    have h2' : S1.spRunOnce (realEnv so) r.fuel = .ok S2 := h2
    obtain ⟨V, b, hV, hV'⟩ := spRunOnce_inv h2'
    have hids : S2.siteIds = S1.siteIds := by
      have := spLoop_siteIds r.fuel F.trace hV
      rw [hV']; exact this
    rw [h2'] at e
    obtain rfl := Except.ok.inj e
    rw [List.map_cons, shuffleOrders, ← hid]
    refine .cons ⟨hp, n, T, ?_⟩ ?_
    · rcases hc with ⟨_, _, _, k, _, hs⟩ | ⟨_, _, rfl, _⟩
      · exact hs.1.2
      · rw [List.take_length]
        exact full_wraps (by omega) fun s hs => hp.mem_iff.2 (List.mem_range.2 hs)
    · rw [← hids]
      exact ih (.step (.runOnce r.fuel r.steps) rfl F.defReach h2) (fun r hr => hf r (List.mem_cons_of_mem _ hr))

/-- C69: the first column of the file of the shortest-path class has the same law as the critical file of L0: although the runs stop at
the straight line, the probability that the `i`-th value is at most `n / (L * L)` is the fraction of the sets of `n` sites that wrap. -/
theorem C69_shortest_path (hL : 3 ≤ L) {E : Nat} (ctor : Nat → Nat) (steps : Nat → Draw) {fuel : Nat} (hf : L * L < fuel) {i : Nat} (hi : i < E) :
    ∃ (rows : (Fin E → DrawVec (L * L)) → List (ℝ × ℝ)) (pc : (Fin E → DrawVec (L * L)) → ℝ),
      (∀ x, spEnsemble (realEnv so) L ctor (ensembleDraws steps fuel x) = .ok (rows x)) ∧
      (∀ x, (rows x)[i]?.map (·.1) = some (pc x)) ∧
      (∀ n ≤ L * L, meanOf (fun x => ind (pc x ≤ (n : ℝ) / (L * L : Nat))) = micro (L * L) n fun T => ind (Wraps L (· ∈ T))) ∧
      meanOf pc = (∑ n ∈ Finset.range (L * L), (1 - micro (L * L) n fun T => ind (Wraps L (· ∈ T)))) / (L * L : Nat) := by
  have hp := pyShuffle_perm ctor (List.range (L * L))
  let qs := fun x : Fin E → DrawVec (L * L) => shuffleOrders (pyShuffle ctor (List.range (L * L))) (List.ofFn fun j => (x j).draws)
  have hql : ∀ x, i < (qs x).length := fun x => by
    show i < (shuffleOrders _ _).length
    rw [shuffleOrders_length, List.length_ofFn]; exact hi
  have hall : ∀ x, ∃ rows pc p, spEnsemble (realEnv so) L ctor (ensembleDraws steps fuel x) = .ok rows ∧ rows[i]?.map (·.1) = some pc ∧ p < L * L ∧
      pc = ((p + 1 : Nat) : ℝ) / (L * L : Nat) ∧ ∀ n, Wraps L (· ∈ ((qs x).getD i []).take n) ↔ p < n := by
    intro x
    have hfx : ∀ r ∈ ensembleDraws steps fuel x, L * L < r.fuel := by
      intro r hr
      obtain ⟨i, rfl⟩ := (List.mem_ofFn' _ _).1 hr
      exact hf
    obtain ⟨S0, Ss, rows, e0, hR, h1, h2, _⟩ := C42_shortest_path (so := so) hL ctor hfx
    have hids : S0.siteIds = pyShuffle ctor (List.range (L * L)) := by
      obtain ⟨rev, e, _⟩ := new_ok (realEnv so) (by omega : 0 < L) ctor
      rw [e] at e0
      rw [← Except.ok.inj e0]
    have hr := hR.spRan hL (.new e0) hfx
    rw [hids, ensembleDraws_shuffles] at hr
    have hSl : i < Ss.length := by rw [hr.length_eq]; exact hql x
    have hi' := List.forall₂_iff_get.1 hr |>.2 i hSl (hql x)
    obtain ⟨m, T, hw⟩ := hi'.run
    obtain ⟨p, p1, p2, p3⟩ := Ran.pc hL hi'.perm T hw
    refine ⟨rows, _, p, h1, ?_, p1, p2, ?_⟩
    · rw [h2, List.getElem?_map, List.getElem?_eq_getElem hSl]; rfl
    · rw [getD_of_lt (hql x)]; exact p3
  choose rows pc p h1 h2 c2 c3 c4 using hall
  exact ⟨rows, pc, h1, h2, critical_law hL hi hp c2 c3 c4⟩

/-- The two sides of `C69_critical` for `n = 0` and for all sites: no set of no sites wraps, the set of all sites does. -/
example : (micro 9 0 fun T => ind (Wraps 3 (· ∈ T))) = 0 ∧ (micro 9 9 fun T => ind (Wraps 3 (· ∈ T))) = 1 := by
  constructor
  · rw [micro, Finset.powersetCard_zero, Finset.sum_singleton]
    have : ¬ Wraps 3 (· ∈ (∅ : Finset Nat)) := by
      rintro ⟨s, v, hv, hw⟩
      cases hw with
      | nil h => exact absurd h (Finset.notMem_empty _)
      | snoc d _ h => exact absurd h (Finset.notMem_empty _)
    rw [ind, if_neg this, zero_div]
  · rw [micro]
    have hs : (Finset.range 9).powersetCard 9 = {Finset.range 9} := Finset.powersetCard_self (Finset.range 9)
    rw [hs, Finset.sum_singleton]
    have : Wraps 3 (· ∈ Finset.range 9) := full_wraps (by decide) fun s hs => Finset.mem_range.2 hs
    rw [ind, if_pos this, Nat.choose_self, Nat.cast_one, div_one]

end SqPerc
