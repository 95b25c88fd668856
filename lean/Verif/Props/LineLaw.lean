import Verif.Props.Mean
import Verif.Props.FirstStraight
/-
C86: the law of the second column of the shortest-path file, and the exact means on the smallest lattice.
-/
namespace SqPerc

variable {so : SetOrder} {L : Nat}

/-- The occupied sites contain a complete row or a complete column. -/
def HasLine (L : Nat) (occ : Nat → Prop) : Prop := (∃ r < L, RowIn L occ r) ∨ ∃ c < L, ColIn L occ c

theorem HasLine.mono {occ occ' : Nat → Prop} (h : ∀ s, occ s → occ' s) (hl : HasLine L occ) : HasLine L occ' := by
  rcases hl with ⟨r, hr, hl⟩ | ⟨c, hc, hl⟩
  · exact .inl ⟨r, hr, fun c hc => h _ (hl c hc)⟩
  · exact .inr ⟨c, hc, fun r hr => h _ (hl r hr)⟩

theorem AnyStraight.hasLine {q : List Nat} (h : AnyStraight L q) : HasLine L (· ∈ q) := by
  rcases h.2 with ⟨r, hr, hl⟩ | ⟨c, hc, hl⟩
  · exact .inl ⟨r, hr, fun c hc => (hl c hc).mem⟩
  · exact .inr ⟨c, hc, fun r hr => (hl r hr).mem⟩

/-- On the small lattices a complete line is always part of the wrapping cluster. -/
theorem anyStraight_iff_hasLine (hL : 3 ≤ L) (hL4 : L ≤ 4) {q : List Nat} (hq : ∀ s ∈ q, s < L * L) : AnyStraight L q ↔ HasLine L (· ∈ q) := by
  refine ⟨AnyStraight.hasLine, ?_⟩
  rintro (⟨r, hr, hl⟩ | ⟨c, hc, hl⟩)
  · exact full_row_small hL hL4 hq hr hl
  · exact full_col_small hL hL4 hq hc hl

/-- A finished run of the shortest-path class with the stage at which it stopped. -/
structure LineRan (so : SetOrder) (L : Nat) (S : Perc ℝ) (q : List Nat) : Prop where
  perm : q.Perm (List.range (L * L))
  run : ∃ m, m < L * L ∧ S.shortestP = ((m + 1 : Nat) : ℝ) / (L * L : Nat) ∧ (∃ k, q[m]? = some k ∧ Straight L (q.take (m + 1)) k) ∧
    ∀ i k, i < m → q[i]? = some k → ¬ Straight L (q.take (i + 1)) k

theorem Realised.lineRan (hL : 3 ≤ L) {rs : List RunDraws} {Ss : List (Perc ℝ)} {S : Perc ℝ} (hR : Realised (realEnv so) .sp S rs Ss) :
    DefReach (realEnv so) .sp L S → (∀ r ∈ rs, L * L < r.fuel) →
      List.Forall₂ (LineRan so L) Ss (shuffleOrders S.siteIds (rs.map (·.shuffle))) := by
  induction hR with
  | nil => intro _ _; exact .nil
  | @cons S S1 S2 r rs Ss h1 h2 _ ih =>
    intro h hf
    have F : Fresh (realEnv so) .sp L S1 := .reset h h1
    have hid := reset_siteIds h h1
    rw [if_neg (by decide)] at hid
    obtain ⟨hp, R⟩ := F.perm rfl
    have hnd := hp.nodup_iff.2 List.nodup_range
    have hl : S1.siteIds.length = L * L := by rw [hp.length_eq, List.length_range]
    have hfr := hf r (List.mem_cons_self ..)
    obtain ⟨U, n, e, hn, T, h3, h4⟩ := R.spRunOnce hnd F.trace (fuel := r.fuel) (by rw [hl]; exact hfr)
    have h2' : S1.spRunOnce (realEnv so) r.fuel = .ok S2 := h2
    obtain ⟨V, b, hV, hV'⟩ := spRunOnce_inv h2'
    have hids : S2.siteIds = S1.siteIds := by
      have := spLoop_siteIds r.fuel F.trace hV
      rw [hV']; exact this
    rw [h2'] at e
    obtain rfl := Except.ok.inj e
    obtain ⟨S'', e', hs, _⟩ := C41_found hL F hfr
    rw [h2'] at e'
    obtain rfl := Except.ok.inj e'
    rw [List.map_cons, shuffleOrders, ← hid]
    refine .cons ⟨hp, n - 1, ?_⟩ ?_
    · rcases h4 with ⟨_, g2, g3, k, hk, g4⟩ | ⟨g1, _⟩
      · refine ⟨by omega, ?_, ⟨k, hk, by rwa [Nat.sub_add_cancel g3]⟩, fun i k hi => h3 i k (by omega)⟩
        obtain ⟨m, _, _, _, _, g⟩ := T.pc_nums g4.1
        rw [g2, g, List.length_take, Nat.min_eq_left hn, Nat.sub_add_cancel g3]
        rfl
      · rw [hs] at g1; cases g1
    · rw [← hids]
      exact ih (.step (.runOnce r.fuel r.steps) rfl F.defReach h2) (fun r hr => hf r (List.mem_cons_of_mem _ hr))

/-- The law of the stage at which the sites placed so far first have a property, for the `i`-th shuffle of a row of independent ones. -/
theorem threshold_law {E i : Nat} (hL : 3 ≤ L) (hi : i < E) {l : List Nat} (hp : l.Perm (List.range (L * L))) (P : (Nat → Prop) → Prop)
    {pc : (Fin E → DrawVec (L * L)) → ℝ} {p : (Fin E → DrawVec (L * L)) → Nat} (c2 : ∀ x, p x < L * L)
    (c3 : ∀ x, pc x = ((p x + 1 : Nat) : ℝ) / (L * L : Nat))
    (c4 : ∀ x n, P (· ∈ ((shuffleOrders l (List.ofFn fun j => (x j).draws)).getD i []).take n) ↔ p x < n) :
    (∀ n ≤ L * L, meanOf (fun x => ind (pc x ≤ (n : ℝ) / (L * L : Nat))) = micro (L * L) n fun T => ind (P (· ∈ T))) ∧
    meanOf pc = (∑ n ∈ Finset.range (L * L), (1 - micro (L * L) n fun T => ind (P (· ∈ T)))) / (L * L : Nat) := by
  have hL0 : 0 < L * L := by positivity
  let qs := fun x : Fin E → DrawVec (L * L) => shuffleOrders l (List.ofFn fun j => (x j).draws)
  have hwr : ∀ n ≤ L * L, meanOf (fun x => ind (P (· ∈ ((qs x).getD i []).take n))) = micro (L * L) n fun T => ind (P (· ∈ T)) := by
    intro n hn
    rw [← meanOf_take hn]
    refine (meanOf_orders (fun q => ind (P (· ∈ q.take n))) hp i hi).trans (meanOf_congr fun y => ?_)
    simp only [List.mem_toFinset]
  have hN : (0 : ℝ) < (L * L : Nat) := by exact_mod_cast hL0
  refine ⟨fun n hn => ?_, ?_⟩
  · rw [← hwr n hn]
    refine meanOf_congr fun x => ?_
    congr 1
    rw [eq_iff_iff, c4 x n, c3 x, div_le_div_iff_of_pos_right hN, Nat.cast_le]
    exact Nat.succ_le_iff
  · have hsum : ∀ x, pc x = (∑ n ∈ Finset.range (L * L), (1 - ind (P (· ∈ ((qs x).getD i []).take n)))) / (L * L : Nat) := by
      intro x
      rw [c3 x]
      congr 1
      have : ∀ n ∈ Finset.range (L * L), (1 - ind (P (· ∈ ((qs x).getD i []).take n))) = if n < p x + 1 then 1 else 0 := by
        intro n _
        rw [c4 x n]
        unfold ind
        by_cases h : p x < n
        · rw [if_pos h, if_neg (by omega)]; norm_num
        · rw [if_neg h, if_pos (by omega)]; norm_num
      rw [Finset.sum_congr rfl this, ← Finset.sum_filter, Finset.sum_const, nsmul_eq_mul, mul_one]
      congr 1
      have hf : (Finset.range (L * L)).filter (· < p x + 1) = Finset.range (p x + 1) := by
        ext n
        simp only [Finset.mem_filter, Finset.mem_range]
        have := c2 x
        omega
      rw [hf, Finset.card_range]
    rw [meanOf_congr hsum, meanOf_div, meanOf_sum]
    congr 1
    refine Finset.sum_congr rfl fun n hn => ?_
    have : Nonempty (Fin E → DrawVec (L * L)) := inferInstance
    rw [meanOf_sub, meanOf_const, hwr n (Finset.mem_range.1 hn).le]

theorem meanOf_mono {ι : Type} [Fintype ι] {F G : ι → ℝ} (h : ∀ i, F i ≤ G i) : meanOf F ≤ meanOf G := by
  unfold meanOf
  exact div_le_div_of_nonneg_right (Finset.sum_le_sum fun i _ => h i) (Nat.cast_nonneg _)

/-- The rows of the shortest-path file, with the stages of the runs. -/
theorem sp_rows (hL : 3 ≤ L) {E : Nat} (ctor : Nat → Nat) (steps : Nat → Draw) {fuel : Nat} (hf : L * L < fuel) {i : Nat} (hi : i < E)
    (x : Fin E → DrawVec (L * L)) :
    ∃ rows sp p q, spEnsemble (realEnv so) L ctor (ensembleDraws steps fuel x) = .ok rows ∧ rows[i]?.map (·.2) = some sp ∧ p < L * L ∧
      sp = ((p + 1 : Nat) : ℝ) / (L * L : Nat) ∧
      q = (shuffleOrders (pyShuffle ctor (List.range (L * L))) (List.ofFn fun j => (x j).draws)).getD i [] ∧
      HasLine L (· ∈ q.take (p + 1)) ∧ (L ≤ 4 → ∀ n ≤ p, ¬ HasLine L (· ∈ q.take n)) ∧
      ∃ k, q[p]? = some k ∧ Straight L (q.take (p + 1)) k := by
  have hfx : ∀ r ∈ ensembleDraws steps fuel x, L * L < r.fuel := by
    intro r hr
    obtain ⟨i, rfl⟩ := (List.mem_ofFn' _ _).1 hr
    exact hf
  obtain ⟨S0, Ss, rows, e0, hR, h1, h2, _⟩ := C42_shortest_path (so := so) hL ctor hfx
  have hids : S0.siteIds = pyShuffle ctor (List.range (L * L)) := by
    obtain ⟨rev, e, _⟩ := new_ok (realEnv so) (by omega : 0 < L) ctor
    rw [e] at e0
    rw [← Except.ok.inj e0]
  have hr := hR.lineRan hL (.new e0) hfx
  rw [hids, ensembleDraws_shuffles] at hr
  generalize hqs : shuffleOrders (pyShuffle ctor (List.range (L * L))) (List.ofFn fun j => (x j).draws) = qs at hr ⊢
  have hql : i < qs.length := by rw [← hqs, shuffleOrders_length, List.length_ofFn]; exact hi
  have hSl : i < Ss.length := by rw [hr.length_eq]; exact hql
  have hi' := List.forall₂_iff_get.1 hr |>.2 i hSl hql
  obtain ⟨m, m1, m2, m3, m4⟩ := hi'.run
  obtain ⟨k, hk, m3'⟩ := m3
  have hlt : ∀ s ∈ qs[i]'hql, s < L * L := fun s hs => List.mem_range.1 (hi'.perm.mem_iff.1 hs)
  have hlen : (qs[i]'hql).length = L * L := by have := hi'.perm.length_eq; rwa [List.length_range] at this
  refine ⟨rows, _, m, _, h1, ?_, m1, m2, (getD_of_lt hql).symm, (m3'.any (hlt _ (List.mem_of_getElem? hk))).hasLine, fun hL4 n hn => ?_, k, hk, m3'⟩
  · rw [h2, List.getElem?_map, List.getElem?_eq_getElem hSl]; rfl
  · rw [← anyStraight_iff_hasLine hL hL4 fun s hs => hlt s (List.mem_of_mem_take hs)]
    exact no_straight_small hL4 hlt (by omega) fun j k hj => m4 j k (by omega)

/-- C86: on the lattices of length 3 and 4 the second column of the shortest-path file has the law of the first complete line: the
probability that the `i`-th value is at most `n / (L * L)` is the fraction of the sets of `n` sites that contain a complete row or
column. -/
theorem C86_small (hL : 3 ≤ L) (hL4 : L ≤ 4) {E : Nat} (ctor : Nat → Nat) (steps : Nat → Draw) {fuel : Nat} (hf : L * L < fuel) {i : Nat} (hi : i < E) :
    ∃ (rows : (Fin E → DrawVec (L * L)) → List (ℝ × ℝ)) (sp : (Fin E → DrawVec (L * L)) → ℝ),
      (∀ x, spEnsemble (realEnv so) L ctor (ensembleDraws steps fuel x) = .ok (rows x)) ∧
      (∀ x, (rows x)[i]?.map (·.2) = some (sp x)) ∧
      (∀ n ≤ L * L, meanOf (fun x => ind (sp x ≤ (n : ℝ) / (L * L : Nat))) = micro (L * L) n fun T => ind (HasLine L (· ∈ T))) ∧
      meanOf sp = (∑ n ∈ Finset.range (L * L), (1 - micro (L * L) n fun T => ind (HasLine L (· ∈ T)))) / (L * L : Nat) := by
  have hp := pyShuffle_perm ctor (List.range (L * L))
  choose rows sp p q h1 h2 c2 c3 hq c4 c5 c6 using fun x => sp_rows (so := so) hL ctor steps hf hi x
  refine ⟨rows, sp, h1, h2, threshold_law hL hi hp (HasLine L) c2 c3 fun x n => ?_⟩
  rw [← hq]
  constructor
  · intro h
    by_contra hn
    exact c5 x hL4 n (by omega) h
  · intro h
    exact (c4 x).mono fun s hs => (List.take_subset_take_left _ (by omega : p x + 1 ≤ n)) hs

/-- The stage of the first complete line of an order. -/
noncomputable def lineStage (L : Nat) (q : List Nat) : ℝ := ∑ n ∈ Finset.range (L * L), (1 - ind (HasLine L (· ∈ q.take n)))

theorem ind_le_one (p : Prop) : ind p ≤ 1 := by
  unfold ind; split <;> norm_num

/-- An order that has a complete line after `m` sites has its stage at most `m`. -/
theorem lineStage_le {q : List Nat} {m : Nat} (hm : m ≤ L * L) (h : HasLine L (· ∈ q.take m)) : lineStage L q ≤ m := by
  have : ∀ n ∈ Finset.range (L * L), (1 - ind (HasLine L (· ∈ q.take n))) ≤ if n < m then 1 else 0 := by
    intro n _
    by_cases hn : n < m
    · rw [if_pos hn]; have := ind_nonneg (HasLine L (· ∈ q.take n)); linarith
    · have : HasLine L (· ∈ q.take n) := h.mono fun s hs => (List.take_subset_take_left _ (by omega : m ≤ n)) hs
      rw [if_neg hn, ind, if_pos this]; norm_num
  refine (Finset.sum_le_sum this).trans ?_
  rw [← Finset.sum_filter, Finset.sum_const, nsmul_eq_mul, mul_one, Nat.cast_le]
  calc _ ≤ (Finset.range m).card := Finset.card_le_card fun n hn => by
        rw [Finset.mem_filter] at hn; exact Finset.mem_range.2 hn.2
    _ = m := Finset.card_range m

theorem meanOf_lineStage {E i : Nat} (hi : i < E) {l : List Nat} (hp : l.Perm (List.range (L * L))) :
    meanOf (fun x : Fin E → DrawVec (L * L) => lineStage L ((shuffleOrders l (List.ofFn fun j => (x j).draws)).getD i [])) =
    ∑ n ∈ Finset.range (L * L), (1 - micro (L * L) n fun T => ind (HasLine L (· ∈ T))) := by
  unfold lineStage
  rw [meanOf_sum]
  refine Finset.sum_congr rfl fun n hn => ?_
  have : Nonempty (Fin E → DrawVec (L * L)) := inferInstance
  rw [meanOf_sub, meanOf_const, ← meanOf_take (Finset.mem_range.1 hn).le]
  congr 1
  refine (meanOf_orders (fun q => ind (HasLine L (· ∈ q.take n))) hp i hi).trans (meanOf_congr fun y => ?_)
  simp only [List.mem_toFinset]

/-- Every order is the `i`-th order of some outcome. -/
theorem exists_order {E i : Nat} (hi : i < E) {l q : List Nat} (hp : l.Perm (List.range (L * L))) (hq : q.Perm (List.range (L * L))) :
    ∃ x : Fin E → DrawVec (L * L), (shuffleOrders l (List.ofFn fun j => (x j).draws)).getD i [] = q := by
  by_contra hn
  push Not at hn
  have h0 : meanOf (fun x : Fin E → DrawVec (L * L) => ind ((shuffleOrders l (List.ofFn fun j => (x j).draws)).getD i [] = q)) = 0 := by
    have : Nonempty (Fin E → DrawVec (L * L)) := inferInstance
    rw [← meanOf_const (ι := Fin E → DrawVec (L * L)) 0]
    exact meanOf_congr fun x => if_neg (hn x)
  have h1 := pyShuffle_vec_surj (l := List.range (L * L)) hq
  rw [List.length_range] at h1
  obtain ⟨y, hy⟩ := h1
  rw [meanOf_orders (fun p => ind (p = q)) hp i hi, meanOf, div_eq_zero_iff] at h0
  rcases h0 with h0 | h0
  · have := (Finset.sum_eq_zero_iff_of_nonneg fun z _ => ind_nonneg _).1 h0 y (Finset.mem_univ _)
    rw [ind, if_pos hy] at this
    exact one_ne_zero this
  · exact Fintype.card_ne_zero (Nat.cast_eq_zero.1 h0)

/-- C86: on every lattice the second column is never ahead of the first complete line: the probability that the `i`-th value is at most
`n / (L * L)` is at most the fraction of the sets of `n` sites that contain a complete row or column, and its mean is at least the mean
stage of the first complete line.  From length 5 on the mean is larger. -/
theorem C86_bound (hL : 3 ≤ L) {E : Nat} (ctor : Nat → Nat) (steps : Nat → Draw) {fuel : Nat} (hf : L * L < fuel) {i : Nat} (hi : i < E) :
    ∃ (rows : (Fin E → DrawVec (L * L)) → List (ℝ × ℝ)) (sp : (Fin E → DrawVec (L * L)) → ℝ),
      (∀ x, spEnsemble (realEnv so) L ctor (ensembleDraws steps fuel x) = .ok (rows x)) ∧
      (∀ x, (rows x)[i]?.map (·.2) = some (sp x)) ∧
      (∀ n ≤ L * L, meanOf (fun x => ind (sp x ≤ (n : ℝ) / (L * L : Nat))) ≤ micro (L * L) n fun T => ind (HasLine L (· ∈ T))) ∧
      (∑ n ∈ Finset.range (L * L), (1 - micro (L * L) n fun T => ind (HasLine L (· ∈ T)))) / (L * L : Nat) ≤ meanOf sp ∧
      (5 ≤ L → (∑ n ∈ Finset.range (L * L), (1 - micro (L * L) n fun T => ind (HasLine L (· ∈ T)))) / (L * L : Nat) < meanOf sp) := by
  have hp := pyShuffle_perm ctor (List.range (L * L))
  choose rows sp p q h1 h2 c2 c3 hq c4 c5 c6 using fun x => sp_rows (so := so) hL ctor steps hf hi x
  have hL0 : 0 < L * L := by positivity
  have hN : (0 : ℝ) < (L * L : Nat) := by exact_mod_cast hL0
  have hle : ∀ x, lineStage L (q x) / (L * L : Nat) ≤ sp x := by
    intro x
    rw [c3 x, div_le_div_iff_of_pos_right hN]
    exact lineStage_le (by have := c2 x; omega) (c4 x)
  have hmean : meanOf (fun x => lineStage L (q x) / (L * L : Nat)) =
      (∑ n ∈ Finset.range (L * L), (1 - micro (L * L) n fun T => ind (HasLine L (· ∈ T)))) / (L * L : Nat) := by
    rw [meanOf_div, ← meanOf_lineStage hi hp]
    congr 1
    exact meanOf_congr fun x => by rw [hq x]
  rw [← hmean]
  refine ⟨rows, sp, h1, h2, fun n hn => ?_, meanOf_mono hle, fun hL5 => ?_⟩
  · have hwr : meanOf (fun x => ind (HasLine L (· ∈ (q x).take n))) = micro (L * L) n fun T => ind (HasLine L (· ∈ T)) := by
      rw [← meanOf_take hn]
      rw [meanOf_congr fun x => by rw [hq x]]
      refine (meanOf_orders (fun q => ind (HasLine L (· ∈ q.take n))) hp i hi).trans (meanOf_congr fun y => ?_)
      simp only [List.mem_toFinset]
    rw [← hwr]
    refine meanOf_mono fun x => ?_
    by_cases h : sp x ≤ (n : ℝ) / (L * L : Nat)
    · have hle : p x + 1 ≤ n := by
        rwa [c3 x, div_le_div_iff_of_pos_right hN, Nat.cast_le] at h
      have : HasLine L (· ∈ (q x).take n) := (c4 x).mono fun s hs => (List.take_subset_take_left _ hle) hs
      simp only [ind, if_pos h, if_pos this, le_refl]
    · rw [ind, if_neg h]
      exact ind_nonneg _
  · obtain ⟨rest, hr⟩ : ∃ rest, (lateOrder L ++ rest).Perm (List.range (L * L)) := by
      obtain ⟨l, hl, hsub⟩ := List.subperm_of_subset (lateOrder_nodup hL5) fun s hs => List.mem_range.2 (lateOrder_lt hL5 hs)
      obtain ⟨rest, h⟩ := hsub.exists_perm_append
      exact ⟨rest, ((hl.symm.append_right rest)).trans h.symm⟩
    obtain ⟨x, hx⟩ := exists_order hi hp hr
    rw [← hq x] at hx
    have hlt : lineStage L (q x) / (L * L : Nat) < sp x := by
      rw [c3 x, div_lt_div_iff_of_pos_right hN]
      obtain ⟨k, hk, hs⟩ := c6 x
      have hpx : (lateOrder L).length ≤ p x := by
        by_contra hn
        rw [hx] at hk hs
        rw [List.getElem?_append_left (by omega)] at hk
        rw [List.take_append_of_le_length (by omega)] at hs
        exact lateOrder_none hL5 (p x) k hk hs
      have hlen : (lateOrder L).length ≤ L * L := by have := c2 x; omega
      have := lineStage_le (q := q x) hlen (by rw [hx, List.take_left]; exact (lateOrder_any hL5).hasLine)
      refine this.trans_lt ?_
      rw [Nat.cast_lt]; omega
    unfold meanOf
    refine div_lt_div_of_pos_right (Finset.sum_lt_sum (fun x _ => hle x) ⟨x, Finset.mem_univ _, hlt⟩) ?_
    exact_mod_cast Fintype.card_pos_iff.2 ⟨x⟩

end SqPerc
