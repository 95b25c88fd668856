import Verif.Proof.Symmetry
import Verif.Props.ShortestPath
import Verif.Props.Closing
/-
Property C68: what is reported does not change when the sequence of sites is shifted, transposed or reflected.
-/
namespace SqPerc

variable {α : Type} {L : Nat} {v v' : Variant} {S1 S2 : Perc α} {seq : List Nat}

/-! ### Straight lines -/

/-- `P` holds along the line through `k` in direction `d`. -/
def LineIn (L : Nat) (P : Nat → Prop) (k : Nat) (d : Dir) : Prop := ∀ n, P ((fun s => nbr L s d)^[n] k)

theorem nbr_iter_lt {k : Nat} (hk : k < L * L) (d : Dir) (n : Nat) : (fun s => nbr L s d)^[n] k < L * L := by
  induction n with
  | zero => exact hk
  | succ n ih => rw [Function.iterate_succ_apply']; exact nbr_lt ih d

theorem nbr_iter_right {r c : Nat} (hc : c < L) (n : Nat) : (fun s => nbr L s .right)^[n] (r * L + c) = r * L + (c + n) % L := by
  induction n with
  | zero => rw [Nat.add_zero, Nat.mod_eq_of_lt hc]; rfl
  | succ n ih => rw [Function.iterate_succ_apply', ih, nbr_right_rc (Nat.mod_lt _ (by omega)), Nat.mod_add_mod, Nat.add_assoc]

theorem nbr_iter_down {r c : Nat} (hr : r < L) (hc : c < L) (n : Nat) : (fun s => nbr L s .down)^[n] (r * L + c) = (r + n) % L * L + c := by
  induction n with
  | zero => rw [Nat.add_zero, Nat.mod_eq_of_lt hr]; rfl
  | succ n ih => rw [Function.iterate_succ_apply', ih, nbr_down_rc hc, Nat.mod_add_mod, Nat.add_assoc]

theorem nbr_iter_opp {k : Nat} (hk : k < L * L) (d : Dir) (n : Nat) : (fun s => nbr L s d)^[n] ((fun s => nbr L s d.opp)^[n] k) = k := by
  induction n with
  | zero => rfl
  | succ n ih =>
    rw [Function.iterate_succ_apply, Function.iterate_succ_apply']
    have := nbr_opp (nbr_iter_lt hk d.opp n) d.opp
    rw [Dir.opp_opp] at this
    show (fun s => nbr L s d)^[n] (nbr L (nbr L ((fun s => nbr L s d.opp)^[n] k) d.opp) d) = k
    rw [this, ih]

theorem nbr_iter_period {k : Nat} (hk : k < L * L) (d : Dir) : (fun s => nbr L s d)^[L] k = k := by
  have key : ∀ d : Dir, (∀ k < L * L, (fun s => nbr L s d)^[L] k = k) → ∀ k < L * L, (fun s => nbr L s d.opp)^[L] k = k := by
    intro d h k hk
    conv_lhs => rw [← h k hk]
    have := nbr_iter_opp hk d.opp L
    rwa [Dir.opp_opp] at this
  have hr : ∀ k < L * L, (fun s => nbr L s .right)^[L] k = k := by
    intro k hk
    obtain ⟨r, c, hr, hc, rfl⟩ := exists_rc hk
    rw [nbr_iter_right hc, Nat.add_mod_right, Nat.mod_eq_of_lt hc]
  have hd : ∀ k < L * L, (fun s => nbr L s .down)^[L] k = k := by
    intro k hk
    obtain ⟨r, c, hr, hc, rfl⟩ := exists_rc hk
    rw [nbr_iter_down hr hc, Nat.add_mod_right, Nat.mod_eq_of_lt hr]
  cases d
  · exact hr k hk
  · exact hd k hk
  · exact key .right hr k hk
  · exact key .down hd k hk

theorem LineIn.opp {P : Nat → Prop} {k : Nat} {d : Dir} (hk : k < L * L) (h : LineIn L P k d) : LineIn L P k d.opp := by
  intro n
  have hL : 0 < L := pos_of_lt_sq hk
  have hx := nbr_iter_lt hk d.opp n
  have e : (fun s => nbr L s d)^[n * (L - 1)] k = (fun s => nbr L s d.opp)^[n] k := by
    conv_lhs => rw [← nbr_iter_opp hk d n]
    rw [← Function.iterate_add_apply]
    have : n * (L - 1) + n = L * n := by
      obtain ⟨m, rfl⟩ : ∃ m, L = m + 1 := ⟨L - 1, by omega⟩
      rw [Nat.add_sub_cancel]; ring
    rw [this, Function.iterate_mul]
    have hfix : ∀ j, ((fun s => nbr L s d)^[L])^[j] ((fun s => nbr L s d.opp)^[n] k) = (fun s => nbr L s d.opp)^[n] k := by
      intro j
      induction j with
      | zero => rfl
      | succ j ih => rw [Function.iterate_succ_apply, nbr_iter_period hx, ih]
    exact hfix n
  rw [← e]
  exact h _

theorem LineIn.opp_iff {P : Nat → Prop} {k : Nat} {d : Dir} (hk : k < L * L) : LineIn L P k d.opp ↔ LineIn L P k d :=
  ⟨fun h => by have := h.opp hk; rwa [Dir.opp_opp] at this, fun h => h.opp hk⟩

theorem rowIn_line {P : Nat → Prop} {k : Nat} (hk : k < L * L) : RowIn L P (k / L) ↔ LineIn L P k .right := by
  obtain ⟨r, c, hr, hc, rfl⟩ := exists_rc hk
  rw [mul_add_div_L hc]
  constructor
  · intro h n
    rw [nbr_iter_right hc]; exact h _ (Nat.mod_lt _ (by omega))
  · intro h c' hc'
    have := h (c' + L - c)
    rwa [nbr_iter_right hc, show c + (c' + L - c) = c' + L by omega, Nat.add_mod_right, Nat.mod_eq_of_lt hc'] at this

theorem colIn_line {P : Nat → Prop} {k : Nat} (hk : k < L * L) : ColIn L P (k % L) ↔ LineIn L P k .down := by
  obtain ⟨r, c, hr, hc, rfl⟩ := exists_rc hk
  rw [mul_add_mod_L hc]
  constructor
  · intro h n
    rw [nbr_iter_down hr hc]; exact h _ (Nat.mod_lt _ (by omega))
  · intro h r' hr'
    have := h (r' + L - r)
    rwa [nbr_iter_down hr hc, show r + (r' + L - r) = r' + L by omega, Nat.add_mod_right, Nat.mod_eq_of_lt hr'] at this

variable (σ : Symmetry L)

theorem Symmetry.inWrap_of {q : List Nat} (hq : ∀ s ∈ q, s < L * L) {s : Nat} (h : InWrap L q s) :
    InWrap L (q.map σ.site) (σ.site s) := by
  obtain ⟨pre, k, post, rfl, h1, h2, h3⟩ := h
  have hp : ∀ s ∈ pre, s < L * L := fun s hs => hq s (by simp [hs])
  have hpk : ∀ s ∈ pre ++ [k], s < L * L := fun s hs => hq s (by
    rcases List.mem_append.1 hs with h | h
    · simp [h]
    · rw [List.mem_singleton.1 h]; simp)
  refine ⟨pre.map σ.site, σ.site k, post.map σ.site, by simp, ?_, ?_, (Symmetry.Corr.map hq).siteConn h3⟩
  · exact fun h => h1 ((Symmetry.Corr.map (σ := σ) hp).wraps.1 h)
  · have := (Symmetry.Corr.map (σ := σ) hpk).wraps.2 h2
    simpa using this

theorem Symmetry.map_back {q : List Nat} (hq : ∀ s ∈ q, s < L * L) : (q.map σ.site).map σ.symm.site = q := by
  rw [List.map_map]
  conv_rhs => rw [← List.map_id q]
  exact List.map_congr_left fun s hs => σ.back_site s (hq s hs)

theorem Symmetry.map_lt {q : List Nat} (hq : ∀ s ∈ q, s < L * L) : ∀ s ∈ q.map σ.site, s < L * L := by
  intro s hs
  obtain ⟨t, ht, rfl⟩ := List.mem_map.1 hs
  exact σ.site_lt t (hq t ht)

theorem Symmetry.inWrap {q : List Nat} (hq : ∀ s ∈ q, s < L * L) {s : Nat} (hs : s < L * L) :
    InWrap L (q.map σ.site) (σ.site s) ↔ InWrap L q s := by
  refine ⟨fun h => ?_, σ.inWrap_of hq⟩
  have := σ.symm.inWrap_of (σ.map_lt hq) h
  rwa [σ.map_back hq, show σ.symm.site (σ.site s) = s from σ.back_site s hs] at this

theorem Symmetry.iter {k : Nat} (hk : k < L * L) (d : Dir) (n : Nat) :
    (fun s => nbr L s (σ.dir d))^[n] (σ.site k) = σ.site ((fun s => nbr L s d)^[n] k) := by
  induction n with
  | zero => rfl
  | succ n ih =>
    rw [Function.iterate_succ_apply', Function.iterate_succ_apply', ih]
    exact σ.nbr_site _ (nbr_iter_lt hk d n) d

theorem Symmetry.straight {q : List Nat} (hq : ∀ s ∈ q, s < L * L) {k : Nat} (hk : k < L * L) :
    Straight L (q.map σ.site) (σ.site k) ↔ Straight L q k := by
  unfold Straight
  refine and_congr (σ.hasWrapped hq) ?_
  have hk' := σ.site_lt k hk
  rw [rowIn_line hk, colIn_line hk, rowIn_line hk', colIn_line hk']
  have key : ∀ d, LineIn L (InWrap L (q.map σ.site)) (σ.site k) (σ.dir d) ↔ LineIn L (InWrap L q) k d := by
    intro d
    refine forall_congr' fun n => ?_
    rw [σ.iter hk, σ.inWrap hq (nbr_iter_lt hk d n)]
  rw [← key .right, ← key .down]
  have n1 : σ.dir .down ≠ σ.dir .right := fun e => by cases σ.dir_inj e
  have n2 : σ.dir .down ≠ (σ.dir .right).opp := fun e => by rw [← σ.dir_opp] at e; cases σ.dir_inj e
  have o1 := LineIn.opp_iff (P := InWrap L (q.map σ.site)) (d := .right) hk'
  have o2 := LineIn.opp_iff (P := InWrap L (q.map σ.site)) (d := .down) hk'
  simp only [Dir.opp] at o1 o2
  cases h1 : σ.dir .down <;> cases h2 : σ.dir .right <;>
    first
    | exact absurd (h1.trans h2.symm) n1
    | (rw [h1, h2] at n2; exact absurd rfl n2)
    | (rw [o1, o2, or_comm]; done)
    | (rw [o1, o2]; done)
    | (rw [o1]; done)
    | (rw [o2]; done)
    | (rw [o1, or_comm]; done)
    | (rw [o2, or_comm]; done)
    | exact or_comm
    | exact Iff.rfl

/-! ### C68 -/

/-- C68: if the sites placed on one object are the images of the sites placed on another one under a symmetry of the periodic lattice, in
the same order, then everything reported is the same, whatever the classes, the set orders and the calls in between.  The arithmetic is
arbitrary, so equal means equal to the last bit. -/
theorem C68_observables {so so' : SetOrder} {ar : Arith α} (T1 : Trace ⟨so, ar⟩ v L S1 seq) (T2 : Trace ⟨so', ar⟩ v' L S2 (seq.map σ.site)) :
    S1.occupationProb ⟨so, ar⟩ = S2.occupationProb ⟨so', ar⟩ ∧ S1.orderLargest ⟨so, ar⟩ = S2.orderLargest ⟨so', ar⟩ ∧
    S1.orderWrapping ⟨so, ar⟩ = S2.orderWrapping ⟨so', ar⟩ ∧ S1.getPc ⟨so, ar⟩ = S2.getPc ⟨so', ar⟩ ∧
    S1.getSiteCountPc = S2.getSiteCountPc ∧ S1.getBondCountPc = S2.getBondCountPc ∧ S1.largestCluster = S2.largestCluster ∧
    S1.afterWrapping = S2.afterWrapping ∧ (∀ s < L * L, S1.Occ s ↔ S2.Occ (σ.site s)) := by
  have R1 := T1.reports
  have R2 := T2.reports
  have hs := T1.seq_lt
  have hC := Symmetry.Corr.map (σ := σ) hs
  have ew := σ.seqWrapping hs
  have el := σ.seqLargest hs
  have hw := σ.hasWrapped hs
  refine ⟨?_, ?_, ?_, ?_⟩
  · rw [R1.prob, R2.prob, List.length_map]
  · rw [R1.ordLargest, R2.ordLargest, el]
  · rw [T1.ordW, T2.ordW]
    unfold ordW
    rw [ew]
    by_cases h : HasWrapped L seq
    · rw [if_pos h, if_pos (hw.2 h)]
    · rw [if_neg h, if_neg (fun h' => h (hw.1 h'))]
  have hrest : S1.largestCluster = S2.largestCluster ∧ S1.afterWrapping = S2.afterWrapping ∧ (∀ s < L * L, S1.Occ s ↔ S2.Occ (σ.site s)) := by
    refine ⟨by rw [R1.largest, R2.largest, el], Bool.eq_iff_iff.2 (T1.aw_iff.trans (hw.symm.trans T2.aw_iff.symm)), fun s hs => ?_⟩
    rw [R1.occ, R2.occ]; exact hC.iff s hs
  suffices h : S1.getPc ⟨so, ar⟩ = S2.getPc ⟨so', ar⟩ ∧ S1.getSiteCountPc = S2.getSiteCountPc ∧ S1.getBondCountPc = S2.getBondCountPc from
    ⟨h.1, h.2.1, h.2.2, hrest⟩
  by_cases hL : L < 3
  · obtain ⟨_, a1, a2, a3⟩ := R1.small hL
    obtain ⟨_, b1, b2, b3⟩ := R2.small hL
    exact ⟨a1.trans b1.symm, a2.trans b2.symm, a3.trans b3.symm⟩
  · have hf := Symmetry.firstWrap (σ := σ) hs (pre := []) (by simp)
    rw [List.map_nil] at hf
    cases h1 : firstWrap L [] seq with
    | none =>
      rw [h1] at hf
      obtain ⟨_, a1, a2, a3⟩ := R1.before (by omega) h1
      obtain ⟨_, b1, b2, b3⟩ := R2.before (by omega) hf
      exact ⟨a1.trans b1.symm, a2.trans b2.symm, a3.trans b3.symm⟩
    | some p =>
      rw [h1] at hf
      obtain ⟨_, a1, a2, a3⟩ := R1.after (by omega) p.1 p.2 h1
      obtain ⟨_, b1, b2, b3⟩ := R2.after (by omega) _ _ hf
      obtain ⟨m1, m2⟩ := firstWrap_mem h1
      have hp : ∀ s ∈ p.1 ++ [p.2], s < L * L := by
        intro s h
        rcases List.mem_append.1 h with h | h
        · exact hs s (by simpa using m1 s h)
        · rw [List.mem_singleton.1 h]; exact hs _ m2
      have hC' := Symmetry.Corr.map (σ := σ) hp
      have e : (p.1 ++ [p.2]).map σ.site = p.1.map σ.site ++ [σ.site p.2] := by simp
      rw [e] at hC'
      refine ⟨by rw [a1, b1, List.length_map], ?_, ?_⟩
      · rw [a2, b2]; exact (hC'.siteComp_card (hs _ m2)).symm
      · rw [a3, b3]; exact (hC'.bondComp_site (by simp) _ _).symm

/-- C68: the clusters correspond: two occupied sites are in one cluster exactly if their images are. -/
theorem C68_clusters {env env' : Env α} (T1 : Trace env v L S1 seq) (T2 : Trace env' v' L S2 (seq.map σ.site)) {s t : Nat} (hs : S1.Occ s)
    (ht : S1.Occ t) : S1.lat.getSiteGid s = S1.lat.getSiteGid t ↔ S2.lat.getSiteGid (σ.site s) = S2.lat.getSiteGid (σ.site t) := by
  have hC := Symmetry.Corr.map (σ := σ) T1.seq_lt
  have key : ∀ {env : Env α} {v : Variant} {S : Perc α} {seq : List Nat}, Trace env v L S seq → ∀ s t : Nat, s ∈ seq → t ∈ seq →
      (S.lat.getSiteGid s = S.lat.getSiteGid t ↔ SiteConn L (· ∈ seq) s t) := by
    intro env v S seq T s t hs ht
    obtain ⟨_, A, M, hA, I⟩ := T.sim
    have h1 := (I.occ s).2 hs
    have h2 := (I.occ t).2 ht
    rw [M.siteGid h1.1, M.siteGid h2.1, ← I.occ_eq, ← hA.inv.core.sg_eq_iff h1 h2]
    exact ⟨fun h => Except.ok.inj h, fun h => by rw [h]⟩
  have h1 := (T1.reports.occ s).1 hs
  have h2 := (T1.reports.occ t).1 ht
  rw [key T1 s t h1 h2, key T2 _ _ (List.mem_map_of_mem h1) (List.mem_map_of_mem h2)]
  exact (hC.siteConn_iff (T1.seq_lt s h1) (T1.seq_lt t h2)).symm

/-- C68: in exact arithmetic the entropies agree too. -/
theorem C68_entropy {so so' : SetOrder} {S1 S2 : Perc ℝ} (T1 : Trace (realEnv so) v L S1 seq) (T2 : Trace (realEnv so') v' L S2 (seq.map σ.site)) :
    S1.entropy = S2.entropy := by
  rw [T1.entropy, T2.entropy, (Symmetry.Corr.map (σ := σ) T1.seq_lt).shannon]

theorem Symmetry.dataRow {so so' : SetOrder} {q : List Nat} (hq : ∀ s ∈ q, s < L * L) : dataRow so' L (q.map σ.site) = dataRow so L q := by
  unfold SqPerc.dataRow
  rw [List.length_map, (Symmetry.Corr.map (σ := σ) hq).shannon, σ.seqLargest hq]
  unfold ordW
  rw [σ.seqWrapping hq]
  by_cases h : HasWrapped L q
  · rw [if_pos h, if_pos ((σ.hasWrapped hq).2 h)]; rfl
  · rw [if_neg h, if_neg (fun h' => h ((σ.hasWrapped hq).1 h'))]; rfl

/-- The data array after a first loop of `run_once`. -/
theorem Collected.dataArray {so : SetOrder} {S U : Perc ℝ} {pre a : List Nat} (c : Collected (realEnv so) v L S U pre a)
    (e : S.firstRun = true ∧ S.occProbList = [] ∧ S.entropyList = [] ∧ S.orderWrapList = [] ∧ S.orderLargestList = []) (b : Bool) :
    ({ U with firstRun := b } : Perc ℝ).getDataArray = .ok ((stages pre a).map (SqPerc.dataRow so L)) := by
  obtain ⟨es, x1, _, x2⟩ := c.entropy
  have hes := x2 (fun q => SqPerc.shannon L (· ∈ q)) (fun T q h => h.entropy)
  obtain ⟨e1, e2, e3, e4, e5⟩ := e
  have c1 := c.occProb
  have c2 := c.ordWrap
  have c3 := c.ordLargest
  rw [if_pos e1, e2, List.nil_append] at c1
  rw [e3, List.nil_append, hes] at x1
  rw [e4, List.nil_append] at c2
  rw [e5, List.nil_append] at c3
  simp only [Perc.getDataArray, c1, x1, c2, c3]
  rw [if_pos (by simp)]
  congr 1
  generalize stages pre a = l
  induction l with
  | nil => rfl
  | cons q l ih => simp only [List.map_cons, List.zip_cons_cons, ih]; rfl

theorem ofNat_bounds {ids : List Nat} (hids : ∀ i ∈ ids, i < L * L) : ∀ i ∈ ids.map Int.ofNat, 0 ≤ i ∧ i < (L : Int) * L := by
  intro i hi
  obtain ⟨j, hj, rfl⟩ := List.mem_map.1 hi
  refine ⟨Int.natCast_nonneg _, ?_⟩
  have := hids j hj
  show (j : Int) < _
  exact_mod_cast this

theorem ofNat_toNat (ids : List Nat) : (ids.map Int.ofNat).map Int.toNat = ids := by
  rw [List.map_map]; exact List.map_id _

/-- A new object of a plain class that is given a list of distinct sites and then run. -/
theorem custom_run {so : SetOrder} {N : Perc ℝ} {draws d : Nat → Nat} {ids : List Nat} {fuel : Nat} {ds : Nat → Draw} (hv : v.plain = true)
    (hn : Perc.new (realEnv so) L draws = .ok N) (hne : ids ≠ []) (hids : ∀ i ∈ ids, i < L * L) (hnd : ids.Nodup) (hf : ids.length < fuel) :
    ∃ P R, N.setCustomIds (ids.map Int.ofNat) false d = .ok P ∧ P.runOnce (realEnv so) v fuel ds = .ok R ∧ Trace (realEnv so) v L R ids ∧
      R.getDataArray = .ok ((stages [] ids).map (SqPerc.dataRow so L)) := by
  have hS : Start (realEnv so) v L N := .new hn
  obtain ⟨_, A, M, hA⟩ := hS.reach.sim
  have hne' : ids.map Int.ofNat ≠ [] := by simpa using hne
  have e := setIds_off M hne' (ofNat_bounds hids) d
  obtain ⟨P, e1, H, T, _⟩ := hS.setIds hne' (ofNat_bounds hids) d
  rw [ofNat_toNat] at H
  obtain ⟨R, r1, r2, _, r3⟩ := H.runLoop hv hnd fuel ds T (by omega)
  have hrun : P.runOnce (realEnv so) v fuel ds = .ok { R with firstRun := false } := by
    simp only [Perc.runOnce]; rw [r1]; rfl
  refine ⟨P, _, e1, hrun, r2.data false _ _ _ _ _, ?_⟩
  have hfirst : P.firstRun = true ∧ P.occProbList = [] ∧ P.entropyList = [] ∧ P.orderWrapList = [] ∧ P.orderLargestList = [] := by
    rw [e] at e1
    rw [← Except.ok.inj e1]
    obtain ⟨_, rev, rfl, _⟩ := new_inv hn
    exact ⟨rfl, rfl, rfl, rfl, rfl⟩
  exact r3.dataArray hfirst false

/-- C68: two new objects of the plain classes are given a list of distinct sites and its image under a symmetry; `run_once` of both gives
the same data array and the same critical values. -/
theorem C68_run_once {so so' : SetOrder} {N1 N2 : Perc ℝ} {draws draws' d d' : Nat → Nat} {ids : List Nat} {fuel : Nat} {ds ds' : Nat → Draw}
    (hv : v.plain = true) (hv' : v'.plain = true) (h1 : Perc.new (realEnv so) L draws = .ok N1) (h2 : Perc.new (realEnv so') L draws' = .ok N2)
    (hne : ids ≠ []) (hids : ∀ i ∈ ids, i < L * L) (hnd : ids.Nodup) (hf : ids.length < fuel) :
    ∃ P1 P2 R1 R2 data, N1.setCustomIds (ids.map Int.ofNat) false d = .ok P1 ∧
      N2.setCustomIds ((ids.map σ.site).map Int.ofNat) false d' = .ok P2 ∧
      P1.runOnce (realEnv so) v fuel ds = .ok R1 ∧ P2.runOnce (realEnv so') v' fuel ds' = .ok R2 ∧
      R1.getDataArray = .ok data ∧ R2.getDataArray = .ok data ∧ data.length = ids.length ∧
      R1.getPc (realEnv so) = R2.getPc (realEnv so') ∧ R1.getSiteCountPc = R2.getSiteCountPc ∧ R1.getBondCountPc = R2.getBondCountPc := by
  have hnd' : (ids.map σ.site).Nodup := List.Nodup.map_on (fun x hx y hy e => by
    have := congrArg σ.back e
    rwa [σ.back_site x (hids x hx), σ.back_site y (hids y hy)] at this) hnd
  obtain ⟨P1, R1, a1, a2, a3, a4⟩ := custom_run (d := d) (ds := ds) hv h1 hne hids hnd hf
  obtain ⟨P2, R2, b1, b2, b3, b4⟩ := custom_run (d := d') (ds := ds') (ids := ids.map σ.site) hv' h2 (by simpa using hne) (σ.map_lt hids) hnd'
    (by simpa using hf)
  refine ⟨P1, P2, R1, R2, _, a1, b1, a2, b2, a4, ?_, by rw [List.length_map, stages_length], ?_⟩
  · rw [b4]
    have hm : stages [] (ids.map σ.site) = (stages [] ids).map (List.map σ.site) := by simpa using stages_map σ.site [] ids
    rw [hm, List.map_map]
    congr 1
    refine List.map_congr_left fun q hq => ?_
    exact σ.dataRow fun s hs => hids s (by simpa using stages_mem hq s hs)
  · obtain ⟨_, _, _, c1, c2, c3, _⟩ := C68_observables σ a3 b3
    exact ⟨c1, c2, c3⟩

/-- C68: the same for the shortest-path class: the run stops after the same number of placements with the same `p*` and the same
critical values. -/
theorem C68_shortest_path {so so' : SetOrder} {ar : Arith α} {N1 N2 : Perc α} {d d' : Nat → Nat} {ids : List Nat} {fuel : Nat}
    (h1 : Start ⟨so, ar⟩ .sp L N1) (h2 : Start ⟨so', ar⟩ .sp L N2)
    (hne : ids ≠ []) (hids : ∀ i ∈ ids, i < L * L) (hnd : ids.Nodup) (hf : ids.length < fuel) :
    ∃ P1 P2 R1 R2, N1.setCustomIds (ids.map Int.ofNat) false d = .ok P1 ∧ N2.setCustomIds ((ids.map σ.site).map Int.ofNat) false d' = .ok P2 ∧
      P1.spRunOnce ⟨so, ar⟩ fuel = .ok R1 ∧ P2.spRunOnce ⟨so', ar⟩ fuel = .ok R2 ∧
      R1.shortestP = R2.shortestP ∧ R1.selectionFlag = R2.selectionFlag ∧ R1.occupiedCount = R2.occupiedCount ∧
      R1.getPc ⟨so, ar⟩ = R2.getPc ⟨so', ar⟩ := by
  have hne' : ids.map Int.ofNat ≠ [] := by simpa using hne
  have hids' := σ.map_lt hids
  have hnd' : (ids.map σ.site).Nodup := List.Nodup.map_on (fun x hx y hy e => by
    have := congrArg σ.back e
    rwa [σ.back_site x (hids x hx), σ.back_site y (hids y hy)] at this) hnd
  have q1 := h1.shortest
  have q2 := h2.shortest
  have p1 : ∀ {env : Env α} {N P : Perc α} {ids : List Nat} {d : Nat → Nat}, Start env .sp L N → ids ≠ [] → (∀ i ∈ ids, i < L * L) →
      N.setCustomIds (ids.map Int.ofNat) false d = .ok P → P.shortestP = env.ar.ofNat 0 := by
    intro env N P ids d h hne hids e
    obtain ⟨_, A, M, hA⟩ := h.reach.sim
    rw [setIds_off M (by simpa using hne) (ofNat_bounds hids) d] at e
    rw [← Except.ok.inj e]
    exact h.shortest
  obtain ⟨P1, e1, H1, T1, _⟩ := h1.setIds hne' (ofNat_bounds hids) d
  obtain ⟨P2, e2, H2, T2, _⟩ := h2.setIds (ids := (ids.map σ.site).map Int.ofNat) (by simpa using hne) (ofNat_bounds hids') d'
  rw [ofNat_toNat] at H1 H2
  obtain ⟨R1, n1, r1, l1, t1, b1, c1⟩ := H1.spRunOnce hnd T1 hf
  obtain ⟨R2, n2, r2, l2, t2, b2, c2⟩ := H2.spRunOnce (fuel := fuel) hnd' T2 (by simpa using hf)
  have hs : ∀ (i k : Nat), ids[i]? = some k → ((ids.map σ.site)[i]? = some (σ.site k) ∧
      (Straight L ((ids.map σ.site).take (i + 1)) (σ.site k) ↔ Straight L (ids.take (i + 1)) k)) := by
    intro i k hk
    refine ⟨by rw [List.getElem?_map, hk]; rfl, ?_⟩
    rw [← List.map_take]
    exact σ.straight (fun s h => hids s (List.mem_of_mem_take h)) (hids k (List.mem_of_getElem? hk))
  have hs' : ∀ (i k : Nat), (ids.map σ.site)[i]? = some k → ∃ k', ids[i]? = some k' ∧ k = σ.site k' := by
    intro i k hk
    rw [List.getElem?_map] at hk
    cases h : ids[i]? with
    | none => rw [h] at hk; cases hk
    | some k' => rw [h] at hk; exact ⟨k', rfl, (Option.some.inj hk).symm⟩
  have fin : n1 = n2 → R1.occupiedCount = R2.occupiedCount ∧ R1.getPc ⟨so, ar⟩ = R2.getPc ⟨so', ar⟩ ∧
      R1.occupationProb ⟨so, ar⟩ = R2.occupationProb ⟨so', ar⟩ := by
    rintro rfl
    rw [← List.map_take] at t2
    obtain ⟨o1, _, _, o4, _⟩ := C68_observables σ t1 t2
    exact ⟨by rw [t1.reports.count, t2.reports.count, List.length_map], o4, o1⟩
  refine ⟨P1, P2, R1, R2, e1, e2, r1, r2, ?_⟩
  rcases c1 with ⟨f1, s1, z1, k1, g1, st1⟩ | ⟨f1, s1, z1, st1⟩
  · have hn1 : n1 - 1 + 1 = n1 := by omega
    rcases c2 with ⟨f2, s2, z2, k2, g2, st2⟩ | ⟨f2, s2, z2, st2⟩
    · have hn2 : n2 - 1 + 1 = n2 := by omega
      have : n1 = n2 := by
        rcases Nat.lt_trichotomy n1 n2 with h | h | h
        · exact absurd ((hs _ _ g1).2.2 (by rw [hn1]; exact st1)) (b2 _ _ (by omega) (hs _ _ g1).1)
        · exact h
        · obtain ⟨k', g', rfl⟩ := hs' _ _ g2
          exact absurd ((hs _ _ g').2.1 (by rw [hn2]; exact st2)) (b1 _ _ (by omega) g')
      obtain ⟨x, y, z⟩ := fin this
      exact ⟨by rw [s1, s2, z], by rw [f1, f2], x, y⟩
    · exact absurd ((hs _ _ g1).2.2 (by rw [hn1]; exact st1)) (st2 _ _ (hs _ _ g1).1)
  · rcases c2 with ⟨f2, s2, z2, k2, g2, st2⟩ | ⟨f2, s2, z2, st2⟩
    · have hn2 : n2 - 1 + 1 = n2 := by omega
      obtain ⟨k', g', rfl⟩ := hs' _ _ g2
      exact absurd ((hs _ _ g').2.1 (by rw [hn2]; exact st2)) (st1 _ _ g')
    · obtain ⟨x, y, z⟩ := fin (by rw [z1, z2, List.length_map])
      exact ⟨by rw [s1, s2, p1 h1 hne hids e1, p1 h2 (by simpa using hne) hids' e2], by rw [f1, f2], x, y⟩

/-! ### The symmetries are those of the torus -/

/-- C68: the statements above hold for every shift of the lattice, for the exchange of rows and columns, for the reversal of the order
of the rows, and for everything composed of them, in particular for the rotation by a quarter turn. -/
theorem C68_symmetries (L a b : Nat) :
    (∀ s, (Symmetry.shift L a b).site s = shiftSite L a b s) ∧ (∀ s, (Symmetry.transpose L).site s = transposeSite L s) ∧
    (∀ s, (Symmetry.flip L).site s = flipSite L s) ∧
    (∀ s, ((Symmetry.transpose L).comp (Symmetry.flip L)).site s = flipSite L (transposeSite L s)) ∧
    (∀ r c, r < L → c < L → shiftSite L a b (r * L + c) = (r + a) % L * L + (c + b) % L) ∧
    (∀ r c, r < L → c < L → transposeSite L (r * L + c) = c * L + r) ∧
    (∀ r c, r < L → c < L → flipSite L (r * L + c) = (L - 1 - r) * L + c) := by
  refine ⟨fun _ => rfl, fun _ => rfl, fun _ => rfl, fun _ => rfl, ?_, ?_, ?_⟩
  · intro r c _ hc
    rw [shiftSite, mul_add_div_L hc, mul_add_mod_L hc]
  · intro r c _ hc
    rw [transposeSite, mul_add_div_L hc, mul_add_mod_L hc]
  · intro r c _ hc
    rw [flipSite, mul_add_div_L hc, mul_add_mod_L hc]

/-- Two traces as in the theorems: on a `3 × 3` lattice the first row and a site below it, and the same shifted by one row and one column. -/
example : ∃ S1 S2 : Perc Unit, Trace demoEnv .l0 3 S1 [0, 1, 2, 4] ∧ Trace demoEnv .sp 3 S2 ([0, 1, 2, 4].map (Symmetry.shift 3 1 1).site) ∧
    S1.afterWrapping = true ∧ [0, 1, 2, 4].map (Symmetry.shift 3 1 1).site = [4, 5, 3, 8] := by
  obtain ⟨S1, q1, T1, h1⟩ := checkTrace_trace (env := demoEnv) (v := .l0) (L := 3) (ids := [0, 1, 2, 4]) (n := 4)
    (p := fun S q => decide (q = [0, 1, 2, 4]) && S.afterWrapping) (by decide +kernel)
  obtain ⟨S2, q2, T2, h2⟩ := checkTrace_trace (env := demoEnv) (v := .sp) (L := 3) (ids := [4, 5, 3, 8]) (n := 4)
    (p := fun _ q => decide (q = [4, 5, 3, 8])) (by decide +kernel)
  simp only [Bool.and_eq_true, decide_eq_true_eq] at h1 h2
  obtain ⟨h1, h3⟩ := h1
  subst h1 h2
  have e : [0, 1, 2, 4].map (Symmetry.shift 3 1 1).site = [4, 5, 3, 8] := by decide +kernel
  exact ⟨S1, S2, T1, by rw [e]; exact T2, h3, e⟩

/-- The hypotheses of `C68_run_once` and `C68_shortest_path` met: two objects of length 3, the list 0, 1, 2, 4 and its transpose. -/
example : ∃ (N1 N2 : Perc ℝ) (R1 R2 : Perc ℝ), Start (realEnv demoSet) .sp 3 N1 ∧ Start (realEnv demoSet) .sp 3 N2 ∧
    R1.shortestP = R2.shortestP ∧ R1.occupiedCount = R2.occupiedCount ∧ [0, 1, 2, 4].map (Symmetry.transpose 3).site = [0, 3, 6, 4] := by
  obtain ⟨N1, e1, _⟩ := fresh_exists (realEnv demoSet) .sp (L := 3) (by decide) (fun _ => 0)
  obtain ⟨N2, e2, _⟩ := fresh_exists (realEnv demoSet) .sp (L := 3) (by decide) (fun _ => 1)
  obtain ⟨_, _, R1, R2, _, _, _, _, h1, _, h2, _⟩ := C68_shortest_path (Symmetry.transpose 3) (Start.new e1) (Start.new e2)
    (d := fun _ => 0) (d' := fun _ => 0) (ids := [0, 1, 2, 4]) (fuel := 9) (by decide) (by decide) (by decide) (by decide)
  exact ⟨N1, N2, R1, R2, .new e1, .new e2, h1, h2, by decide +kernel⟩

end SqPerc
